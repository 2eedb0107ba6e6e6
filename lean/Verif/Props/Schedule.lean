import Verif.Spec.Interleaving
import Verif.Model.Concurrent
import Verif.Lemmas.Owned
import Verif.Props.Names
import Mathlib.Data.List.Nodup
import Mathlib.Data.List.NodupEquivFin

set_option linter.unusedSimpArgs false

/-! # Schedules of the parallel write jobs (C28) -/

namespace AZ
open Spec

variable {env : Env} {cfg : WConfig} {st st' : WState}

/-- Steps of different jobs touch different files. -/
def Apart (parts : List (List Ev)) : Prop :=
  ∀ (i j : Nat) (l l' : List Ev), parts[i]? = some l → parts[j]? = some l' → i ≠ j →
    ∀ e ∈ l, ∀ e' ∈ l', e.path ≠ e'.path

theorem split_part {α : Type} {parts : List (List α)} {i : Nat} {y : List α} (h : parts[i]? = some y) :
    ∃ a b, parts = a ++ y :: b ∧ a.length = i ∧ ∀ x, parts.set i x = a ++ x :: b := by
  induction parts generalizing i with
  | nil => simp at h
  | cons v ws ih =>
    cases i with
    | zero =>
      simp at h
      subst h
      exact ⟨[], ws, rfl, rfl, fun _ => rfl⟩
    | succ k =>
      obtain ⟨a, b, h1, h2, h3⟩ := ih (by simpa using h)
      exact ⟨v :: a, b, by rw [h1]; rfl, by simp [h2], fun x => by rw [List.set_cons_succ, h3]; rfl⟩

/-- Every interleaving performs the same steps on every file, in the same order. -/
theorem interleaving_filter {parts : List (List Ev)} {whole : List Ev} (h : Interleaving parts whole)
    (ha : Apart parts) (p : Text) :
    whole.filter (fun e => e.path = p) = parts.flatten.filter (fun e => e.path = p) := by
  induction h with
  | @done parts h =>
    have : parts.flatten = [] := by
      rw [List.flatten_eq_nil_iff]
      exact h
    rw [this]
  | @step parts i x l whole hi _ ih =>
    obtain ⟨a, b, e1, e2, e3⟩ := split_part hi
    have hap : Apart (parts.set i l) := by
      intro j k m m' hj hk hne e he e' he'
      have sub : ∀ (j : Nat) (m : List Ev), (parts.set i l)[j]? = some m → ∀ e ∈ m, ∃ m0, parts[j]? = some m0 ∧ e ∈ m0 := by
        intro j m hj e he
        by_cases hji : j = i
        · subst hji
          have hlt : j < parts.length := by
            rcases Nat.lt_or_ge j parts.length with h | h
            · exact h
            · rw [List.getElem?_eq_none h] at hi; simp at hi
          rw [List.getElem?_set_self hlt] at hj
          cases hj
          exact ⟨_, hi, List.mem_cons_of_mem _ he⟩
        · rw [List.getElem?_set_ne (by omega)] at hj
          exact ⟨m, hj, he⟩
      obtain ⟨m0, h0, h0'⟩ := sub j m hj e he
      obtain ⟨m1, h1, h1'⟩ := sub k m' hk e' he'
      exact ha j k m0 m1 h0 h1 hne e h0' e' h1'
    have ih := ih hap
    rw [e3] at ih
    rw [e1]
    simp only [List.flatten_append, List.flatten_cons, List.filter_append] at ih ⊢
    by_cases hx : x.path = p
    · rw [List.filter_cons_of_pos (by simpa using hx), ih, List.filter_cons_of_pos (by simpa using hx)]
      have hnil : a.flatten.filter (fun e => decide (e.path = p)) = [] := by
        rw [List.filter_eq_nil_iff]
        intro e he
        obtain ⟨m, hm, hem⟩ := List.mem_flatten.1 he
        obtain ⟨j, hj⟩ := List.mem_iff_getElem?.1 hm
        have hjl : j < a.length := by
          rcases Nat.lt_or_ge j a.length with h | h
          · exact h
          · rw [List.getElem?_eq_none h] at hj; simp at hj
        have : parts[j]? = some m := by rw [e1, List.getElem?_append_left hjl]; exact hj
        have := ha j i m (x :: l) this hi (by omega) e hem x (by simp)
        rw [hx] at this
        simpa using this
      rw [hnil]
      rfl
    · rw [List.filter_cons_of_neg (by simpa using hx), ih, List.filter_cons_of_neg (by simpa using hx)]

theorem interleaving_file {parts : List (List Ev)} {whole : List Ev} (h : Interleaving parts whole)
    (ha : Apart parts) (p : Text) (before after : List Ev) (cur : Option Bytes) :
    (before ++ whole ++ after).foldl (stepFile p) cur = (before ++ parts.flatten ++ after).foldl (stepFile p) cur := by
  rw [List.foldl_append, List.foldl_append, List.foldl_append, List.foldl_append]
  congr 1
  rw [foldl_stepFile_filter, interleaving_filter h ha p, ← foldl_stepFile_filter]

/-! ### The jobs of a flush -/

theorem chunkJob_paths {p : Text} {d : Bytes} : ∀ e ∈ (chunkJob env p d).1, e.path = p := by
  intro e he
  unfold chunkJob at he
  split at he
  · simp at he; subst he; rfl
  · simp at he
  · simp at he
  · simp at he

theorem shardLoop_paths {D : ArrayDims} {p : Text} {bufs : List Bytes} {cs : List Nat} {j : ShardJob}
    (hj : ∀ e ∈ j.trace, e.path = p) : ∀ e ∈ (shardLoop env D p bufs cs j).trace, e.path = p := by
  induction cs generalizing j with
  | nil => exact hj
  | cons c cs ih =>
    rw [shardLoop]
    split
    · exact hj
    · split
      · exact hj
      · exact hj
      · have hev : ∀ ch out, ∀ e ∈ j.trace ++ (if out = WriteOut.stored then [Ev.wrote p j.offset ch] else []), e.path = p := by
          intro ch out e he
          rcases List.mem_append.1 he with he | he
          · exact hj e he
          · split at he
            · simp at he; subst he; rfl
            · simp at he
        dsimp only
        split
        · exact ih (hev _ _)
        · exact hev _ _

theorem shardJob_paths {D : ArrayDims} {p : Text} {bufs : List Bytes} {cs : List Nat} {t : List Nat} {o : Nat} {b : Bool} :
    ∀ e ∈ (shardJob env D p bufs cs t o b).trace, e.path = p := by
  have hl : ∀ e ∈ (shardLoop env D p bufs cs ⟨t, o, false, false, [], []⟩).trace, e.path = p :=
    shardLoop_paths (by simp)
  unfold shardJob
  dsimp only
  split
  · split
    · exact hl
    · exact hl
    · intro e he
      rcases List.mem_append.1 he with he | he
      · exact hl e he
      · simp at he; subst he; rfl
    · exact hl
  · exact hl

theorem apart_of_paths {parts : List (List Ev)} {path : Nat → Text}
    (hp : ∀ (i : Nat) (l : List Ev), parts[i]? = some l → ∀ e ∈ l, e.path = path i)
    (hn : ∀ i j, i < parts.length → j < parts.length → path i = path j → i = j) : Apart parts := by
  intro i j l l' hi hj hne e he e' he' heq
  have h1 := hp i l hi e he
  have h2 := hp j l' hj e' he'
  have hlt : ∀ (k : Nat) (m : List Ev), parts[k]? = some m → k < parts.length := by
    intro k m hk
    rcases Nat.lt_or_ge k parts.length with h | h
    · exact h
    · rw [List.getElem?_eq_none h] at hk; simp at hk
  exact hne (hn i j (hlt i l hi) (hlt j l' hj) (by rw [← h1, ← h2, heq]))

theorem nodup_getD {l : List Text} (h : l.Nodup) {i j : Nat} (hi : i < l.length) (hj : j < l.length)
    (he : l.getD i [] = l.getD j []) : i = j := by
  rw [List.getD_eq_getElem?_getD, List.getD_eq_getElem?_getD, List.getElem?_eq_getElem hi, List.getElem?_eq_getElem hj] at he
  exact (List.Nodup.getElem_inj_iff h).1 he

/-- The jobs of a flush touch different files, if the sinks are different. -/
theorem writeJobs_apart (hn : st.dataSinks.Nodup) (hl : cfg.version = .v3 → st.dataSinks.length = cfg.dims.numberOfShards) :
    Apart (writeJobs env cfg st) := by
  unfold writeJobs
  cases hv : cfg.version with
  | v2 =>
    refine apart_of_paths (path := fun i => st.dataSinks.getD i []) ?_ ?_
    · intro i l hi e he
      rw [List.getElem?_map, Option.map_eq_some_iff] at hi
      obtain ⟨⟨q, d⟩, h1, rfl⟩ := hi
      have hq := (List.getElem?_zip_eq_some.1 h1).1
      have := chunkJob_paths e he
      rw [this]
      dsimp only
      rw [List.getD_eq_getElem?_getD, hq]
      rfl
    · intro i j hi hj he
      simp only [List.length_map, List.length_zip] at hi hj
      exact nodup_getD hn (by omega) (by omega) he
  | v3 =>
    refine apart_of_paths (path := fun i => st.dataSinks.getD i []) ?_ ?_
    · intro i l hi e he
      rw [List.getElem?_map, Option.map_eq_some_iff] at hi
      obtain ⟨k, h1, rfl⟩ := hi
      have hk : k = i := by
        rcases Nat.lt_or_ge i cfg.dims.numberOfShards with h | h
        · rw [List.getElem?_range h] at h1; simpa using h1.symm
        · rw [List.getElem?_eq_none (by simpa using h)] at h1; simp at h1
      subst hk
      exact shardJob_paths e he
    · intro i j hi hj he
      simp only [List.length_map, List.length_range] at hi hj
      have := hl hv
      exact nodup_getD hn (by omega) (by omega) he

theorem dataPaths_nodup {g : Nat} {ps : List Text} (h : dataPaths cfg g = some ps) : ps.Nodup := by
  rw [List.nodup_iff_injective_get]
  intro ⟨i, hi⟩ ⟨j, hj⟩ he
  simp only [List.get_eq_getElem] at he
  obtain ⟨a1, a2⟩ := dataPaths_get h (List.getElem?_eq_getElem hi)
  obtain ⟨b1, b2⟩ := dataPaths_get h (List.getElem?_eq_getElem hj)
  rw [a2, b2] at he
  obtain ⟨_, _, h3⟩ := objectPath_inj_level ⟨rfl, rfl, rfl⟩ he
  have : i = j := by
    rw [← ravel_unravel (s := cfg.dims.tailDims.map (partsAlong cfg.version)) a1, h3, ravel_unravel b1]
  subst this
  rfl

theorem makeDataSinks_nodup (h : makeDataSinks env cfg st = some st') : st'.dataSinks.Nodup := by
  unfold makeDataSinks at h
  split at h
  · simp at h
  · rename_i ps hps
    split at h
    · cases h
      exact dataPaths_nodup hps
    · simp at h

/-- What a flush does between creating the sinks and closing them: the steps of the jobs, one job after the other in
the model. -/
theorem flushImpl_trace (h : flushImpl env cfg st = .ok st') : ∃ st1, jobsStart env cfg st = some st1 ∧
    st'.trace = st1.trace ++ (writeJobs env cfg st1).flatten ∧ st'.dataSinks = st1.dataSinks ∧
    (cfg.version = .v3 → st1.dataSinks.length = cfg.dims.numberOfShards) := by
  unfold flushImpl at h
  unfold jobsStart writeJobs
  cases hv : cfg.version with
  | v2 =>
    rw [hv] at h
    dsimp only at h ⊢
    unfold flushImplV2 at h
    obtain ⟨_, _, h⟩ := Res.bind_eq_ok.1 h
    split at h
    · simp at h
    · rename_i st1 h1
      obtain ⟨_, _, h⟩ := Res.bind_eq_ok.1 h
      simp only [Res.pure_eq, Res.ok.injEq] at h
      subst h
      refine ⟨st1, h1, ?_, rfl, by simp⟩
      dsimp only
      rw [List.flatMap_def, List.map_map]
      rfl
  | v3 =>
    rw [hv] at h
    dsimp only at h ⊢
    unfold flushImplV3 at h
    dsimp only at h
    split at h
    · simp at h
    · rename_i st1 h1
      obtain ⟨_, hlen, h⟩ := Res.bind_eq_ok.1 h
      split at h
      · simp at h
      obtain ⟨roll, hr, h⟩ := Res.bind_eq_ok.1 h
      obtain ⟨_, _, h⟩ := Res.bind_eq_ok.1 h
      simp only [Res.pure_eq, Res.ok.injEq] at h
      subst h
      rw [check_eq_ok] at hlen
      refine ⟨st1, h1, ?_, rfl, fun _ => by simpa using hlen⟩
      dsimp only
      rw [hr, List.flatMap_def, List.map_map]
      rfl

/-! ### The sinks of a writer are always different files -/

theorem jobsStart_nodup {st1 : WState} (hn : st.dataSinks.Nodup) (h : jobsStart env cfg st = some st1) :
    st1.dataSinks.Nodup := by
  unfold jobsStart at h
  split at h
  · exact makeDataSinks_nodup h
  · split at h
    · exact makeDataSinks_nodup h
    · cases h; exact hn

theorem writeArrayMetadata_sinks (h : writeArrayMetadata env cfg st = .ok st') : st'.dataSinks = st.dataSinks := by
  unfold writeArrayMetadata at h
  dsimp only at h
  obtain ⟨_, _, h⟩ := Res.bind_eq_ok.1 h
  obtain ⟨n, _, h⟩ := Res.bind_eq_ok.1 h
  split at h
  · simp only [Res.pure_eq, Res.ok.injEq] at h
    subst h
    dsimp only
    split <;> rfl
  · simp only [Res.pure_eq, Res.ok.injEq] at h
    subst h
    split <;> rfl
  · simp at h
  · simp at h

theorem flush_nodup (hn : st.dataSinks.Nodup) (h : flush env cfg st = .ok st') : st'.dataSinks.Nodup := by
  rw [flush_seq] at h
  split at h
  · cases h; exact hn
  · obtain ⟨s2, h2, h⟩ := Res.bind_eq_ok.1 h
    obtain ⟨roll, _, h⟩ := Res.bind_eq_ok.1 h
    obtain ⟨s3, h3, h⟩ := Res.bind_eq_ok.1 h
    obtain ⟨s4, h4, h⟩ := Res.bind_eq_ok.1 h
    simp only [Res.pure_eq, Res.ok.injEq] at h
    subst h
    show s4.dataSinks.Nodup
    have hc : (compressBuffers env cfg st).dataSinks.Nodup := by
      unfold compressBuffers
      split
      · exact hn
      · exact hn
    obtain ⟨s1, k1, _, k3, _⟩ := flushImpl_trace h2
    have n2 : s2.dataSinks.Nodup := by rw [k3]; exact jobsStart_nodup hc k1
    have n3 : s3.dataSinks.Nodup := by
      split at h3
      · unfold rollover at h3
        obtain ⟨_, _, h3⟩ := Res.bind_eq_ok.1 h3
        simp only [Res.pure_eq, Res.ok.injEq] at h3
        subst h3
        exact List.nodup_nil
      · cases h3; exact n2
    split at h4
    · rw [writeArrayMetadata_sinks h4]; exact n3
    · cases h4; exact n3

theorem writeFrame_nodup {data : Bytes} {n : Nat} (hn : st.dataSinks.Nodup)
    (h : writeFrame env cfg data st = .ok (st', n)) : st'.dataSinks.Nodup := by
  rw [writeFrame_seq] at h
  split at h
  · cases h; exact hn
  · dsimp only at h
    obtain ⟨⟨bufs, m⟩, _, h⟩ := Res.bind_eq_ok.1 h
    dsimp only at h
    obtain ⟨_, _, h⟩ := Res.bind_eq_ok.1 h
    obtain ⟨fl, _, h⟩ := Res.bind_eq_ok.1 h
    obtain ⟨s2, h2, h⟩ := Res.bind_eq_ok.1 h
    simp only [Res.pure_eq, Res.ok.injEq, Prod.mk.injEq] at h
    obtain ⟨rfl, rfl⟩ := h
    have h0 : (if st.bufs.isEmpty then { st with bufs := makeBuffers cfg.dims } else st).dataSinks.Nodup := by
      split <;> exact hn
    split at h2
    · exact flush_nodup (by exact h0) h2
    · cases h2; exact h0

theorem writeFrames_nodup {frames : List Bytes} (hn : st.dataSinks.Nodup)
    (h : writeFrames env cfg frames st = .ok st') : st'.dataSinks.Nodup := by
  induction frames generalizing st with
  | nil => cases h; exact hn
  | cons f fs ih =>
    rw [writeFrames] at h
    obtain ⟨⟨s1, n⟩, h1, h⟩ := Res.bind_eq_ok.1 h
    dsimp only at h
    obtain ⟨_, _, h⟩ := Res.bind_eq_ok.1 h
    exact ih (writeFrame_nodup hn h1) h

/-- The state in which a flush starts its jobs, somewhere in the life of an array writer: after any frames, with any
buffer contents and counters (the flush may be due to a full chunk or to finalization). -/
structure FlushPoint (env : Env) (cfg : WConfig) (st : WState) : Prop where
  life : ∃ frames st0, writeFrames env cfg frames (WState.init cfg) = .ok st0 ∧ st.dataSinks = st0.dataSinks

/-- **C28.** In every flush of every array writer (V2 and V3, whatever the storage does), for every interleaving
`whole` of the storage steps of its parallel jobs, every file has the same contents afterwards as when the jobs run
one after the other, whatever happened before and happens later. -/
theorem flush_schedule_irrelevant (hp : FlushPoint env cfg st) (h : flushImpl env cfg st = .ok st') :
    ∃ st1, jobsStart env cfg st = some st1 ∧ st'.trace = st1.trace ++ (writeJobs env cfg st1).flatten ∧
      ∀ whole, Interleaving (writeJobs env cfg st1) whole → ∀ (p : Text) (after : List Ev) (cur : Option Bytes),
        (st1.trace ++ whole ++ after).foldl (stepFile p) cur = (st'.trace ++ after).foldl (stepFile p) cur := by
  obtain ⟨frames, st0, h0, he⟩ := hp.life
  have hn : st.dataSinks.Nodup := by
    rw [he]
    refine writeFrames_nodup ?_ h0
    unfold WState.init
    exact List.nodup_nil
  obtain ⟨st1, h1, h2, _, h4⟩ := flushImpl_trace h
  refine ⟨st1, h1, h2, ?_⟩
  intro whole hw p after cur
  rw [h2]
  exact interleaving_file hw (writeJobs_apart (jobsStart_nodup hn h1) h4) p _ _ _

/-- The flush of a fresh writer with zeroed buffers is a flush point, and it goes through. -/
example : FlushPoint Sample.env Sample.cfg { WState.init Sample.cfg with bufs := makeBuffers Sample.dims } ∧
    ∃ st', flushImpl Sample.env Sample.cfg { WState.init Sample.cfg with bufs := makeBuffers Sample.dims } = .ok st' :=
  ⟨⟨[], WState.init Sample.cfg, rfl, rfl⟩, ⟨_, rfl⟩⟩

/-- Three jobs, the steps of two of them nested in the third. -/
example (a b c d e : Ev) : Interleaving [[a, b], [c], [d, e]] [d, a, c, b, e] :=
  .step (i := 2) rfl (.step (i := 0) rfl (.step (i := 1) rfl (.step (i := 0) rfl (.step (i := 2) rfl
    (.done (by simp))))))

end AZ
