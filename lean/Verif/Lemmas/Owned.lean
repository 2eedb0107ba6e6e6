import Verif.Lemmas.MetaDoc
import Verif.Lemmas.WriterV2

/-! # A writer only touches the objects of its own array, and only extends the history -/

namespace AZ
open Spec

/-- Objects that belong to the array of `cfg`. -/
def Owned (cfg : WConfig) (p : Text) : Prop :=
  p = arrayMetaPath cfg ∨ ∃ g l, p = objectPath cfg g l

theorem dataPathsFrom_pos {v : Version} {ds : List Dim} {ps qs : List Text}
    (h : dataPathsFrom v ds ps = some qs) : ∀ d ∈ ds, 0 < partsAlong v d := by
  induction ds generalizing ps with
  | nil => simp
  | cons d ds ih =>
    rw [dataPathsFrom] at h
    split at h
    · simp at h
    · intro x hx
      rcases List.mem_cons.1 hx with rfl | hx
      · omega
      · exact ih h x hx

theorem mem_dataPaths {cfg : WConfig} {g : Nat} {ps : List Text} (h : dataPaths cfg g = some ps) {p : Text}
    (hp : p ∈ ps) : ∃ l, p = objectPath cfg g l := by
  have hpos : ∀ d ∈ cfg.dims.tailDims, 0 < partsAlong cfg.version d := by
    unfold dataPaths at h
    exact dataPathsFrom_pos h
  rw [dataPaths_eq cfg g hpos] at h
  cases h
  obtain ⟨c, _, rfl⟩ := List.mem_map.1 hp
  exact ⟨_, rfl⟩

/-- `st'` extends the history of `st` by events about the array's own objects. -/
structure Ext (cfg : WConfig) (st st' : WState) : Prop where
  trace : ∃ evs, st'.trace = st.trace ++ evs ∧ ∀ e ∈ evs, Owned cfg e.path
  errors : ∃ es, st'.errors = st.errors ++ es
  sinks : (∀ p ∈ st.dataSinks, ∃ g l, p = objectPath cfg g l) →
    ∀ p ∈ st'.dataSinks, ∃ g l, p = objectPath cfg g l

theorem Ext.refl (cfg : WConfig) (st : WState) : Ext cfg st st :=
  ⟨⟨[], by simp⟩, ⟨[], by simp⟩, id⟩

theorem Ext.of_eq {cfg : WConfig} {st st' : WState} (h1 : st'.trace = st.trace) (h2 : st'.errors = st.errors)
    (h3 : st'.dataSinks = st.dataSinks) : Ext cfg st st' :=
  ⟨⟨[], by simp [h1]⟩, ⟨[], by simp [h2]⟩, by rw [h3]; exact id⟩

theorem Ext.trans {cfg : WConfig} {a b c : WState} (h1 : Ext cfg a b) (h2 : Ext cfg b c) : Ext cfg a c := by
  obtain ⟨⟨e1, t1, o1⟩, ⟨r1, s1⟩, d1⟩ := h1
  obtain ⟨⟨e2, t2, o2⟩, ⟨r2, s2⟩, d2⟩ := h2
  refine ⟨⟨e1 ++ e2, by rw [t2, t1, List.append_assoc], ?_⟩, ⟨r1 ++ r2, by rw [s2, s1, List.append_assoc]⟩,
    fun h => d2 (d1 h)⟩
  intro e he
  rcases List.mem_append.1 he with h | h
  · exact o1 e h
  · exact o2 e h

theorem ext_compress (env : Env) (cfg : WConfig) (st : WState) : Ext cfg st (compressBuffers env cfg st) := by
  unfold compressBuffers
  split
  · exact Ext.refl _ _
  · exact ⟨⟨[], by simp⟩, ⟨_, rfl⟩, id⟩

theorem ext_makeDataSinks {env : Env} {cfg : WConfig} {st st' : WState}
    (h : makeDataSinks env cfg st = some st') : Ext cfg st st' := by
  unfold makeDataSinks at h
  split at h
  · simp at h
  · rename_i paths hp
    split at h
    · cases h
      refine ⟨⟨_, rfl, ?_⟩, ⟨[], by simp⟩, ?_⟩
      · intro e he
        obtain ⟨p, hpm, rfl⟩ := List.mem_map.1 he
        obtain ⟨l, rfl⟩ := mem_dataPaths hp hpm
        exact .inr ⟨_, _, rfl⟩
      · intro _ p hpm
        obtain ⟨l, rfl⟩ := mem_dataPaths hp hpm
        exact ⟨_, _, rfl⟩
    · simp at h

theorem chunkJob_path {env : Env} {p : Text} {b : Bytes} {e : Ev} (h : e ∈ (chunkJob env p b).1) :
    e.path = p := by
  unfold chunkJob at h
  split at h
  · simp at h; subst h; rfl
  · simp at h
  · simp at h
  · simp at h

/-- A weaker extension relation that needs the open sinks to be owned. -/
def ExtO (cfg : WConfig) (st st' : WState) : Prop :=
  (∀ p ∈ st.dataSinks, ∃ g l, p = objectPath cfg g l) → Ext cfg st st'

theorem Ext.o {cfg : WConfig} {a b : WState} (h : Ext cfg a b) : ExtO cfg a b := fun _ => h

theorem ExtO.trans {cfg : WConfig} {a b c : WState} (h1 : ExtO cfg a b) (h2 : ExtO cfg b c) :
    ExtO cfg a c := fun h => (h1 h).trans (h2 ((h1 h).sinks h))

theorem Res.bind_eq_ok {α β : Type} {r : Res α} {f : α → Res β} {b : β} :
    (r >>= f) = .ok b ↔ ∃ a, r = .ok a ∧ f a = .ok b := by
  cases r with
  | ok a => simp
  | throw => simp
  | ub => simp

theorem check_eq_ok {b : Bool} {u : Unit} : check b = .ok u ↔ b = true := by
  cases b <;> simp

theorem ext_flushImplV2 {env : Env} {cfg : WConfig} {st st' : WState}
    (h : flushImplV2 env cfg st = .ok st') : ExtO cfg st st' := by
  intro _
  unfold flushImplV2 at h
  obtain ⟨_, _, h⟩ := Res.bind_eq_ok.1 h
  split at h
  · simp at h
  · rename_i st1 hm
    have h1 := ext_makeDataSinks hm
    obtain ⟨_, _, h⟩ := Res.bind_eq_ok.1 h
    simp only [Res.pure_eq, Res.ok.injEq] at h
    subst h
    have hs : ∀ p ∈ st1.dataSinks, ∃ g l, p = objectPath cfg g l := by
      unfold makeDataSinks at hm
      split at hm
      · simp at hm
      · rename_i paths hp
        split at hm
        · cases hm
          intro p hpm
          obtain ⟨l, rfl⟩ := mem_dataPaths hp hpm
          exact ⟨_, _, rfl⟩
        · simp at hm
    refine h1.trans ⟨⟨_, rfl, ?_⟩, ⟨_, rfl⟩, fun h => h⟩
    intro e he
    obtain ⟨r, hr, her⟩ := List.mem_flatMap.1 he
    obtain ⟨⟨p, b⟩, hz, rfl⟩ := List.mem_map.1 hr
    rw [chunkJob_path her]
    obtain ⟨g, l, rfl⟩ := hs p (List.of_mem_zip hz).1
    exact .inr ⟨g, l, rfl⟩

theorem shardLoop_path {env : Env} {D : ArrayDims} {p : Text} {bufs : List Bytes} (cs : List Nat) (j : ShardJob)
    (hj : ∀ e ∈ j.trace, e.path = p) : ∀ e ∈ (shardLoop env D p bufs cs j).trace, e.path = p := by
  induction cs generalizing j with
  | nil => exact hj
  | cons ci cs ih =>
    rw [shardLoop]
    split
    · exact hj
    · rename_i chunk _
      have hev : ∀ (w : WriteOut), ∀ e ∈ j.trace ++ (if w = .stored then [Ev.wrote p j.offset chunk] else []),
          e.path = p := by
        intro w e he
        rcases List.mem_append.1 he with h | h
        · exact hj e h
        · split at h
          · simp at h; subst h; rfl
          · simp at h
      split
      · exact hj
      · exact hj
      · dsimp only
        split
        · exact ih _ (hev _)
        · exact hev _

theorem shardJob_path {env : Env} {D : ArrayDims} {p : Text} {bufs : List Bytes} {cs : List Nat}
    {table : List Nat} {offset : Nat} {wt : Bool} :
    ∀ e ∈ (shardJob env D p bufs cs table offset wt).trace, e.path = p := by
  unfold shardJob
  have h0 := shardLoop_path (env := env) (D := D) (p := p) (bufs := bufs) cs ⟨table, offset, false, false, [], []⟩
    (by simp)
  dsimp only
  split
  · split
    · exact h0
    · exact h0
    · intro e he
      rcases List.mem_append.1 he with h | h
      · exact h0 e h
      · simp at h; subst h; rfl
    · exact h0
  · exact h0

theorem ext_flushImplV3 {env : Env} {cfg : WConfig} {st st' : WState}
    (h : flushImplV3 env cfg st = .ok st') : ExtO cfg st st' := by
  intro hown
  unfold flushImplV3 at h
  dsimp only at h
  split at h
  · simp at h
  · rename_i st1 hm
    have h1 : Ext cfg st st1 := by
      split at hm
      · exact ext_makeDataSinks hm
      · cases hm; exact Ext.refl _ _
    have hown1 := h1.sinks hown
    obtain ⟨_, hlen, h⟩ := Res.bind_eq_ok.1 h
    rw [check_eq_ok] at hlen
    simp only [beq_iff_eq] at hlen
    split at h
    · simp at h
    · obtain ⟨roll, _, h⟩ := Res.bind_eq_ok.1 h
      obtain ⟨_, _, h⟩ := Res.bind_eq_ok.1 h
      simp only [Res.pure_eq, Res.ok.injEq] at h
      subst h
      refine h1.trans ⟨⟨_, rfl, ?_⟩, ⟨_, rfl⟩, fun h => h⟩
      intro e he
      obtain ⟨j, hj, hej⟩ := List.mem_flatMap.1 he
      obtain ⟨i, hi, rfl⟩ := List.mem_map.1 hj
      rw [shardJob_path e hej]
      have hi' : i < st1.dataSinks.length := by rw [hlen]; exact List.mem_range.1 hi
      have : st1.dataSinks.getD i [] = st1.dataSinks[i] := by
        rw [List.getD_eq_getElem?_getD, List.getElem?_eq_getElem hi']; rfl
      rw [this]
      exact .inr (hown1 _ (List.getElem_mem hi'))

theorem finalizeSinks_paths {env : Env} {ps : List Text} {evs : List Ev} (h : finalizeSinks env ps = .ok evs) :
    evs = ps.map Ev.finalized := by
  induction ps generalizing evs with
  | nil => cases h; rfl
  | cons p ps ih =>
    rw [finalizeSinks] at h
    obtain ⟨_, _, h⟩ := Res.bind_eq_ok.1 h
    obtain ⟨r, hr, h⟩ := Res.bind_eq_ok.1 h
    simp only [Res.pure_eq, Res.ok.injEq] at h
    rw [← h, ih hr]; rfl

theorem ext_rollover {env : Env} {cfg : WConfig} {st st' : WState} (h : rollover env st = .ok st') :
    ExtO cfg st st' := by
  intro hown
  unfold rollover at h
  obtain ⟨evs, he, h⟩ := Res.bind_eq_ok.1 h
  simp only [Res.pure_eq, Res.ok.injEq] at h
  subst h
  refine ⟨⟨evs, rfl, ?_⟩, ⟨[], by simp⟩, by simp⟩
  rw [finalizeSinks_paths he]
  intro e he
  obtain ⟨p, hp, rfl⟩ := List.mem_map.1 he
  exact .inr (hown p hp)

theorem ext_writeArrayMetadata {env : Env} {cfg : WConfig} {st st' : WState}
    (h : writeArrayMetadata env cfg st = .ok st') : Ext cfg st st' := by
  unfold writeArrayMetadata at h
  dsimp only at h
  obtain ⟨_, _, h⟩ := Res.bind_eq_ok.1 h
  obtain ⟨n, _, h⟩ := Res.bind_eq_ok.1 h
  have h1 : Ext cfg st (if st.metaSink then st else
      { st with metaSink := true, trace := st.trace ++ [.opened (arrayMetaPath cfg)] }) := by
    split
    · exact Ext.refl _ _
    · exact ⟨⟨_, rfl, by intro e he; simp at he; subst he; exact .inl rfl⟩, ⟨[], by simp⟩, id⟩
  refine h1.trans ?_
  generalize (if st.metaSink then st else
      { st with metaSink := true, trace := st.trace ++ [.opened (arrayMetaPath cfg)] }) = s1 at *
  split at h
  · simp only [Res.pure_eq, Res.ok.injEq] at h
    subst h
    exact ⟨⟨_, rfl, by intro e he; simp at he; subst he; exact .inl rfl⟩, ⟨[], by simp⟩, id⟩
  · simp only [Res.pure_eq, Res.ok.injEq] at h
    subst h
    exact Ext.refl _ _
  · simp at h
  · simp at h

/-- The implementation selected by the version. -/
def flushImpl (env : Env) (cfg : WConfig) (st : WState) : Res WState :=
  match cfg.version with
  | .v2 => flushImplV2 env cfg st
  | .v3 => flushImplV3 env cfg st

theorem flush_seq (env : Env) (cfg : WConfig) (st : WState) : flush env cfg st =
    if st.bytesToFlush = 0 then .ok st else
      (flushImpl env cfg (compressBuffers env cfg st)) >>= fun s2 =>
      (shouldRollover cfg s2) >>= fun roll =>
      (if roll then rollover env s2 else .ok s2) >>= fun s3 =>
      (if roll || s3.finalizing then writeArrayMetadata env cfg s3 else .ok s3) >>= fun s4 =>
      pure { s4 with bufs := makeBuffers cfg.dims, bytesToFlush := 0 } := by
  unfold flush flushImpl
  split
  · rfl
  · cases cfg.version
    all_goals
      dsimp only
      congr 1
      funext s2
      congr 1
      funext roll
      cases roll
      · simp only [Bool.false_eq_true, if_false, Bool.false_or, Res.bind_ok]
        split <;> rfl
      · simp only [if_true, Bool.true_or]

theorem writeFrame_seq (env : Env) (cfg : WConfig) (data : Bytes) (st : WState) : writeFrame env cfg data st =
    if bytesOfFrame cfg.dims ≠ data.length then .ok (st, 0) else
      let s0 := if st.bufs.isEmpty then { st with bufs := makeBuffers cfg.dims } else st
      writeFrameToChunks cfg.dims s0.framesWritten data s0.bufs >>= fun r =>
      check (r.2 == data.length) >>= fun _ =>
      let s1 := { s0 with
        bufs := r.1
        bytesToFlush := u64 (s0.bytesToFlush + r.2)
        framesWritten := u32 (s0.framesWritten + 1) }
      shouldFlush cfg.dims s1 >>= fun fl =>
      (if fl then flush env cfg s1 else .ok s1) >>= fun s2 =>
      pure (s2, r.2) := by
  unfold writeFrame
  split
  · rfl
  · dsimp only
    congr 1
    funext r
    obtain ⟨b, n⟩ := r
    dsimp only
    congr 1
    funext _
    congr 1
    funext fl
    cases fl <;> rfl

theorem finalizeArray_seq (env : Env) (cfg : WConfig) (st : WState) : finalizeArray env cfg st =
    flush env cfg { st with finalizing := true } >>= fun s1 =>
    (if s1.metaSink then
      check (env.finalize (arrayMetaPath cfg)) >>= fun _ =>
      .ok { s1 with
        metaSink := false
        trace := s1.trace ++ [.finalized (arrayMetaPath cfg)] } else .ok s1) >>= fun s2 =>
    pure { s2 with
      trace := s2.trace ++ s2.dataSinks.map Ev.dropped
      dataSinks := [] } := by
  unfold finalizeArray
  congr 1
  funext s1
  cases h : s1.metaSink
  · rfl
  · simp only [if_true]
    cases env.finalize (arrayMetaPath cfg) <;> rfl

theorem ext_flush {env : Env} {cfg : WConfig} {st st' : WState} (h : flush env cfg st = .ok st') :
    ExtO cfg st st' := by
  rw [flush_seq] at h
  split at h
  · cases h; exact (Ext.refl _ _).o
  · obtain ⟨s2, h2, h⟩ := Res.bind_eq_ok.1 h
    obtain ⟨roll, _, h⟩ := Res.bind_eq_ok.1 h
    obtain ⟨s3, h3, h⟩ := Res.bind_eq_ok.1 h
    obtain ⟨s4, h4, h⟩ := Res.bind_eq_ok.1 h
    simp only [Res.pure_eq, Res.ok.injEq] at h
    subst h
    refine (ext_compress env cfg st).o.trans ?_
    have e2 : ExtO cfg (compressBuffers env cfg st) s2 := by
      unfold flushImpl at h2
      split at h2
      · exact ext_flushImplV2 h2
      · exact ext_flushImplV3 h2
    have e3 : ExtO cfg s2 s3 := by
      split at h3
      · exact ext_rollover h3
      · cases h3; exact (Ext.refl _ _).o
    have e4 : ExtO cfg s3 s4 := by
      split at h4
      · exact (ext_writeArrayMetadata h4).o
      · cases h4; exact (Ext.refl _ _).o
    refine e2.trans (e3.trans (e4.trans ?_))
    exact Ext.o (by apply Ext.of_eq <;> rfl)

theorem ext_writeFrame {env : Env} {cfg : WConfig} {data : Bytes} {st st' : WState} {n : Nat}
    (h : writeFrame env cfg data st = .ok (st', n)) : ExtO cfg st st' ∧
      (n = 0 ∨ n = data.length) := by
  rw [writeFrame_seq] at h
  split at h
  · cases h; exact ⟨(Ext.refl _ _).o, .inl rfl⟩
  · dsimp only at h
    obtain ⟨⟨bufs, m⟩, _, h⟩ := Res.bind_eq_ok.1 h
    dsimp only at h
    obtain ⟨_, hm, h⟩ := Res.bind_eq_ok.1 h
    obtain ⟨fl, _, h⟩ := Res.bind_eq_ok.1 h
    obtain ⟨s2, h2, h⟩ := Res.bind_eq_ok.1 h
    simp only [Res.pure_eq, Res.ok.injEq, Prod.mk.injEq] at h
    obtain ⟨rfl, rfl⟩ := h
    rw [check_eq_ok] at hm
    refine ⟨?_, .inr (by simpa using hm)⟩
    have e0 : ExtO cfg st (if st.bufs.isEmpty then { st with bufs := makeBuffers cfg.dims } else st) := by
      split
      · exact Ext.o (by apply Ext.of_eq <;> rfl)
      · exact (Ext.refl _ _).o
    refine e0.trans ?_
    generalize (if st.bufs.isEmpty then { st with bufs := makeBuffers cfg.dims } else st) = s0 at *
    split at h2
    · refine ExtO.trans ?_ (ext_flush h2)
      exact Ext.o (by apply Ext.of_eq <;> rfl)
    · cases h2
      exact Ext.o (by apply Ext.of_eq <;> rfl)

theorem ext_finalizeArray {env : Env} {cfg : WConfig} {st st' : WState}
    (h : finalizeArray env cfg st = .ok st') : ExtO cfg st st' := by
  rw [finalizeArray_seq] at h
  obtain ⟨s1, h1, h⟩ := Res.bind_eq_ok.1 h
  obtain ⟨s2, h2, h⟩ := Res.bind_eq_ok.1 h
  simp only [Res.pure_eq, Res.ok.injEq] at h
  subst h
  have e1 := ext_flush h1
  have e0 : ExtO cfg st { st with finalizing := true } := by
    apply Ext.o
    apply Ext.of_eq <;> rfl
  have e2 : ExtO cfg s1 s2 := by
    split at h2
    · obtain ⟨_, _, h2⟩ := Res.bind_eq_ok.1 h2
      simp only [Res.pure_eq, Res.ok.injEq] at h2
      subst h2
      exact Ext.o ⟨⟨_, rfl, by intro e he; simp at he; subst he; exact .inl rfl⟩, ⟨[], by simp⟩, id⟩
    · cases h2; exact (Ext.refl _ _).o
  refine e0.trans (e1.trans (e2.trans ?_))
  intro hown
  refine ⟨⟨_, rfl, ?_⟩, ⟨[], by simp⟩, by simp⟩
  intro e he
  obtain ⟨p, hp, rfl⟩ := List.mem_map.1 he
  exact .inr (hown p hp)

theorem ext_writeFrames {env : Env} {cfg : WConfig} {frames : List Bytes} {st st' : WState}
    (h : writeFrames env cfg frames st = .ok st') : ExtO cfg st st' := by
  induction frames generalizing st with
  | nil => cases h; exact (Ext.refl _ _).o
  | cons f fs ih =>
    rw [writeFrames] at h
    obtain ⟨⟨s1, n⟩, h1, h⟩ := Res.bind_eq_ok.1 h
    obtain ⟨_, _, h⟩ := Res.bind_eq_ok.1 h
    exact (ext_writeFrame h1).1.trans (ih h)

theorem init_owned (cfg : WConfig) : ∀ p ∈ (WState.init cfg).dataSinks, ∃ g l, p = objectPath cfg g l := by
  simp [WState.init]

theorem writeFrames_append {env : Env} {cfg : WConfig} (a b : List Bytes) (st : WState) :
    writeFrames env cfg (a ++ b) st = (writeFrames env cfg a st >>= writeFrames env cfg b) := by
  induction a generalizing st with
  | nil => rfl
  | cons f fs ih =>
    simp only [List.cons_append, writeFrames]
    cases h : writeFrame env cfg f st with
    | throw => rfl
    | ub => rfl
    | ok r =>
      obtain ⟨s1, n⟩ := r
      simp only [Res.bind_ok]
      cases hn : (n != 0) with
      | false => rfl
      | true => simp only [check_true, Res.bind_ok, ih]

end AZ
