import Verif.Props.Schedule
import Verif.Lemmas.Confined

set_option linter.unusedSimpArgs false

/-! # Worker threads: what the schedule cannot change -/

namespace AZ.Conc
open Spec

/-! ### A phase -/

/-- At most one job of the phase touches files in `K`. -/
def Sep (K : Text → Bool) (parts : Phase) : Prop :=
  ∀ (i j : Nat) (l l' : List Ev), parts[i]? = some l → parts[j]? = some l' → i ≠ j →
    ∀ e ∈ l, ∀ e' ∈ l', K e.path = true → K e'.path = true → False

theorem interleaving_sep {K : Text → Bool} {parts : Phase} {whole : List Ev} (h : Interleaving parts whole) (ha : Sep K parts) :
    within K whole = within K parts.flatten := by
  induction h with
  | @done parts h =>
    have : parts.flatten = [] := by
      rw [List.flatten_eq_nil_iff]
      exact h
    rw [this]
  | @step parts i x l whole hi _ ih =>
    obtain ⟨a, b, e1, e2, e3⟩ := split_part hi
    have hap : Sep K (parts.set i l) := by
      intro j k m m' hj hk hne e he e' he'
      have sub : ∀ (j : Nat) (m : List Ev), (parts.set i l)[j]? = some m → ∀ e ∈ m, ∃ m0, parts[j]? = some m0 ∧ e ∈ m0 := by
        intro j m hj e he
        by_cases hji : j = i
        · subst hji
          have hlt : j < parts.length := (List.getElem?_eq_some_iff.1 hi).1
          rw [List.getElem?_set_self hlt] at hj
          cases hj
          exact ⟨_, hi, List.mem_cons_of_mem _ he⟩
        · rw [List.getElem?_set_ne (by omega)] at hj
          exact ⟨m, hj, he⟩
      obtain ⟨m0, h0, h0'⟩ := sub j m hj e he
      obtain ⟨m1, h1, h1'⟩ := sub k m' hk e' he'
      exact ha j k m0 m1 h0 h1 hne e h0' e' h1'
    have ih := ih hap
    rw [e3] at ih
    rw [e1]
    unfold within at ih ⊢
    simp only [List.flatten_append, List.flatten_cons, List.filter_append] at ih ⊢
    by_cases hx : K x.path = true
    · rw [List.filter_cons_of_pos (by simpa using hx), ih, List.filter_cons_of_pos (by simpa using hx)]
      have hnil : a.flatten.filter (fun e => K e.path) = [] := by
        rw [List.filter_eq_nil_iff]
        intro e he hk
        obtain ⟨m, hm, hem⟩ := List.mem_flatten.1 he
        obtain ⟨j, hj⟩ := List.mem_iff_getElem?.1 hm
        have hjl : j < a.length := (List.getElem?_eq_some_iff.1 hj).1
        have : parts[j]? = some m := by rw [e1, List.getElem?_append_left hjl]; exact hj
        exact ha j i m (x :: l) this hi (by omega) e hem x (by simp) hk hx
      rw [hnil]
      rfl
    · rw [List.filter_cons_of_neg (by simpa using hx), ih, List.filter_cons_of_neg (by simpa using hx)]

/-- Idle jobs and the order of the jobs do not matter. -/
theorem interleaving_perm {α : Type} {parts parts' : List (List α)} {w : List α} (h : Interleaving parts w)
    (hp : List.Perm (parts.filter (!·.isEmpty)) (parts'.filter (!·.isEmpty))) : Interleaving parts' w := by
  induction h generalizing parts' with
  | @done parts h =>
    have e : parts.filter (!·.isEmpty) = [] := by
      rw [List.filter_eq_nil_iff]
      intro l hl
      simp [h l hl]
    rw [e] at hp
    have := hp.symm.eq_nil
    refine .done fun l hl => ?_
    have := List.filter_eq_nil_iff.1 this l hl
    simpa using this
  | @step parts i x l w hi _ ih =>
    obtain ⟨a, b, e1, _, e3⟩ := split_part hi
    have hm : x :: l ∈ parts'.filter (!·.isEmpty) := by
      refine hp.mem_iff.1 ?_
      rw [e1]
      simp
    obtain ⟨k, hk⟩ := List.mem_iff_getElem?.1 (List.mem_filter.1 hm).1
    obtain ⟨a', b', e1', _, e3'⟩ := split_part hk
    refine .step hk (ih ?_)
    rw [e3, e3']
    rw [e1, e1'] at hp
    simp only [List.filter_append, List.filter_cons] at hp ⊢
    have hp2 := (List.perm_middle.symm.trans hp).trans List.perm_middle
    have hp3 : List.Perm (a.filter (!·.isEmpty) ++ b.filter (!·.isEmpty)) (a'.filter (!·.isEmpty) ++ b'.filter (!·.isEmpty)) := by
      simpa using hp2
    split
    · exact (List.perm_middle.trans (hp3.cons _)).trans List.perm_middle.symm
    · exact hp3

theorem pool_interleaving {s t : PoolState} (h : Relation.ReflTransGen PoolStep s t) (hq : t.queue = [])
    (hr : ∀ l ∈ t.workers, l = []) : ∃ w, t.log = s.log ++ w ∧ Interleaving (s.workers ++ s.queue) w := by
  induction h using Relation.ReflTransGen.head_induction_on with
  | refl => exact ⟨[], by simp, .done (by rw [hq]; simpa using hr)⟩
  | @head s u hs _ ih =>
    obtain ⟨w, e, hi⟩ := ih
    cases hs with
    | @pop q r log i j hj =>
      refine ⟨w, e, interleaving_perm hi ?_⟩
      obtain ⟨a, b, e1, _, e3⟩ := split_part hj
      dsimp only
      rw [e3, e1]
      simp only [List.filter_append, List.filter_cons, List.isEmpty_nil, Bool.not_true, Bool.false_eq_true, if_false, List.append_assoc]
      refine List.Perm.append_left _ ?_
      split
      · exact List.perm_middle.symm
      · exact List.Perm.refl _
    | @act q r log i x l hx =>
      refine ⟨x :: w, by rw [e]; simp, ?_⟩
      have hlt := (List.getElem?_eq_some_iff.1 hx).1
      refine .step (i := i) (l := l) (by rw [List.getElem?_append_left hlt]; exact hx) ?_
      rw [List.set_append_left _ _ hlt]
      exact hi

/-- What the workers do in a phase is an interleaving of the jobs. -/
theorem PoolRun.interleaving {n : Nat} {jobs : Phase} {w : List Ev} (h : PoolRun n jobs w) : Interleaving jobs w := by
  obtain ⟨r, h1, h2⟩ := h
  obtain ⟨w', e, hi⟩ := pool_interleaving h1 rfl h2
  simp only [List.nil_append] at e
  subst e
  refine interleaving_perm hi ?_
  have : (List.replicate n ([] : List Ev)).filter (!·.isEmpty) = [] := by
    rw [List.filter_eq_nil_iff]
    intro l hl
    rw [List.eq_of_mem_replicate hl]
    simp
  rw [List.filter_append, this, List.nil_append]

/-- A worker can finish its job while the others wait. -/
theorem pool_finish {i : Nat} (l : List Ev) (q r : List (List Ev)) (log : List Ev) (h : r[i]? = some l) :
    Relation.ReflTransGen PoolStep ⟨q, r, log⟩ ⟨q, r.set i [], log ++ l⟩ := by
  induction l generalizing r log with
  | nil =>
    obtain ⟨a, b, e1, e2, e3⟩ := split_part h
    rw [e3, ← e1, List.append_nil]
  | cons e l ih =>
    have hlt := (List.getElem?_eq_some_iff.1 h).1
    have := ih (r.set i l) (log ++ [e]) (by rw [List.getElem?_set_self hlt])
    rw [List.set_set] at this
    refine .head (.act h) ?_
    simpa using this

theorem pool_flatten {n : Nat} (hn : 0 < n) (jobs : Phase) (log : List Ev) :
    Relation.ReflTransGen PoolStep ⟨jobs, List.replicate n [], log⟩ ⟨[], List.replicate n [], log ++ jobs.flatten⟩ := by
  induction jobs generalizing log with
  | nil => rw [List.flatten_nil, List.append_nil]
  | cons j jobs ih =>
    have h0 : (List.replicate n ([] : List Ev))[0]? = some [] := by rw [List.getElem?_replicate, if_pos hn]
    have h1 : ((List.replicate n ([] : List Ev)).set 0 j)[0]? = some j := by
      rw [List.getElem?_set_self (by simpa using hn)]
    have h2 := pool_finish j jobs _ log h1
    rw [List.set_set] at h2
    have h3 : (List.replicate n ([] : List Ev)).set 0 [] = List.replicate n [] := by
      obtain ⟨a, b, e1, e2, e3⟩ := split_part h0
      rw [e3, ← e1]
    rw [h3] at h2
    refine .head (.pop h0) (h2.trans ?_)
    have := ih (log ++ j)
    simpa using this

/-- A single worker (and hence any pool) can run the jobs one after the other. -/
theorem poolRun_flatten {n : Nat} (hn : 0 < n) (jobs : Phase) : PoolRun n jobs jobs.flatten := by
  refine ⟨List.replicate n [], ?_, fun l hl => List.eq_of_mem_replicate hl⟩
  simpa using pool_flatten hn jobs []

/-- The sequential schedule of `Model.Stream`. -/
theorem sequential_by {n : Nat} (hn : 0 < n) : Sched.By n fun _ jobs => jobs.flatten := fun _ jobs => poolRun_flatten hn jobs

theorem sep_one (K : Text → Bool) (l : List Ev) : Sep K [l] := by
  intro i j a b hi hj hne
  have h1 := (List.getElem?_eq_some_iff.1 hi).1
  have h2 := (List.getElem?_eq_some_iff.1 hj).1
  simp only [List.length_cons, List.length_nil] at h1 h2
  omega

theorem runPhases_within {n : Nat} {σ : Sched} (hσ : σ.By n) {K : Text → Bool} {phs : List Phase} (h : ∀ ph ∈ phs, Sep K ph)
    (hist : List Ev) : within K (runPhases σ hist phs) = within K (phs.map List.flatten).flatten := by
  induction phs generalizing hist with
  | nil => rfl
  | cons ph phs ih =>
    rw [runPhases, within_append, List.map_cons, List.flatten_cons, within_append, ih fun p hp => h p (by simp [hp]),
      interleaving_sep (hσ hist ph).interleaving (h ph (by simp))]

/-- `K` contains at most one data object of the array. -/
def Single (K : Text → Bool) (cfg : WConfig) : Prop :=
  ∀ p q, (∃ g l, p = objectPath cfg g l) → (∃ g l, q = objectPath cfg g l) → K p = true → K q = true → p = q

theorem sep_of_apart {K : Text → Bool} {cfg : WConfig} (hK : Single K cfg) {ph : Phase} (ha : AZ.Apart ph)
    (ho : ∀ l ∈ ph, ∀ e ∈ l, ∃ g k, e.path = objectPath cfg g k) : Sep K ph := by
  intro i j l l' hi hj hne e he e' he' k1 k2
  exact ha i j l l' hi hj hne e he e' he'
    (hK _ _ (ho l (List.mem_of_getElem? hi) e he) (ho l' (List.mem_of_getElem? hj) e' he') k1 k2)

theorem flatten_singletons (l : List Ev) : (l.map fun e => [e]).flatten = l := by
  induction l with
  | nil => rfl
  | cons a l ih => rw [List.map_cons, List.flatten_cons, ih]; rfl

theorem apart_singletons {evs : List Ev} (h : (evs.map Ev.path).Nodup) : AZ.Apart (evs.map fun e => [e]) := by
  refine apart_of_paths (path := fun i => (evs.map Ev.path).getD i []) ?_ ?_
  · intro i l hi e he
    rw [List.getElem?_map, Option.map_eq_some_iff] at hi
    obtain ⟨e', h1, rfl⟩ := hi
    rw [List.mem_singleton.1 he]
    rw [List.getD_eq_getElem?_getD, List.getElem?_map, h1]
    rfl
  · intro i j hi hj he
    exact nodup_getD h (by simpa using hi) (by simpa using hj) he

/-! ### The phases of a writer -/

section
variable {env : Env} {cfg : WConfig} {st st' : WState} {K : Text → Bool}

theorem compress_sinks (env : Env) (cfg : WConfig) (st : WState) : (compressBuffers env cfg st).dataSinks = st.dataSinks := by
  unfold compressBuffers; split <;> rfl

theorem compress_trace (env : Env) (cfg : WConfig) (st : WState) : (compressBuffers env cfg st).trace = st.trace := by
  unfold compressBuffers; split <;> rfl

/-- The data sinks of a writer: different objects of its array. -/
structure SinksOk (cfg : WConfig) (st : WState) : Prop where
  nodup : st.dataSinks.Nodup
  owned : ∀ p ∈ st.dataSinks, ∃ g l, p = objectPath cfg g l

theorem makeDataSinks_made (h : makeDataSinks env cfg st = some st') :
    ∃ made, st'.trace = st.trace ++ made ∧ (made.map Ev.path).Nodup ∧ (∀ e ∈ made, ∃ g l, e.path = objectPath cfg g l) ∧ SinksOk cfg st' := by
  have hn := makeDataSinks_nodup h
  have hx := ext_makeDataSinks h
  have h0 := h
  unfold makeDataSinks at h
  split at h
  · simp at h
  · rename_i ps hps
    split at h
    · cases h
      have e : (ps.map Ev.opened).map Ev.path = ps := by
        rw [List.map_map]
        exact (List.map_congr_left fun p _ => rfl).trans (List.map_id _)
      have hown : ∀ p ∈ ps, ∃ g l, p = objectPath cfg g l := by
        have hs : makeDataSinks env cfg { st with dataSinks := [] } =
            some { st with dataSinks := ps, trace := st.trace ++ ps.map Ev.opened } := by
          unfold makeDataSinks
          dsimp only
          rw [hps]
          dsimp only
          rw [if_pos (by assumption)]
        exact (ext_makeDataSinks hs).sinks (by simp)
      refine ⟨_, rfl, by rw [e]; exact hn, ?_, hn, hown⟩
      intro ev hev
      obtain ⟨p, hp, rfl⟩ := List.mem_map.1 hev
      exact hown p hp
    · simp at h

theorem jobsStart_made (hs : SinksOk cfg st) {st1 : WState} (h : jobsStart env cfg st = some st1) :
    ∃ made, st1.trace = st.trace ++ made ∧ (made.map Ev.path).Nodup ∧ (∀ e ∈ made, ∃ g l, e.path = objectPath cfg g l) ∧ SinksOk cfg st1 := by
  unfold jobsStart at h
  split at h
  · exact makeDataSinks_made h
  · split at h
    · exact makeDataSinks_made h
    · cases h
      exact ⟨[], by simp, by simp, by simp, hs⟩

theorem writeJobs_own (hs : SinksOk cfg st) (hl : cfg.version = .v3 → st.dataSinks.length = cfg.dims.numberOfShards) :
    ∀ l ∈ writeJobs env cfg st, ∀ e ∈ l, ∃ g k, e.path = objectPath cfg g k := by
  intro l hm e he
  unfold writeJobs at hm
  split at hm
  · obtain ⟨⟨q, d⟩, h1, rfl⟩ := List.mem_map.1 hm
    rw [chunkJob_paths e he]
    exact hs.owned _ (List.of_mem_zip h1).1
  · rename_i hv
    obtain ⟨i, hi, rfl⟩ := List.mem_map.1 hm
    rw [shardJob_paths e he]
    have : i < st.dataSinks.length := by rw [hl hv]; exact List.mem_range.1 hi
    refine hs.owned _ ?_
    rw [List.getD_eq_getElem?_getD, List.getElem?_eq_getElem this]
    exact List.getElem_mem _

theorem flush_phases (hs : SinksOk cfg st) (hK : Single K cfg) (h : flush env cfg st = .ok st') :
    (∀ ph ∈ flushPhases env cfg st, Sep K ph) ∧ st'.trace = st.trace ++ ((flushPhases env cfg st).map List.flatten).flatten ∧
    SinksOk cfg st' := by
  have hn' := flush_nodup hs.nodup h
  have ho' := (ext_flush h hs.owned).sinks hs.owned
  refine ⟨?_, ?_, hn', ho'⟩
  all_goals
    have hh := h
    rw [flush_seq] at hh
    unfold flushPhases
    split at hh
    · rename_i h0
      cases hh
      rw [if_pos h0]
      simp
    · rename_i h0
      rw [if_neg h0]
      obtain ⟨s2, h1, hh⟩ := Res.bind_eq_ok.1 hh
      obtain ⟨st1, j1, j2, j3, j4⟩ := flushImpl_trace h1
      obtain ⟨made, m1, m2, m3, m4⟩ := jobsStart_made (cfg := cfg) ⟨by rw [compress_sinks]; exact hs.nodup, by rw [compress_sinks]; exact hs.owned⟩ j1
      rw [compress_trace] at m1
      have hext : ∃ rest, st'.trace = s2.trace ++ rest := by
        obtain ⟨roll, _, hh⟩ := Res.bind_eq_ok.1 hh
        obtain ⟨s3, h3, hh⟩ := Res.bind_eq_ok.1 hh
        obtain ⟨s4, h4, hh⟩ := Res.bind_eq_ok.1 hh
        cases hh
        have o2 : ∀ p ∈ s2.dataSinks, ∃ g l, p = objectPath cfg g l := by rw [j3]; exact m4.owned
        have x3 : ∃ r, s3.trace = s2.trace ++ r := by
          split at h3
          · obtain ⟨r, hr, _⟩ := (ext_rollover (cfg := cfg) h3 o2).trace
            exact ⟨r, hr⟩
          · cases h3; exact ⟨[], by simp⟩
        have x4 : ∃ r, s4.trace = s3.trace ++ r := by
          split at h4
          · obtain ⟨r, hr, _⟩ := (ext_writeArrayMetadata h4).trace
            exact ⟨r, hr⟩
          · cases h4; exact ⟨[], by simp⟩
        obtain ⟨r3, e3⟩ := x3
        obtain ⟨r4, e4⟩ := x4
        exact ⟨r3 ++ r4, by dsimp only; rw [e4, e3, List.append_assoc]⟩
      obtain ⟨rest, hrest⟩ := hext
      rw [j1, h]
      dsimp only
      have e1 : st1.trace.drop st.trace.length = made := by rw [m1, List.drop_left]
      have e2 : st'.trace.drop (st1.trace.length + (writeJobs env cfg st1).flatten.length) = rest := by
        rw [hrest, j2, ← List.length_append, List.drop_left]
      rw [e1, e2]
      first
      | intro ph hph
        simp only [List.mem_cons, List.not_mem_nil, or_false] at hph
        rcases hph with rfl | rfl | rfl
        · refine sep_of_apart hK (apart_singletons m2) ?_
          intro l hl e he
          obtain ⟨e', he', rfl⟩ := List.mem_map.1 hl
          rw [List.mem_singleton.1 he]
          exact m3 e' he'
        · exact sep_of_apart hK (writeJobs_apart m4.nodup j4) (writeJobs_own m4 j4)
        · exact sep_one _ _
      | have e4 := flatten_singletons made
        simp only [List.map_cons, List.map_nil, List.flatten_cons, List.flatten_nil, List.append_nil]
        rw [e4, hrest, j2, m1]
        simp

theorem frame_phases (hs : SinksOk cfg st) (hK : Single K cfg) {data : Bytes} {n : Nat} (h : writeFrame env cfg data st = .ok (st', n)) :
    (∀ ph ∈ framePhases env cfg data st, Sep K ph) ∧ st'.trace = st.trace ++ ((framePhases env cfg data st).map List.flatten).flatten ∧
    SinksOk cfg st' := by
  rw [writeFrame_seq] at h
  unfold framePhases
  split at h
  · cases h
    rw [if_pos (by assumption)]
    exact ⟨by simp, by simp, hs⟩
  · rw [if_neg (by assumption)]
    obtain ⟨r, h1, h⟩ := Res.bind_eq_ok.1 h
    obtain ⟨_, _, h⟩ := Res.bind_eq_ok.1 h
    obtain ⟨fl, h2, h⟩ := Res.bind_eq_ok.1 h
    obtain ⟨s2, h3, h⟩ := Res.bind_eq_ok.1 h
    cases h
    dsimp only
    rw [h1]
    dsimp only
    rw [h2]
    generalize hs0 : (if st.bufs.isEmpty then { st with bufs := makeBuffers cfg.dims } else st) = s0 at h3
    have t0 : s0.trace = st.trace := by rw [← hs0]; split <;> rfl
    have d0 : s0.dataSinks = st.dataSinks := by rw [← hs0]; split <;> rfl
    have hs1 : SinksOk cfg { s0 with bufs := r.1, bytesToFlush := u64 (s0.bytesToFlush + r.2), framesWritten := u32 (s0.framesWritten + 1) } :=
      ⟨by dsimp only; rw [d0]; exact hs.nodup, by dsimp only; rw [d0]; exact hs.owned⟩
    cases fl with
    | true =>
      dsimp only
      rw [if_pos rfl] at h3
      obtain ⟨a, b, c⟩ := flush_phases hs1 hK h3
      refine ⟨a, ?_, c⟩
      rw [← t0]
      exact b
    | false =>
      dsimp only
      rw [if_neg (by simp)] at h3
      cases h3
      exact ⟨by simp, by simp [t0], hs1⟩

theorem final_phases (hs : SinksOk cfg st) (hK : Single K cfg) (h : finalizeArray env cfg st = .ok st') :
    (∀ ph ∈ finalPhases env cfg st, Sep K ph) ∧ st'.trace = st.trace ++ ((finalPhases env cfg st).map List.flatten).flatten := by
  have hh := h
  rw [finalizeArray_seq] at hh
  obtain ⟨s1, h1, hh⟩ := Res.bind_eq_ok.1 hh
  obtain ⟨s2, h2, hh⟩ := Res.bind_eq_ok.1 hh
  cases hh
  obtain ⟨f1, f2, f3⟩ := flush_phases (st := { st with finalizing := true }) ⟨hs.nodup, hs.owned⟩ hK h1
  have x2 : ∃ r, s2.trace = s1.trace ++ r := by
    split at h2
    · obtain ⟨_, _, h2⟩ := Res.bind_eq_ok.1 h2
      cases h2
      exact ⟨_, rfl⟩
    · cases h2; exact ⟨[], by simp⟩
  obtain ⟨r, hr⟩ := x2
  unfold finalPhases
  rw [h1, h]
  dsimp only
  have e : (s2.trace ++ s2.dataSinks.map Ev.dropped).drop s1.trace.length = r ++ s2.dataSinks.map Ev.dropped := by
    rw [hr, List.append_assoc, List.drop_left]
  rw [e]
  refine ⟨?_, ?_⟩
  · intro ph hp
    rcases List.mem_append.1 hp with hp | hp
    · exact f1 ph hp
    · rw [List.mem_singleton.1 hp]; exact sep_one _ _
  · dsimp only at f2
    simp only [List.map_append, List.map_cons, List.map_nil, List.flatten_append, List.flatten_cons, List.flatten_nil, List.append_nil]
    rw [hr, f2]
    simp

end

/-! ### The stream -/

/-- Two runs end in the same way, and their results are related. -/
def Both {α β : Type} (R : α → β → Prop) : Res α → Res β → Prop
  | .ok a, .ok b => R a b
  | .throw, .throw => True
  | .ub, .ub => True
  | _, _ => False

theorem Both.bind {α α' β β' : Type} {R : α → α' → Prop} {S : β → β' → Prop} {a : Res α} {b : Res α'} {f : α → Res β} {g : α' → Res β'}
    (h : Both R a b) (hf : ∀ x y, a = .ok x → R x y → Both S (f x) (g y)) : Both S (a >>= f) (b >>= g) := by
  cases a <;> cases b <;> first | exact h.elim | exact hf _ _ rfl h | trivial

theorem Both.cases {α β : Type} {R : α → β → Prop} {a : Res α} {b : Res β} (h : Both R a b) :
    (a = .throw ∧ b = .throw) ∨ (a = .ub ∧ b = .ub) ∨ ∃ x y, a = .ok x ∧ b = .ok y ∧ R x y := by
  cases a <;> cases b <;> first | exact h.elim | exact .inl ⟨rfl, rfl⟩ | exact .inr (.inl ⟨rfl, rfl⟩) | exact .inr (.inr ⟨_, _, rfl, rfl, h⟩)

theorem Both.same {α : Type} {R : α → α → Prop} {a : Res α} (h : ∀ x, a = .ok x → R x x) : Both R a a := by
  cases a with
  | ok x => exact h x rfl
  | throw => trivial
  | ub => trivial

theorem Both.mono {α β : Type} {R S : α → β → Prop} {a : Res α} {b : Res β} (h : Both R a b) (hm : ∀ x y, R x y → S x y) : Both S a b := by
  cases a <;> cases b <;> first | exact h.elim | exact hm _ _ h | trivial

section
variable {n : Nat} {σ : Sched} {env : Env} {K : Text → Bool}

def LevelOk (K : Text → Bool) (lv : Level) : Prop := SinksOk lv.cfg lv.st ∧ Single K lv.cfg

theorem both_writerStep (hσ : σ.By n) {lv : Level} (hl : LevelOk K lv) (hist : List Ev) (data : Bytes) :
    Both (fun x y => y.1 = x.1 ∧ y.2.1 = x.2.1 ∧ within K y.2.2.1 = within K x.2.2.1 ∧ y.2.2.2 = x.2.2.2 ∧ LevelOk K x.1)
      (AZ.writerStep env lv data) (writerStep σ env hist lv data) := by
  unfold writerStep
  cases h : AZ.writerStep env lv data with
  | throw => trivial
  | ub => trivial
  | ok r =>
    obtain ⟨lv', k, evs, errs⟩ := r
    obtain ⟨c1, c2, c3, c4, c5⟩ := writerStep_spec h
    obtain ⟨f1, f2, f3⟩ := frame_phases hl.1 hl.2 c3
    have e : evs = ((framePhases env lv.cfg data lv.st).map List.flatten).flatten := by
      rw [c4, f2, List.drop_left]
    refine ⟨rfl, rfl, ?_, rfl, ?_⟩
    · dsimp only
      rw [runPhases_within hσ f1, e]
    · rw [LevelOk, c1]
      exact ⟨f3, hl.2⟩

theorem both_pyramid (hσ : σ.By n) {t : DType} {lvs : List Level} (hl : ∀ lv ∈ lvs, LevelOk K lv) (hist : List Ev) (data : Bytes) (w h : Nat) :
    Both (fun x y => y.1 = x.1 ∧ within K y.2.1 = within K x.2.1 ∧ y.2.2 = x.2.2 ∧ ∀ lv ∈ x.1, LevelOk K lv)
      (AZ.pyramidLoop env t lvs data w h) (pyramidLoop σ env t hist lvs data w h) := by
  induction lvs generalizing hist data w h with
  | nil => exact ⟨rfl, rfl, rfl, by simp⟩
  | cons lv rest ih =>
    rw [AZ.pyramidLoop, pyramidLoop]
    refine Both.bind (R := fun x y => x = y) (Both.same fun _ _ => rfl) ?_
    rintro s _ _ rfl
    have hlv := hl lv (by simp)
    cases hsv : lv.saved with
    | none =>
      dsimp only
      refine ⟨rfl, rfl, rfl, ?_⟩
      intro l hm
      rcases List.mem_cons.1 hm with rfl | hm
      · exact hlv
      · exact hl l (by simp [hm])
    | some px =>
      dsimp only
      refine Both.bind (both_writerStep hσ (lv := { lv with saved := none }) hlv hist _) ?_
      rintro ⟨lv', k, evs, errs⟩ ⟨lv2, k2, evs2, errs2⟩ _ ⟨e1, e2, e3, e4, e5⟩
      dsimp only at e1 e2 e3 e4 e5 ⊢
      subst e1 e2 e4
      refine Both.bind (R := fun x y => x = y) (Both.same fun _ _ => rfl) ?_
      rintro _ _ _ rfl
      refine Both.bind (ih (fun l hm => hl l (by simp [hm])) _ _ _ _) ?_
      rintro ⟨r1, v1, w1⟩ ⟨r2, v2, w2⟩ _ ⟨d1, d2, d3, d4⟩
      dsimp only at d1 d2 d3 d4 ⊢
      subst d1 d3
      refine ⟨rfl, ?_, rfl, ?_⟩
      · dsimp only
        rw [within_append, within_append, e3, d2]
      · intro l hm
        rcases List.mem_cons.1 hm with rfl | hm
        · exact e5
        · exact d4 l hm

/-- The stream of the concurrent run `b` differs from the one of the sequential run `a` in the history at most, and not in what the
history says about the files in `K`. -/
structure Sim (K : Text → Bool) (a b : SState) : Prop where
  eq : b = { a with trace := b.trace }
  tr : within K b.trace = within K a.trace
  ok : ∀ lv ∈ a.levels, LevelOk K lv

theorem both_multiscale (hσ : σ.By n) {a b : SState} (hs : Sim K a b) (data : Bytes) :
    Both (Sim K) (AZ.writeMultiscale env a data) (writeMultiscale σ env b data) := by
  obtain ⟨h1, h2, h3⟩ := hs
  generalize b.trace = tb at h1 h2
  subst h1
  unfold AZ.writeMultiscale writeMultiscale
  dsimp only
  split
  · exact ⟨rfl, h2, h3⟩
  · cases hl : a.levels with
    | nil => exact ⟨by dsimp only; rw [hl], h2, h3⟩
    | cons l0 rest =>
      dsimp only
      refine Both.bind (both_pyramid hσ (fun lv hm => h3 lv (by simp [hl, hm])) _ _ _ _) ?_
      rintro ⟨r1, v1, w1⟩ ⟨r2, v2, w2⟩ _ ⟨d1, d2, d3, d4⟩
      dsimp only at d1 d2 d3 d4 ⊢
      subst d1 d3
      refine ⟨rfl, ?_, ?_⟩
      · dsimp only
        rw [within_append, within_append, h2, d2]
      · intro lv hm
        rcases List.mem_cons.1 hm with rfl | hm
        · exact h3 _ (by simp [hl])
        · exact d4 lv hm

theorem both_level0 (hσ : σ.By n) {a b : SState} (hs : Sim K a b) (data : Bytes) :
    Both (fun x y => Sim K x.1 y.1 ∧ y.2 = x.2) (AZ.writeLevel0 env a data) (writeLevel0 σ env b data) := by
  obtain ⟨h1, h2, h3⟩ := hs
  generalize b.trace = tb at h1 h2
  subst h1
  unfold AZ.writeLevel0 writeLevel0
  dsimp only
  cases hl : a.levels with
  | nil => trivial
  | cons l0 rest =>
    dsimp only
    refine Both.bind (both_writerStep hσ (h3 l0 (by simp [hl])) _ _) ?_
    rintro ⟨lv', k, evs, errs⟩ ⟨lv2, k2, evs2, errs2⟩ _ ⟨e1, e2, e3, e4, e5⟩
    dsimp only at e1 e2 e3 e4 e5 ⊢
    subst e1 e2 e4
    refine ⟨⟨rfl, ?_, ?_⟩, rfl⟩
    · dsimp only
      rw [within_append, within_append, h2, e3]
    · intro lv hm
      rcases List.mem_cons.1 hm with rfl | hm
      · exact e5
      · exact h3 lv (by simp [hl, hm])

/-- `Both` for runs that may still be going on. -/
def BothO {α β : Type} (R : α → β → Prop) : Option (Res α) → Option (Res β) → Prop
  | some a, some b => Both R a b
  | none, none => True
  | _, _ => False

theorem BothO.casesO {α β : Type} {R : α → β → Prop} {a : Option (Res α)} {b : Option (Res β)} (h : BothO R a b) :
    (a = none ∧ b = none) ∨ (a = some .throw ∧ b = some .throw) ∨ (a = some .ub ∧ b = some .ub) ∨
      ∃ x y, a = some (.ok x) ∧ b = some (.ok y) ∧ R x y := by
  cases a <;> cases b
  · exact .inl ⟨rfl, rfl⟩
  · exact h.elim
  · exact h.elim
  · rcases Both.cases h with ⟨rfl, rfl⟩ | ⟨rfl, rfl⟩ | ⟨x, y, rfl, rfl, h⟩
    · exact .inr (.inl ⟨rfl, rfl⟩)
    · exact .inr (.inr (.inl ⟨rfl, rfl⟩))
    · exact .inr (.inr (.inr ⟨_, _, rfl, rfl, h⟩))

theorem Sim.with {a b : SState} (h : Sim K a b) (buf : Bytes) (o : Nat) : Sim K { a with buf := buf, offset := o } { b with buf := buf, offset := o } := by
  obtain ⟨h1, h2, h3⟩ := h
  refine ⟨?_, h2, h3⟩
  dsimp only
  rw [h1]

theorem both_loop (hσ : σ.By n) (data : Bytes) (fuel : Nat) {a b : SState} (hs : Sim K a b) (ptr bw : Nat) :
    BothO (fun x y => Sim K x.1 y.1 ∧ y.2 = x.2) (AZ.appendLoop env data fuel ptr bw a) (appendLoop σ env data fuel ptr bw b) := by
  induction fuel generalizing a b ptr bw with
  | zero =>
    unfold AZ.appendLoop appendLoop
    split
    · exact ⟨hs, rfl⟩
    · trivial
  | succ fuel ih =>
    have hb : b.buf = a.buf := by rw [hs.eq]
    have ho : b.offset = a.offset := by rw [hs.eq]
    unfold AZ.appendLoop appendLoop
    dsimp only
    rw [hb, ho]
    split
    · exact ⟨hs, rfl⟩
    · split
      · split
        · trivial
        · split
          · split
            · trivial
            · have := both_level0 (env := env) hσ (hs.with (pwrite a.buf a.offset (slice data (ptr + bw) (min (a.buf.length - a.offset) (data.length - bw))))
                (a.offset + min (a.buf.length - a.offset) (data.length - bw))) (slice data ptr a.buf.length)
              revert this
              generalize AZ.writeLevel0 env _ _ = r1
              generalize writeLevel0 σ env _ _ = r2
              intro this
              rcases this.cases with ⟨rfl, rfl⟩ | ⟨rfl, rfl⟩ | ⟨⟨s1, k1⟩, ⟨s2, k2⟩, rfl, rfl, h, hk⟩
              · trivial
              · trivial
              · dsimp only at hk
                subst hk
                dsimp only at h ⊢
                split
                · exact ⟨h, rfl⟩
                · refine ih ?_ _ _
                  have := h.with s1.buf 0
                  have e : s2.buf = s1.buf := by rw [h.eq]
                  rw [← e] at this
                  rw [e] at this
                  have e2 : ({ s2 with offset := 0 } : SState) = { s2 with buf := s1.buf, offset := 0 } := by rw [← e]
                  rw [e2]
                  exact this
          · exact ih (hs.with _ _) _ _
      · split
        · split
          · trivial
          · exact ih (hs.with _ _) _ _
        · split
          · trivial
          · have := both_level0 (env := env) hσ hs (slice data ptr a.buf.length)
            revert this
            generalize AZ.writeLevel0 env _ _ = r1
            generalize writeLevel0 σ env _ _ = r2
            intro this
            rcases this.cases with ⟨rfl, rfl⟩ | ⟨rfl, rfl⟩ | ⟨⟨s1, k1⟩, ⟨s2, k2⟩, rfl, rfl, h, hk⟩
            · trivial
            · trivial
            · dsimp only at hk
              subst hk
              dsimp only at h ⊢
              split
              · exact ⟨h, rfl⟩
              · have := both_multiscale (env := env) hσ h (slice data ptr a.buf.length)
                revert this
                generalize AZ.writeMultiscale env _ _ = r1
                generalize writeMultiscale σ env _ _ = r2
                intro this
                rcases this.cases with ⟨rfl, rfl⟩ | ⟨rfl, rfl⟩ | ⟨s3, s4, rfl, rfl, h⟩
                · trivial
                · trivial
                · exact ih h _ _

theorem both_append (hσ : σ.By n) (data : Bytes) (fuel : Nat) {a b : SState} (hs : Sim K a b) :
    BothO (fun x y => Sim K x.1 y.1 ∧ y.2 = x.2) (AZ.append env fuel data a) (append σ env fuel data b) := by
  have he : b.error = a.error := by rw [hs.eq]
  unfold AZ.append append
  rw [he]
  split
  · trivial
  · exact both_loop hσ data fuel hs 0 0

theorem both_appends (hσ : σ.By n) (calls : List Bytes) {a b : SState} (hs : Sim K a b) :
    Both (fun x y => Sim K x.1 y.1 ∧ y.2 = x.2) (AZ.appends env calls a) (appends σ env calls b) := by
  induction calls generalizing a b with
  | nil => exact ⟨hs, rfl⟩
  | cons d ds ih =>
    rw [AZ.appends, appends]
    have := both_append (env := env) hσ d (appendFuel d) hs
    revert this
    generalize AZ.append env _ _ _ = r1
    generalize append σ env _ _ _ = r2
    intro this
    rcases this.casesO with ⟨rfl, rfl⟩ | ⟨rfl, rfl⟩ | ⟨rfl, rfl⟩ | ⟨⟨s1, k1⟩, ⟨s2, k2⟩, rfl, rfl, h, hk⟩
    · trivial
    · trivial
    · trivial
    · dsimp only at hk
      subst hk
      dsimp only at h ⊢
      refine Both.bind (ih h) ?_
      rintro ⟨x1, x2⟩ ⟨y1, y2⟩ _ ⟨h1, h2⟩
      dsimp only at h2
      subst h2
      exact ⟨h1, rfl⟩

theorem both_finalize (hσ : σ.By n) {lvs : List Level} (hl : ∀ lv ∈ lvs, LevelOk K lv) (hist : List Ev) :
    Both (fun x y => within K y = within K x) (AZ.finalizeLevels env lvs) (finalizeLevels σ env hist lvs) := by
  induction lvs generalizing hist with
  | nil => exact rfl
  | cons lv rest ih =>
    rw [AZ.finalizeLevels, finalizeLevels]
    refine Both.bind (R := fun x y => x = y) (Both.same fun _ _ => rfl) ?_
    rintro st' _ h rfl
    have hlv := hl lv (by simp)
    obtain ⟨f1, f2⟩ := final_phases hlv.1 hlv.2 h
    refine Both.bind (ih (fun l hm => hl l (by simp [hm])) _) ?_
    intro x y _ hxy
    show within K _ = within K _
    rw [within_append, within_append, hxy, runPhases_within hσ f1, f2, List.drop_left]

end

end AZ.Conc
