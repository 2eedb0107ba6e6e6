import Verif.Model.MakeDirs
import Verif.Model.GroupMeta
import Verif.Lemmas.Paths
import Mathlib.Data.List.Nodup

/-!
# C107: directories are made whatever the order of the workers

`fs::create_directories` returns false when somebody else made the directory first, and `make_dirs_` calls that a failure. For the
batches of names the library uses, this cannot happen between its own jobs.
-/

set_option linter.unusedSimpArgs false

namespace AZ.MakeDirs

/-- No directory is listed twice, and none is inside another. -/
def Apart (paths : List Dir) : Prop :=
  ∀ (i j k : Nat) (p q : Dir), paths[i]? = some p → paths[j]? = some q → q.drop k = p → i = j

/-- What holds of a job at `d` while the jobs run from the directories `dirs`. -/
def Fine (dirs : List Dir) (s : State) (d : Dir) : Pc → Prop
  | .look => True
  | .flag => d ∉ dirs
  | .climb k => d ∉ dirs ∧ k ≤ d.length
  | .make k => d ∉ dirs ∧ 0 < k ∧ k ≤ d.length ∧ s.has (d.drop k) = true
  | .ended ok => ok = true ∧ s.has d = true

structure Inv (dirs : List Dir) (paths : List Dir) (s : State) : Prop where
  len : s.jobs.length = paths.length
  ok : s.ok = true
  old : ∀ d ∈ dirs, d ∈ s.dirs
  new : ∀ d ∈ s.dirs, d ∈ dirs ∨ ∃ (j : Nat) (q : Dir), paths[j]? = some q ∧
    ((∃ k, 0 < k ∧ d = q.drop k) ∨ (d = q ∧ s.jobs[j]? = some (Pc.ended true)))
  fine : ∀ (i : Nat) (d : Dir) (pc : Pc), paths[i]? = some d → s.jobs[i]? = some pc → Fine dirs s d pc

theorem has_mono {s s' : State} (h : ∀ d ∈ s.dirs, d ∈ s'.dirs) {d : Dir} (hd : s.has d = true) : s'.has d = true := by
  simp only [State.has, Bool.or_eq_true, List.contains_iff_mem] at hd ⊢
  exact hd.imp id (h d)

theorem Fine.mono {dirs : List Dir} {s s' : State} (h : ∀ d ∈ s.dirs, d ∈ s'.dirs) {d : Dir} {pc : Pc}
    (hf : Fine dirs s d pc) : Fine dirs s' d pc := by
  cases pc with
  | make k => exact ⟨hf.1, hf.2.1, hf.2.2.1, has_mono h hf.2.2.2⟩
  | ended ok => exact ⟨hf.1, has_mono h hf.2⟩
  | look => trivial
  | flag => exact hf
  | climb k => exact hf

theorem inv_init (dirs paths : List Dir) : Inv dirs paths (init dirs paths) where
  len := by simp [init]
  ok := rfl
  old := fun _ h => h
  new := fun _ h => .inl h
  fine := by
    intro i d pc _ h
    simp only [init, List.getElem?_map, Option.map_eq_some_iff] at h
    obtain ⟨_, _, rfl⟩ := h
    trivial

/-- The directory of a job that has not ended is not there, unless it was before. -/
theorem absent {dirs paths : List Dir} {s : State} (ha : Apart paths) (h : Inv dirs paths s) {i : Nat} {d : Dir} {pc : Pc}
    (hd : paths[i]? = some d) (hpc : s.jobs[i]? = some pc) (hne : ∀ b, pc ≠ .ended b) (h0 : d ≠ []) (hn : d ∉ dirs) :
    s.has d = false := by
  rw [Bool.eq_false_iff]
  intro hh
  simp only [State.has, Bool.or_eq_true, List.contains_iff_mem, List.isEmpty_iff] at hh
  rcases hh with hh | hh
  · exact h0 hh
  rcases h.new d hh with h' | ⟨j, q, hq, ⟨k, hk, e⟩ | ⟨e, he⟩⟩
  · exact hn h'
  · have := ha i j k d q hd hq e.symm
    subst this
    rw [hd] at hq; cases hq
    have hl := congrArg List.length e
    have : 0 < d.length := List.length_pos_iff.2 h0
    simp at hl; omega
  · subst e
    have := ha i j 0 d d hd hq rfl
    subst this
    rw [hpc] at he; cases he
    exact hne _ rfl

/-- What one move makes, and where it leaves the job. -/
theorem next_fine {dirs paths : List Dir} {s : State} (ha : Apart paths) (hne : ∀ d ∈ paths, d ≠ []) (h : Inv dirs paths s)
    {i : Nat} {d : Dir} {pc pc' : Pc} {new : Option Dir}
    (hd : paths[i]? = some d) (hpc : s.jobs[i]? = some pc) (hx : next s d pc = some (new, pc')) :
    Fine dirs { s with dirs := new.toList ++ s.dirs } d pc' ∧
      ∀ e ∈ new.toList, (∃ k, 0 < k ∧ e = d.drop k) ∨ (e = d ∧ pc' = Pc.ended true) := by
  have h0 := hne d (List.mem_of_getElem? hd)
  have hf := h.fine i d pc hd hpc
  have hold : d ∈ dirs → s.has d = true := fun hm => by
    simp [State.has, h.old d hm]
  cases pc with
  | look =>
    simp only [next, if_neg h0] at hx
    split at hx <;> simp at hx <;> obtain ⟨rfl, rfl⟩ := hx
    · rename_i hh
      exact ⟨⟨rfl, hh⟩, by simp⟩
    · rename_i hh
      exact ⟨fun hm => hh (hold hm), by simp⟩
  | flag =>
    simp only [next, h.ok, if_true, Option.some.injEq, Prod.mk.injEq] at hx
    obtain ⟨rfl, rfl⟩ := hx
    exact ⟨⟨hf, by omega⟩, by simp⟩
  | climb k =>
    have hab := absent ha h hd hpc (by simp) h0 hf.1
    simp only [next] at hx
    split at hx
    · rename_i hh
      split at hx
      · rename_i hk; subst hk
        rw [List.drop_zero, hab] at hh; cases hh
      · simp at hx; obtain ⟨rfl, rfl⟩ := hx
        exact ⟨⟨hf.1, by omega, hf.2, hh⟩, by simp⟩
    · rename_i hh
      simp at hx; obtain ⟨rfl, rfl⟩ := hx
      refine ⟨⟨hf.1, ?_⟩, by simp⟩
      have : k ≠ d.length := by
        rintro rfl; simp [State.has] at hh
      have := hf.2; omega
  | make k =>
    obtain ⟨hn, hk, hl, hh⟩ := hf
    have hab := absent ha h hd hpc (by simp) h0 hn
    obtain ⟨k, rfl⟩ : ∃ m, k = m + 1 := ⟨k - 1, by omega⟩
    simp only [next, hh, if_true, Option.some.injEq, Prod.mk.injEq] at hx
    obtain ⟨rfl, rfl⟩ := hx
    by_cases hk0 : k = 0
    · subst hk0
      simp only [List.drop_zero, hab, Bool.false_eq_true, if_false, if_true, Option.isSome_some, Option.toList_some]
      refine ⟨⟨rfl, by simp [State.has]⟩, ?_⟩
      intro e he
      simp at he
      exact .inr ⟨he, by trivial⟩
    · simp only [if_neg hk0]
      refine ⟨⟨hn, by omega, by omega, ?_⟩, ?_⟩
      · split
        · simpa [State.has] using ‹s.has (d.drop k) = true›
        · simp [State.has]
      · intro e he
        split at he
        · simp at he
        · simp at he
          exact .inl ⟨k, by omega, he⟩
  | ended b => simp [next] at hx

theorem inv_step {dirs paths : List Dir} {s s' : State} (ha : Apart paths) (hne : ∀ d ∈ paths, d ≠ [])
    (h : Inv dirs paths s) {i : Nat} (hs : step paths s i = some s') : Inv dirs paths s' := by
  unfold step at hs
  split at hs
  case h_2 => cases hs
  rename_i d pc hd hpc
  split at hs
  case h_2 => cases hs
  rename_i new pc' hx
  simp only [Option.some.injEq] at hs
  subst hs
  obtain ⟨hf, hn⟩ := next_fine ha hne h hd hpc hx
  have hend : ∀ b, pc ≠ .ended b := by rintro b rfl; simp [next] at hx
  have hi : i < s.jobs.length := (List.getElem?_eq_some_iff.1 hpc).1
  refine ⟨by simp [h.len], ?_, fun e he => List.mem_append_right _ (h.old e he), ?_, ?_⟩
  · have : pc' ≠ .ended false := by
      rintro rfl
      exact absurd hf.1 (by simp)
    simp [h.ok, this]
  · intro e he
    rcases List.mem_append.1 he with he | he
    · refine .inr ⟨i, d, hd, (hn e he).imp id fun ⟨e1, e2⟩ => ⟨e1, ?_⟩⟩
      simp [List.getElem?_set, hi, e2]
    · rcases h.new e he with h' | ⟨j, q, hq, h' | ⟨e1, e2⟩⟩
      · exact .inl h'
      · exact .inr ⟨j, q, hq, .inl h'⟩
      · refine .inr ⟨j, q, hq, .inr ⟨e1, ?_⟩⟩
        have : i ≠ j := by
          rintro rfl
          rw [hpc] at e2; cases e2
          exact hend _ rfl
        simp [List.getElem?_set, this, e2]
  · intro j q pc2 hq hp
    by_cases hij : i = j
    · subst hij
      rw [hd] at hq; cases hq
      simp [List.getElem?_set, hi] at hp
      subst hp
      exact hf
    · simp [List.getElem?_set, hij] at hp
      exact (h.fine j q pc2 hq hp).mono fun e he => List.mem_append_right _ he

theorem inv_run {dirs paths : List Dir} (ha : Apart paths) (hne : ∀ d ∈ paths, d ≠ []) (is : List Nat) :
    ∀ s s', Inv dirs paths s → run paths s is = some s' → Inv dirs paths s' := by
  induction is with
  | nil => intro s s' h hr; simp only [run, Option.some.injEq] at hr; subst hr; exact h
  | cons i is ih =>
    intro s s' h hr
    simp only [run, Option.bind_eq_some_iff] at hr
    obtain ⟨t, ht, hr⟩ := hr
    exact ih t s' (inv_step ha hne h ht) hr

/-- **C107, the jobs.** If no directory of a call is listed twice or inside another then, whatever is there before and however
the jobs are interleaved, no job fails. -/
theorem no_spurious_failure (dirs paths : List Dir) (ha : Apart paths) (hne : ∀ d ∈ paths, d ≠ [])
    (schedule : List Nat) (s : State) (hr : run paths (init dirs paths) schedule = some s) :
    s.ok = true ∧ ∀ i : Nat, s.jobs[i]? ≠ some (.ended false) := by
  have h := inv_run ha hne schedule _ _ (inv_init dirs paths) hr
  refine ⟨h.ok, fun i hi => ?_⟩
  have hl : i < paths.length := by
    rw [← h.len]; exact (List.getElem?_eq_some_iff.1 hi).1
  have := h.fine i _ _ (List.getElem?_eq_getElem hl) hi
  simp [Fine] at this

/-- **C107, the directories.** When no job can move, all have succeeded and all the directories are there; those that were there
before still are, and nothing else has been made than the directories of the call and their ancestors. -/
theorem directories_made (dirs paths : List Dir) (ha : Apart paths) (hne : ∀ d ∈ paths, d ≠ [])
    (schedule : List Nat) (s : State) (hr : run paths (init dirs paths) schedule = some s)
    (hend : ∀ i, step paths s i = none) :
    (∀ pc ∈ s.jobs, pc = .ended true) ∧ s.jobs.length = paths.length ∧ (∀ d ∈ paths, d ∈ s.dirs) ∧ (∀ d ∈ dirs, d ∈ s.dirs) ∧
      ∀ d ∈ s.dirs, d ∈ dirs ∨ ∃ q ∈ paths, ∃ k, d = q.drop k := by
  have h := inv_run ha hne schedule _ _ (inv_init dirs paths) hr
  have key : ∀ (i : Nat) (d : Dir) (pc : Pc), paths[i]? = some d → s.jobs[i]? = some pc → pc = .ended true := by
    intro i d pc hd hpc
    have hf := h.fine i d pc hd hpc
    have hs := hend i
    simp only [step, hd, hpc] at hs
    cases pc with
    | look =>
      have h0 := hne d (List.mem_of_getElem? hd)
      by_cases h1 : s.has d = true <;> simp [next, h0, h1] at hs
    | flag => simp [next, h.ok] at hs
    | climb k =>
      simp only [next] at hs
      by_cases h1 : s.has (d.drop k) = true <;> by_cases h2 : k = 0 <;> simp [h1, h2] at hs <;> simp_all
    | make k =>
      obtain ⟨_, hk, _, hh⟩ := hf
      obtain ⟨m, rfl⟩ : ∃ m, k = m + 1 := ⟨k - 1, by omega⟩
      simp [next, hh] at hs
    | ended b => rw [hf.1]
  refine ⟨?_, h.len, ?_, h.old, ?_⟩
  · intro pc hpc
    obtain ⟨i, hi, rfl⟩ := List.getElem_of_mem hpc
    exact key i _ _ (List.getElem?_eq_getElem (by rw [← h.len]; exact hi)) (List.getElem?_eq_getElem hi)
  · intro d hd
    obtain ⟨i, hi, rfl⟩ := List.getElem_of_mem hd
    have hj : i < s.jobs.length := by rw [h.len]; exact hi
    have e := key i _ _ (List.getElem?_eq_getElem hi) (List.getElem?_eq_getElem hj)
    have hf := h.fine i _ _ (List.getElem?_eq_getElem hi) (List.getElem?_eq_getElem hj)
    rw [e] at hf
    have h2 := hf.2
    simp only [State.has, Bool.or_eq_true, List.contains_iff_mem, List.isEmpty_iff] at h2
    exact h2.resolve_left (hne _ (List.getElem_mem hi))
  · intro d hd
    rcases h.new d hd with h' | ⟨j, q, hq, ⟨k, _, e⟩ | ⟨e, _⟩⟩
    · exact .inl h'
    · exact .inr ⟨q, List.mem_of_getElem? hq, k, e⟩
    · exact .inr ⟨q, List.mem_of_getElem? hq, 0, e⟩

/-! ### Progress -/

/-- How many moves a job at `d` may still take. -/
def left (d : Dir) : Pc → Nat
  | .look => 2 * d.length + 4
  | .flag => 2 * d.length + 3
  | .climb k => d.length + 2 + (d.length - k)
  | .make k => k + 1
  | .ended _ => 0

/-- How many moves the jobs may still take. -/
def leftAll (paths : List Dir) (jobs : List Pc) : Nat := ((paths.zip jobs).map fun x => left x.1 x.2).sum

/-- Every move brings its job nearer to the end. -/
theorem next_left {dirs : List Dir} {s : State} {d : Dir} {pc pc' : Pc} {new : Option Dir} (hf : Fine dirs s d pc)
    (hx : next s d pc = some (new, pc')) : left d pc' < left d pc := by
  cases pc with
  | look =>
    simp only [next] at hx
    split at hx
    · simp at hx; obtain ⟨_, rfl⟩ := hx; simp [left]
    · split at hx <;> simp at hx <;> obtain ⟨_, rfl⟩ := hx <;> simp [left]
  | flag => simp only [next] at hx; split at hx <;> simp at hx <;> obtain ⟨_, rfl⟩ := hx <;> simp [left] <;> omega
  | climb k =>
    have hl := hf.2
    simp only [next] at hx
    split at hx
    · split at hx <;> simp at hx <;> obtain ⟨_, rfl⟩ := hx <;> simp [left] <;> omega
    · rename_i hh
      have : k ≠ d.length := by rintro rfl; simp [State.has] at hh
      simp at hx; obtain ⟨_, rfl⟩ := hx; simp [left]; omega
  | make k =>
    cases k with
    | zero => simp [next] at hx
    | succ k =>
      simp only [next] at hx
      split at hx
      · simp at hx; obtain ⟨_, rfl⟩ := hx
        split <;> simp [left]
      · simp at hx; obtain ⟨_, rfl⟩ := hx; simp [left]
  | ended b => simp [next] at hx

theorem leftAll_set : ∀ (paths : List Dir) (jobs : List Pc) (i : Nat) (d : Dir) (pc pc' : Pc), paths[i]? = some d →
    jobs[i]? = some pc → left d pc' < left d pc → leftAll paths (jobs.set i pc') < leftAll paths jobs := by
  intro paths
  induction paths with
  | nil => intro jobs i d pc pc' h; simp at h
  | cons p ps ih =>
    intro jobs i d pc pc' hd hj hl
    cases jobs with
    | nil => simp at hj
    | cons q qs =>
      cases i with
      | zero =>
        simp at hd hj; subst hd; subst hj
        simp [leftAll]; omega
      | succ i =>
        simp at hd hj
        have := ih qs i d pc pc' hd hj hl
        simp [leftAll] at this ⊢; omega

/-- **C107, progress.** However the jobs are interleaved, they come to an end: no schedule is longer than this. -/
theorem jobs_end (dirs paths : List Dir) (ha : Apart paths) (hne : ∀ d ∈ paths, d ≠ [])
    (schedule : List Nat) (s : State) (hr : run paths (init dirs paths) schedule = some s) :
    schedule.length ≤ (paths.map fun d => 2 * d.length + 4).sum := by
  have hstep : ∀ (is : List Nat) s s', Inv dirs paths s → run paths s is = some s' →
      is.length + leftAll paths s'.jobs ≤ leftAll paths s.jobs := by
    intro is
    induction is with
    | nil => intro s s' _ hr; simp only [run, Option.some.injEq] at hr; subst hr; simp
    | cons i is ih =>
      intro s s' h hr
      simp only [run, Option.bind_eq_some_iff] at hr
      obtain ⟨t, ht, hr⟩ := hr
      have h1 := ih t s' (inv_step ha hne h ht) hr
      have : leftAll paths t.jobs < leftAll paths s.jobs := by
        unfold step at ht
        split at ht
        case h_2 => cases ht
        rename_i d pc hd hpc
        split at ht
        case h_2 => cases ht
        rename_i new pc' hx
        simp only [Option.some.injEq] at ht
        subst ht
        exact leftAll_set paths s.jobs i d pc pc' hd hpc (next_left (h.fine i d pc hd hpc) hx)
      simp only [List.length_cons]; omega
  have h1 := hstep schedule _ _ (inv_init dirs paths) hr
  have h2 : ∀ l : List Dir, leftAll l (l.map fun _ => Pc.look) = (l.map fun d => 2 * d.length + 4).sum := by
    intro l
    induction l with
    | nil => rfl
    | cons a l ih => simp [leftAll, left] at ih ⊢; omega
  have h3 := h2 paths
  simp only [init] at h1
  omega

/-! ### The batches of the library -/

theorem split_slash (a b : Text) : split (a ++ '/' :: b) = split a ++ split b := by
  induction a with
  | nil => simp [split]
  | cons c a ih =>
    simp only [List.cons_append, split, ih]
    split
    · simp
    · cases h : split a <;> simp [h]
      cases a with
      | nil => simp [split] at h
      | cons x xs =>
        simp only [split] at h
        split at h
        · simp at h
        · split at h <;> simp at h

theorem split_plain {a : Text} (h : '/' ∉ a) : split a = [a] := by
  induction a with
  | nil => rfl
  | cons c a ih =>
    simp only [List.mem_cons, not_or] at h
    simp [split, Ne.symm h.1, ih h.2]

theorem dirOf_slash {a b : Text} (h : '/' ∉ b) : dirOf (a ++ '/' :: b) = b :: dirOf a := by
  simp [dirOf, split_slash, split_plain h]

theorem dirOf_ne_nil (p : Text) : dirOf p ≠ [] := by
  intro h
  have := congrArg List.length h
  cases p with
  | nil => simp [dirOf, split] at this
  | cons x xs =>
    simp only [dirOf, split] at this
    split at this
    · simp at this
    · split at this <;> simp at this

/-- Equally deep, and none twice. -/
def Level (n : Nat) (paths : List Text) : Prop := (paths.map dirOf).Nodup ∧ ∀ p ∈ paths, (dirOf p).length = n

theorem Level.apart {n : Nat} {paths : List Text} (h : Level n paths) : Apart (paths.map dirOf) := by
  intro i j k p q hi hj e
  have hp : p.length = n := by
    obtain ⟨x, hx, rfl⟩ := List.mem_map.1 (List.mem_of_getElem? hi); exact h.2 x hx
  have hq : q.length = n := by
    obtain ⟨x, hx, rfl⟩ := List.mem_map.1 (List.mem_of_getElem? hj); exact h.2 x hx
  have e' : p = q := by
    have hl := congrArg List.length e
    simp only [List.length_drop] at hl
    rcases Nat.eq_zero_or_pos k with rfl | hk
    · simpa using e.symm
    · have : n = 0 := by omega
      rw [List.length_eq_zero_iff.1 (hp.trans this), List.length_eq_zero_iff.1 (hq.trans this)]
  subst e'
  obtain ⟨h1, e1⟩ := List.getElem?_eq_some_iff.1 hi
  obtain ⟨h2, e2⟩ := List.getElem?_eq_some_iff.1 hj
  exact (List.Nodup.getElem_inj_iff h.1).1 (e1.trans e2.symm)

theorem level_one (p : Text) : Level (dirOf p).length [p] := by simp [Level]

theorem Level.extend {n : Nat} {paths : List Text} (h : Level n paths) (m : Nat) : Level (n + 1) (extendPaths paths m) := by
  have e : (extendPaths paths m).map dirOf = paths.flatMap fun p => (List.range m).map fun k => decimal k :: dirOf p := by
    unfold extendPaths
    rw [List.map_flatMap]
    apply flatMap_congr'
    intro p _
    rw [List.map_map]
    apply List.map_congr_left
    intro k _
    exact dirOf_slash (decimal_no_slash k)
  refine ⟨?_, ?_⟩
  · rw [e, List.nodup_flatMap]
    refine ⟨fun p _ => ?_, ?_⟩
    · refine List.Nodup.map ?_ List.nodup_range
      intro a b hab
      simp only [List.cons.injEq] at hab
      exact decimal_inj hab.1
    · refine (List.pairwise_map.1 h.1).imp ?_
      intro a b hab x hx hy
      obtain ⟨k, _, rfl⟩ := List.mem_map.1 hx
      obtain ⟨l, _, hl⟩ := List.mem_map.1 hy
      simp only [List.cons.injEq] at hl
      exact hab hl.2.symm
  · intro p hp
    have : dirOf p ∈ (extendPaths paths m).map dirOf := List.mem_map_of_mem hp
    rw [e] at this
    obtain ⟨q, hq, hx⟩ := List.mem_flatMap.1 this
    obtain ⟨k, _, hx⟩ := List.mem_map.1 hx
    rw [← hx, List.length_cons, h.2 q hq]

theorem later_level (v : Version) (ds : List Dim) : ∀ (n : Nat) (paths : List Text), Level n paths →
    ∀ b ∈ laterBatches v ds paths, ∃ m, Level m b := by
  induction ds with
  | nil => intro n paths _ b hb; simp [laterBatches] at hb
  | cons d ds ih =>
    intro n paths h b hb
    cases ds with
    | nil => simp [laterBatches] at hb
    | cons e ds =>
      simp only [laterBatches, List.mem_cons] at hb
      rcases hb with rfl | hb
      · exact ⟨_, h.extend _⟩
      · exact ih _ _ (h.extend _) b hb

/-- **C107, the names.** In every call of `make_dirs_` for the data or the metadata of a stream, no directory is listed twice and
none is inside another. -/
theorem batches_apart (v : Version) (ds : List Dim) (root : Text) :
    (∀ b ∈ dataBatches v ds root, Apart (b.map dirOf)) ∧ ∀ b ∈ metadataBatches v root, Apart (b.map dirOf) := by
  refine ⟨?_, ?_⟩
  · intro b hb
    simp only [dataBatches, List.mem_cons] at hb
    rcases hb with rfl | hb
    · exact (level_one root).apart
    · obtain ⟨m, hm⟩ := later_level v ds _ _ (level_one root) b hb
      exact hm.apart
  · intro b hb
    cases v <;> simp only [metadataBatches, List.mem_cons, List.not_mem_nil, or_false] at hb <;> rcases hb with rfl | rfl <;>
      exact (level_one _).apart

/-- **C107.** Whatever directories are there before, and however the workers interleave the jobs of a call of `make_dirs_` for the
data or the metadata of a stream: no job fails, and when all are over the directories are there. -/
theorem directories_whatever_the_schedule (v : Version) (ds : List Dim) (root : Text) (b : List Text)
    (hb : b ∈ dataBatches v ds root ∨ b ∈ metadataBatches v root) (dirs : List Dir) (schedule : List Nat) (s : State)
    (hr : run (b.map dirOf) (init dirs (b.map dirOf)) schedule = some s) :
    s.ok = true ∧ (∀ i : Nat, s.jobs[i]? ≠ some (.ended false)) ∧
      ((∀ i, step (b.map dirOf) s i = none) → ∀ p ∈ b, dirOf p ∈ s.dirs) := by
  have ha : Apart (b.map dirOf) := hb.elim ((batches_apart v ds root).1 b) ((batches_apart v ds root).2 b)
  have hne : ∀ d ∈ b.map dirOf, d ≠ [] := by
    intro d hd
    obtain ⟨p, _, rfl⟩ := List.mem_map.1 hd
    exact dirOf_ne_nil p
  obtain ⟨h1, h2⟩ := no_spurious_failure dirs _ ha hne schedule s hr
  exact ⟨h1, h2, fun hend p hp => (directories_made dirs _ ha hne schedule s hr hend).2.2.1 _ (List.mem_map_of_mem hp)⟩

/-- The data sinks, each in a directory of the last call: what `make_files_` needs. -/
theorem files_have_their_directory (v : Version) (ds : List Dim) (root : Text) (paths : List Text) (hds : ds ≠ [])
    (h : dataPathsFrom v ds [root] = some paths) :
    ∃ last, (dataBatches v ds root).getLast? = some last ∧ ∀ p ∈ paths, ∃ q ∈ last, ∃ k, p = q ++ '/' :: decimal k := by
  have key : ∀ (ds : List Dim) (b paths : List Text), ds ≠ [] → dataPathsFrom v ds b = some paths →
      ∃ last, (b :: laterBatches v ds b).getLast? = some last ∧ ∀ p ∈ paths, ∃ q ∈ last, ∃ k, p = q ++ '/' :: decimal k := by
    intro ds
    induction ds with
    | nil => intro b paths h; exact absurd rfl h
    | cons d ds ih =>
      intro b paths _ h
      simp only [dataPathsFrom] at h
      split at h
      · cases h
      cases ds with
      | nil =>
        simp only [dataPathsFrom, Option.some.injEq] at h
        subst h
        refine ⟨b, by simp [laterBatches], ?_⟩
        intro p hp
        simp only [extendPaths, List.mem_flatMap, List.mem_map] at hp
        obtain ⟨q, hq, k, _, rfl⟩ := hp
        exact ⟨q, hq, k, rfl⟩
      | cons e ds =>
        obtain ⟨last, hl, hp⟩ := ih _ paths (by simp) h
        refine ⟨last, ?_, hp⟩
        rw [laterBatches, List.getLast?_cons_cons]
        exact hl
  exact key ds [root] paths hds h

/-- The documents of the store, each in a directory of the calls for the metadata. -/
theorem documents_have_their_directory (v : Version) (base : Text) : ∀ key ∈ metaKeys v,
    ∃ b ∈ metadataBatches v base, ∃ q ∈ b, ∃ name : Text, '/' ∉ name ∧ base ++ '/' :: key = q ++ '/' :: name := by
  intro key hk
  cases v <;> simp only [metaKeys, List.mem_cons, List.not_mem_nil, or_false] at hk
  · rcases hk with rfl | rfl | rfl | rfl
    · exact ⟨[base], by simp [metadataBatches], base, by simp, _, by decide, rfl⟩
    · exact ⟨[base], by simp [metadataBatches], base, by simp, _, by decide, rfl⟩
    · exact ⟨_, List.mem_cons_of_mem _ (List.mem_singleton_self _), _, List.mem_singleton_self _, ".zattrs".toList, by decide,
        by simp⟩
    · exact ⟨[base], by simp [metadataBatches], base, by simp, _, by decide, rfl⟩
  · rcases hk with rfl | rfl | rfl
    · exact ⟨[base], by simp [metadataBatches], base, by simp, _, by decide, rfl⟩
    · exact ⟨_, List.mem_cons_of_mem _ (List.mem_singleton_self _), _, List.mem_singleton_self _, "root.group.json".toList,
        by decide, by simp⟩
    · exact ⟨_, List.mem_cons_of_mem _ (List.mem_singleton_self _), _, List.mem_singleton_self _, "acquire.json".toList,
        by decide, by simp⟩

/-- For any names, also those that can fail: the call reports success exactly if no job has failed. -/
theorem failure_is_seen (dirs paths : List Dir) (schedule : List Nat) (s : State)
    (hr : run paths (init dirs paths) schedule = some s) : s.ok = true ↔ Pc.ended false ∉ s.jobs := by
  have key : ∀ (is : List Nat) (s s' : State), (s.ok = true ↔ Pc.ended false ∉ s.jobs) → run paths s is = some s' →
      (s'.ok = true ↔ Pc.ended false ∉ s'.jobs) := by
    intro is
    induction is with
    | nil => intro s s' h hr; simp only [run, Option.some.injEq] at hr; subst hr; exact h
    | cons i is ih =>
      intro s s' h hr
      simp only [run, Option.bind_eq_some_iff] at hr
      obtain ⟨t, ht, hr⟩ := hr
      refine ih t s' ?_ hr
      unfold step at ht
      split at ht
      case h_2 => cases ht
      rename_i d pc _ hpc
      split at ht
      case h_2 => cases ht
      rename_i new pc' hx
      simp only [Option.some.injEq] at ht
      subst ht
      have hend : pc ≠ .ended false := by rintro rfl; simp [next] at hx
      obtain ⟨hi, e⟩ := List.getElem?_eq_some_iff.1 hpc
      simp only [Bool.and_eq_true, h, bne_iff_ne, ne_eq]
      constructor
      · rintro ⟨h1, h2⟩ hm
        rcases List.mem_or_eq_of_mem_set hm with h3 | h3
        · exact h1 h3
        · exact h2 h3.symm
      · intro hm
        refine ⟨fun h1 => hm ?_, fun h1 => hm (h1 ▸ List.mem_set hi _)⟩
        obtain ⟨j, hj, e2⟩ := List.getElem_of_mem h1
        have hij : i ≠ j := by rintro rfl; exact hend (e.symm.trans e2)
        have : (s.jobs.set i pc')[j]? = some (.ended false) := by
          rw [List.getElem?_set_ne hij, List.getElem?_eq_getElem hj, e2]
        exact List.mem_of_getElem? this
  refine key schedule _ _ ?_ hr
  simp [init]

/-! ### Examples -/

/-- Three missing directories below a missing root; the jobs take turns, and race to make the root. -/
def exPaths : List Dir := ["s/0".toList, "s/1".toList, "s/2".toList].map dirOf

example : Level 2 ["s/0".toList, "s/1".toList, "s/2".toList] := by
  refine ⟨by decide +kernel, by decide +kernel⟩

/-- All three find the root missing; one makes it, the others find it made, and all succeed. -/
example : (run exPaths (init [] exPaths) ((List.replicate 7 [0, 1, 2]).flatten)).map (fun s => (s.ok, s.dirs.length, s.jobs)) =
    some (true, 4, [.ended true, .ended true, .ended true]) := by decide +kernel

/-- The calls are not trivial: a Zarr V2 stream with two inner dimensions of 2 and 3 chunks. -/
example : (dataBatches .v2 [⟨"z", .space, 4, 2, 1⟩, ⟨"y", .space, 6, 2, 1⟩, ⟨"x", .space, 4, 4, 1⟩]
    "s/0/0".toList).map (·.length) = [1, 2, 6] := by decide +kernel

/-- The condition matters: with a directory and its parent in one call, the parent's job can fail although both are made. -/
theorem nested_names_may_fail : ∃ (schedule : List Nat) (s : State),
    run ([["b".toList, "a".toList], ["a".toList]]) (init [] [["b".toList, "a".toList], ["a".toList]]) schedule = some s ∧
      s.ok = false ∧ ["a".toList] ∈ s.dirs ∧ ["b".toList, "a".toList] ∈ s.dirs :=
  ⟨[1, 1, 0, 0, 0, 0, 0, 0, 0, 1], _, rfl, by decide +kernel, by decide +kernel, by decide +kernel⟩

/-- The same when the other job makes the directory just before the `mkdir` of its own job. -/
example : (run ([["b".toList, "a".toList], ["a".toList]]) (init [] [["b".toList, "a".toList], ["a".toList]])
    [1, 1, 1, 1, 0, 0, 0, 0, 0, 0, 0, 1]).map (fun s => (s.ok, s.jobs)) = some (false, [.ended true, .ended false]) := by
  decide +kernel

end AZ.MakeDirs
