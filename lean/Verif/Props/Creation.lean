import Verif.Model.Creation
import Mathlib.Data.List.Range

set_option linter.unusedSimpArgs false

/-! # Parallel creation of directories and files (C29) -/

namespace AZ.Creation

variable {s s' : State} {t : Bool} {outs : List Bool} {xs : List Step}

/-- A job that failed. -/
def Job.failed : Job → Bool
  | .tried ok | .counted ok | .ended ok => !ok
  | .fresh => false

/-- Invariant of all schedules. -/
structure Inv (outs : List Bool) (s : State) : Prop where
  same : s.outcomes = outs
  length : s.jobs.length = outs.length
  sound : ∀ (i : Nat) (j : Job), s.jobs[i]? = some j → j.failed = true → outs[i]? = some false
  flag : s.flag = false → ∃ i : Nat, s.jobs[i]? = some (Job.ended false)
  marked : ∀ i : Nat, s.jobs[i]? = some (Job.ended false) → s.flag = false
  alltrue : s.flag = true → ∀ (i : Nat) (j : Job), s.jobs[i]? = some j → j ≠ .fresh → j.failed = false → outs[i]? = some true
  result : s.result ≠ none → s.jobs.all Job.hasCounted = true
  noAlarm : s.result = some false → s.flag = false

theorem getElem?_set_cases {α : Type} {l : List α} {i k : Nat} {x y : α} (h : (l.set i x)[k]? = some y) :
    (k = i ∧ y = x) ∨ (k ≠ i ∧ l[k]? = some y) := by
  by_cases hk : k = i
  · subst hk
    left
    rcases Nat.lt_or_ge k l.length with hl | hl
    · rw [List.getElem?_set_self hl] at h
      exact ⟨rfl, by simpa using h.symm⟩
    · rw [List.getElem?_eq_none (by simpa using hl)] at h
      simp at h
  · right
    rw [List.getElem?_set_ne (by omega)] at h
    exact ⟨hk, h⟩

theorem inv_init : Inv outs (init t outs) := by
  have hf : ∀ (i : Nat) (j : Job), (init t outs).jobs[i]? = some j → j = .fresh := by
    intro i j h
    simp only [init, List.getElem?_map, Option.map_eq_some_iff] at h
    obtain ⟨_, _, rfl⟩ := h
    rfl
  constructor
  · rfl
  · simp [init]
  · intro i j h hj
    rw [hf i j h] at hj
    simp [Job.failed] at hj
  · intro h; simp [init] at h
  · intro i h
    exact absurd (hf i _ h) (by simp)
  · intro _ i j h hn
    exact absurd (hf i j h) hn
  · intro h; simp [init] at h
  · intro h; simp [init] at h

theorem mem_of_all {js : List Job} (h : js.all Job.hasCounted = true) {i : Nat} {j : Job} (hj : js[i]? = some j) :
    j.hasCounted = true := (List.all_eq_true.1 h) j (List.mem_of_getElem? hj)

theorem lt_of_some {α : Type} {l : List α} {i : Nat} {x : α} (h : l[i]? = some x) : i < l.length := by
  rcases Nat.lt_or_ge i l.length with hl | hl
  · exact hl
  · rw [List.getElem?_eq_none hl] at h; simp at h

theorem inv_step (h : Inv outs s) (hno : ∀ i : Nat, s.outcomes[i]? = outs[i]?) {x : Step} (hs : step s x = some s') :
    Inv outs s' := by
  obtain ⟨a1, a2, a3, a4, a5, a6, a7, a8⟩ := h
  cases x with
  | «try» i =>
    simp only [step] at hs
    split at hs
    · rename_i ok hj ho
      cases hs
      have hfresh : ∀ k, s.jobs[k]? = some (.ended false) → k ≠ i := by
        rintro k hk rfl
        rw [hk] at hj; simp at hj
      have hlt := lt_of_some hj
      constructor <;> dsimp only [touch]
      · exact a1
      · simpa using a2
      · intro k j hk hf
        rcases getElem?_set_cases hk with ⟨rfl, rfl⟩ | ⟨_, hk⟩
        · rw [hno k] at ho
          rw [ho]
          simp [Job.failed] at hf
          rw [hf.2]
        · exact a3 k j hk hf
      · intro hfl
        obtain ⟨k, hk⟩ := a4 hfl
        refine ⟨k, ?_⟩
        rw [List.getElem?_set_ne (by have := hfresh k hk; omega)]
        exact hk
      · intro k hk
        rcases getElem?_set_cases hk with ⟨rfl, h⟩ | ⟨_, hk⟩
        · simp at h
        · exact a5 k hk
      · intro hfl k j hk hn hf
        rcases getElem?_set_cases hk with ⟨rfl, rfl⟩ | ⟨_, hk⟩
        · rw [hno k] at ho
          rw [ho]
          simp [Job.failed, hfl] at hf
          rw [hf]
        · exact a6 hfl k j hk hn hf
      · intro hr
        have := mem_of_all (a7 hr) hj
        simp [Job.hasCounted] at this
      · intro hr
        exact a8 hr
    · simp at hs
  | count i =>
    simp only [step] at hs
    split at hs
    · rename_i ok hj
      cases hs
      constructor <;> dsimp only [touch]
      · exact a1
      · simpa using a2
      · intro k j hk hf
        rcases getElem?_set_cases hk with ⟨rfl, rfl⟩ | ⟨_, hk⟩
        · exact a3 k _ hj hf
        · exact a3 k j hk hf
      · intro hfl
        obtain ⟨k, hk⟩ := a4 hfl
        refine ⟨k, ?_⟩
        rw [List.getElem?_set_ne]
        · exact hk
        · rintro rfl
          rw [hj] at hk; simp at hk
      · intro k hk
        rcases getElem?_set_cases hk with ⟨rfl, h⟩ | ⟨_, hk⟩
        · simp at h
        · exact a5 k hk
      · intro hfl k j hk hn hf
        rcases getElem?_set_cases hk with ⟨rfl, rfl⟩ | ⟨_, hk⟩
        · exact a6 hfl k _ hj (by simp) hf
        · exact a6 hfl k j hk hn hf
      · intro hr
        have := mem_of_all (a7 hr) hj
        simp [Job.hasCounted] at this
      · intro hr
        exact a8 hr
    · simp at hs
  | mark i =>
    simp only [step] at hs
    split at hs
    · rename_i ok hj
      have hjobs : s'.jobs = s.jobs.set i (.ended ok) ∧ s'.outcomes = s.outcomes ∧ s'.result = s.result ∧
          s'.flag = (s.flag && ok) := by
        split at hs
        · cases hs; exact ⟨rfl, rfl, rfl, rfl⟩
        · rename_i hc
          cases hs
          refine ⟨rfl, rfl, rfl, ?_⟩
          simp at hc
          simp [hc.2]
      obtain ⟨e1, e2, e3, e4⟩ := hjobs
      have hlt := lt_of_some hj
      constructor
      · rw [e2]; exact a1
      · rw [e1]; simpa using a2
      · intro k j hk hf
        rw [e1] at hk
        rcases getElem?_set_cases hk with ⟨rfl, rfl⟩ | ⟨_, hk⟩
        · exact a3 k _ hj hf
        · exact a3 k j hk hf
      · intro hfl
        rw [e4] at hfl
        rw [e1]
        cases ok with
        | false => exact ⟨i, by rw [List.getElem?_set_self hlt]⟩
        | true =>
          obtain ⟨k, hk⟩ := a4 (by simpa using hfl)
          refine ⟨k, ?_⟩
          rw [List.getElem?_set_ne]
          · exact hk
          · rintro rfl
            rw [hj] at hk; simp at hk
      · intro k hk
        rw [e1] at hk
        rw [e4]
        rcases getElem?_set_cases hk with ⟨rfl, h⟩ | ⟨_, hk⟩
        · simp at h
          simp [h]
        · simp [a5 k hk]
      · intro hfl k j hk hn hf
        rw [e4] at hfl
        rw [e1] at hk
        have hfl : s.flag = true ∧ ok = true := by simpa using hfl
        rcases getElem?_set_cases hk with ⟨rfl, rfl⟩ | ⟨_, hk⟩
        · exact a6 hfl.1 k _ hj (by simp) hf
        · exact a6 hfl.1 k j hk hn hf
      · intro hr
        rw [e3] at hr
        rw [e1, List.all_eq_true]
        intro j hj'
        obtain ⟨k, hk⟩ := List.mem_iff_getElem?.1 hj'
        rcases getElem?_set_cases hk with ⟨rfl, rfl⟩ | ⟨_, hk⟩
        · rfl
        · exact mem_of_all (a7 hr) hk
      · intro hr
        rw [e3] at hr
        rw [e4, a8 hr]
        rfl
    · simp at hs
  | ret =>
    simp only [step] at hs
    split at hs
    · rename_i hc
      cases hs
      simp only [Bool.and_eq_true] at hc
      constructor <;> dsimp only
      · exact a1
      · exact a2
      · exact a3
      · exact a4
      · exact a5
      · exact a6
      · intro _; exact hc.2
      · intro h; simpa using h
    · simp at hs

theorem inv_run (h : Inv outs s) (hs : run s xs = some s') : Inv outs s' := by
  induction xs generalizing s with
  | nil => cases hs; exact h
  | cons x xs ih =>
    rw [run] at hs
    split at hs
    · simp at hs
    · rename_i q hq
      exact ih (inv_step h (by intro i; rw [h.same]) hq) hs

/-- **C29, waiting.** The call returns only after every job has attempted its creation (or seen that an earlier one
failed). -/
theorem returns_after_all (h : run (init t outs) xs = some s) (hr : s.result ≠ none) :
    ∀ (i : Nat) (j : Job), s.jobs[i]? = some j → j.hasCounted = true := by
  intro i j hj
  exact mem_of_all ((inv_run inv_init h).result hr) hj

/-- **C29, no false alarm.** The call returns false only if a creation failed. -/
theorem false_means_failed (h : run (init t outs) xs = some s) (hr : s.result = some false) :
    ∃ i : Nat, outs[i]? = some false := by
  have hi := inv_run (inv_init (t := t)) h
  obtain ⟨i, hi'⟩ := hi.flag (hi.noAlarm hr)
  exact ⟨i, hi.sound i _ hi' rfl⟩

/-- **C29 (partial).** At the moment the call returns true, every creation has succeeded, except for failed jobs
that have released the latch but not yet recorded their failure. Missing: that there are none
(`creation_reports_violated`). -/
theorem true_means_created_partial (h : run (init t outs) xs = some s) (hr : step s .ret = some s')
    (ht : s'.result = some true) :
    ∀ i : Nat, i < outs.length → outs[i]? = some true ∨ s.jobs[i]? = some (.counted false) := by
  have hi := inv_run (inv_init (t := t)) h
  simp only [step] at hr
  split at hr
  · rename_i hc
    simp only [Bool.and_eq_true] at hc
    cases hr
    have hfl : s.flag = true := by simpa using ht
    intro i hlt
    rw [← hi.length] at hlt
    have hj := List.getElem?_eq_getElem hlt
    have hcnt := mem_of_all hc.2 hj
    generalize s.jobs[i] = j at hj hcnt
    cases j with
    | fresh => simp [Job.hasCounted] at hcnt
    | tried ok => simp [Job.hasCounted] at hcnt
    | counted ok =>
      cases ok with
      | false => exact .inr hj
      | true => exact .inl (hi.alltrue hfl i _ hj (by simp) rfl)
    | ended ok =>
      cases ok with
      | false =>
        have := hi.marked i hj
        rw [hfl] at this
        simp at this
      | true => exact .inl (hi.alltrue hfl i _ hj (by simp) rfl)
  · simp at hr

/-- In particular the answer is right if every job has ended (not only released the latch) before the call returns. -/
theorem true_means_created_if_ended (h : run (init t outs) xs = some s) (hr : step s .ret = some s')
    (ht : s'.result = some true) (hend : ∀ (i : Nat) (ok : Bool), s.jobs[i]? ≠ some (.counted ok)) :
    ∀ i : Nat, i < outs.length → outs[i]? = some true := by
  intro i hi
  rcases true_means_created_partial h hr ht i hi with h1 | h1
  · exact h1
  · exact absurd h1 (hend i false)

/-- **C29 is violated**: with a single job, which fails, there is a schedule in which the call returns true; and the
worker then writes to a variable of the caller that no longer exists. The same happens for directories. -/
theorem creation_reports_violated : ∀ t, ∃ s, run (init t [false]) [.try 0, .count 0, .ret, .mark 0] = some s ∧
    s.result = some true ∧ s.late = 1 := by
  intro t
  cases t <;> exact ⟨_, rfl, rfl, rfl⟩

/-- For files the access after the return also happens when everything succeeds. -/
theorem files_touch_late : ∃ s, run (init true [true]) [.try 0, .count 0, .ret, .mark 0] = some s ∧
    s.result = some true ∧ s.late = 1 := ⟨_, rfl, rfl, rfl⟩

/-- Files that cannot be opened are never reported, in any schedule. -/
theorem unopened_files_unreported {opened : List Bool} (h : run (init true (opened.map fileOutcome)) xs = some s)
    (hr : s.result ≠ none) : s.result = some true := by
  cases hres : s.result with
  | none => exact absurd hres hr
  | some b =>
    cases b with
    | true => rfl
    | false =>
      obtain ⟨i, hi⟩ := false_means_failed h hres
      rw [List.getElem?_map, Option.map_eq_some_iff] at hi
      obtain ⟨_, _, hi⟩ := hi
      simp [fileOutcome] at hi

/-- A complete schedule with three jobs, the second of which fails and is reported. -/
example : ∃ s, run (init true [true, false, true]) [.try 1, .try 0, .count 1, .mark 1, .try 2, .count 2, .count 0, .mark 2,
    .mark 0, .ret] = some s ∧ s.result = some false ∧ s.late = 0 := ⟨_, rfl, rfl, rfl⟩

end AZ.Creation
