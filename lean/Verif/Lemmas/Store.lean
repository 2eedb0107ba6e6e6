import Verif.Model.Store
import Verif.Lemmas.Bytes

set_option linter.unusedSimpArgs false

namespace AZ

theorem foldl_stepFile_irrelevant {p : Text} {tr : List Ev} (h : ∀ e ∈ tr, e.path ≠ p) (cur) :
    tr.foldl (stepFile p) cur = cur := by
  induction tr generalizing cur with
  | nil => rfl
  | cons e es ih =>
    rw [List.foldl_cons]
    have : stepFile p cur e = cur := by
      unfold stepFile; rw [if_pos (h e (by simp))]
    rw [this]
    exact ih (fun e he => h e (by simp [he])) cur

theorem foldl_stepFile_filter (p : Text) (tr : List Ev) (cur) :
    tr.foldl (stepFile p) cur = (tr.filter fun e => e.path = p).foldl (stepFile p) cur := by
  induction tr generalizing cur with
  | nil => rfl
  | cons e es ih =>
    rw [List.foldl_cons, ih]
    by_cases h : e.path = p
    · rw [List.filter_cons_of_pos (by simpa using h), List.foldl_cons]
    · rw [List.filter_cons_of_neg (by simpa using h)]
      have : stepFile p cur e = cur := by
        unfold stepFile; rw [if_pos h]
      rw [this]

/-- Only the events about `p` matter for the file `p`. -/
theorem fileAfter_filter (p : Text) (tr : List Ev) :
    fileAfter p tr = fileAfter p (tr.filter fun e => e.path = p) := foldl_stepFile_filter p tr none

/-- Among events indexed by different paths only one is about a given path. -/
theorem filter_indexed {n : Nat} {f : Nat → Ev} {path : Nat → Text} (hp : ∀ c, (f c).path = path c)
    {c0 : Nat} (h0 : c0 < n) (hinj : ∀ c, c < n → path c = path c0 → c = c0) :
    ((List.range n).map f).filter (fun e => e.path = path c0) = [f c0] := by
  induction n with
  | zero => omega
  | succ n ih =>
    rw [List.range_succ, List.map_append, List.filter_append]
    by_cases h : c0 = n
    · subst h
      have : ((List.range c0).map f).filter (fun e => decide (e.path = path c0)) = [] := by
        rw [List.filter_eq_nil_iff]
        intro e he
        obtain ⟨c, hc, rfl⟩ := List.mem_map.1 he
        have hc := List.mem_range.1 hc
        simp only [hp, decide_eq_true_eq]
        intro hh
        have := hinj c (by omega) hh
        omega
      rw [this]
      simp [hp]
    · rw [ih (by omega) (fun c hc => hinj c (by omega))]
      simp [hp]
      intro hh
      exact h (hinj n (by omega) hh).symm

theorem filter_indexed_none {n : Nat} {f : Nat → Ev} {path : Nat → Text} (hp : ∀ c, (f c).path = path c)
    {p : Text} (hne : ∀ c, c < n → path c ≠ p) :
    ((List.range n).map f).filter (fun e => e.path = p) = [] := by
  rw [List.filter_eq_nil_iff]
  intro e he
  obtain ⟨c, hc, rfl⟩ := List.mem_map.1 he
  simp only [hp, decide_eq_true_eq]
  exact hne c (List.mem_range.1 hc)

end AZ
