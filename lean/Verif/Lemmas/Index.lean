import Verif.Spec.Index
import Mathlib.Tactic.Ring
import Mathlib.Tactic.Linarith

set_option linter.unusedSimpArgs false

namespace Spec

@[simp] theorem prod_nil : prod [] = 1 := rfl
@[simp] theorem prod_cons (x : Nat) (xs) : prod (x :: xs) = x * prod xs := rfl

theorem prod_append (a b : List Nat) : prod (a ++ b) = prod a * prod b := by
  induction a with
  | nil => simp
  | cons x xs ih => simp [ih, Nat.mul_assoc]

theorem prod_pos {s : List Nat} (h : ∀ x ∈ s, 0 < x) : 0 < prod s := by
  induction s with
  | nil => simp
  | cons x xs ih =>
    simp only [prod_cons]
    exact Nat.mul_pos (h x (by simp)) (ih fun y hy => h y (by simp [hy]))

theorem InBounds.length {s i : List Nat} (h : InBounds s i) : i.length = s.length := by
  induction s generalizing i with
  | nil => cases i <;> simp_all [InBounds]
  | cons x xs ih => cases i with
    | nil => exact h.elim
    | cons y ys => simp [ih h.2]

theorem ravel_lt {s i : List Nat} (h : InBounds s i) : ravel s i < prod s := by
  induction s generalizing i with
  | nil => cases i <;> simp_all [InBounds, ravel]
  | cons x xs ih => cases i with
    | nil => exact h.elim
    | cons y ys =>
      have h1 := ih h.2
      have h2 : y + 1 ≤ x := h.1
      simp only [ravel, prod_cons]
      calc y * prod xs + ravel xs ys < y * prod xs + prod xs := by omega
        _ = (y + 1) * prod xs := by ring
        _ ≤ x * prod xs := Nat.mul_le_mul_right _ h2

theorem InBounds.pos {s i : List Nat} (h : InBounds s i) : ∀ x ∈ s, 0 < x := by
  induction s generalizing i with
  | nil => simp
  | cons x xs ih => cases i with
    | nil => exact h.elim
    | cons y ys =>
      intro z hz
      rcases List.mem_cons.1 hz with rfl | hz
      · have := h.1; omega
      · exact ih h.2 z hz

theorem digit_eq {a b q r p : Nat} (hr : r < p) (hb : b < p) (h : a * p + r = q * p + b) :
    a = q ∧ r = b := by
  have h1 : (a * p + r) / p = a := by
    rw [Nat.add_comm, Nat.add_mul_div_right _ _ (by omega), Nat.div_eq_of_lt hr, Nat.zero_add]
  have h2 : (q * p + b) / p = q := by
    rw [Nat.add_comm, Nat.add_mul_div_right _ _ (by omega), Nat.div_eq_of_lt hb, Nat.zero_add]
  have : a = q := by rw [← h1, h, h2]
  subst this
  omega

theorem digit_iff {a b q r p : Nat} (hr : r < p) (hb : b < p) :
    a * p + r = q * p + b ↔ a = q ∧ r = b :=
  ⟨digit_eq hr hb, fun ⟨h1, h2⟩ => by rw [h1, h2]⟩

theorem ravel_inj {s i j : List Nat} (hi : InBounds s i) (hj : InBounds s j)
    (h : ravel s i = ravel s j) : i = j := by
  induction s generalizing i j with
  | nil => cases i <;> cases j <;> simp_all [InBounds]
  | cons x xs ih =>
    cases i with
    | nil => exact hi.elim
    | cons a as => cases j with
      | nil => exact hj.elim
      | cons b bs =>
        simp only [ravel] at h
        obtain ⟨h1, h2⟩ := digit_eq (ravel_lt hi.2) (ravel_lt hj.2) h
        rw [h1, ih hi.2 hj.2 h2]

theorem unravel_inBounds {s : List Nat} {r : Nat} (h : r < prod s) : InBounds s (unravel s r) := by
  induction s generalizing r with
  | nil => trivial
  | cons x xs ih =>
    have hp : 0 < prod xs := by
      rcases Nat.eq_zero_or_pos (prod xs) with h0 | h0
      · simp [h0] at h
      · exact h0
    refine ⟨?_, ih (Nat.mod_lt _ hp)⟩
    rw [Nat.div_lt_iff_lt_mul hp]
    simpa using h

theorem ravel_unravel {s : List Nat} {r : Nat} (h : r < prod s) : ravel s (unravel s r) = r := by
  induction s generalizing r with
  | nil => simp [unravel, ravel] at *; omega
  | cons x xs ih =>
    have hp : 0 < prod xs := by
      rcases Nat.eq_zero_or_pos (prod xs) with h0 | h0
      · simp [h0] at h
      · exact h0
    simp only [unravel, ravel]
    rw [ih (Nat.mod_lt _ hp)]
    have := Nat.div_add_mod r (prod xs)
    rw [Nat.mul_comm] at this
    exact this

theorem unravel_ravel {s i : List Nat} (h : InBounds s i) : unravel s (ravel s i) = i :=
  ravel_inj (unravel_inBounds (ravel_lt h)) h (ravel_unravel (ravel_lt h))

theorem ravel_append {s1 i1 : List Nat} (s2 i2 : List Nat) (h : i1.length = s1.length) :
    ravel (s1 ++ s2) (i1 ++ i2) = ravel s1 i1 * prod s2 + ravel s2 i2 := by
  induction s1 generalizing i1 with
  | nil => cases i1 <;> simp_all [ravel]
  | cons x xs ih => cases i1 with
    | nil => simp at h
    | cons y ys =>
      simp only [List.cons_append, ravel, prod_append]
      rw [ih (by simpa using h)]
      ring

theorem inBounds_append {s1 i1 : List Nat} (s2 i2 : List Nat) (h : i1.length = s1.length) :
    InBounds (s1 ++ s2) (i1 ++ i2) ↔ InBounds s1 i1 ∧ InBounds s2 i2 := by
  induction s1 generalizing i1 with
  | nil => cases i1 <;> simp_all [InBounds]
  | cons x xs ih => cases i1 with
    | nil => simp at h
    | cons y ys =>
      simp only [List.cons_append, InBounds]
      rw [ih (by simpa using h)]
      exact and_assoc.symm

theorem ceilDiv_mul_ge {a b : Nat} (hb : 0 < b) : a ≤ ceilDiv a b * b := by
  unfold ceilDiv
  have h1 := Nat.div_add_mod (a + b - 1) b
  have h2 := Nat.mod_lt (a + b - 1) hb
  have h3 := Nat.mul_comm b ((a + b - 1) / b)
  omega

theorem ceilDiv_pos {a b : Nat} (ha : 0 < a) (hb : 0 < b) : 0 < ceilDiv a b := by
  unfold ceilDiv
  exact Nat.div_pos (by omega) hb

theorem ceilDiv_mul_lt {a b : Nat} (ha : 0 < a) (hb : 0 < b) : ceilDiv a b * b < a + b := by
  unfold ceilDiv
  have := Nat.div_mul_le_self (a + b - 1) b
  omega

theorem ceilDiv_le {a b : Nat} (hb : 0 < b) : ceilDiv a b ≤ a := by
  unfold ceilDiv
  rw [Nat.div_le_iff_le_mul_add_pred hb]
  have : a ≤ b * a := Nat.le_mul_of_pos_left a hb
  omega

theorem lt_ceilDiv_iff {a b k : Nat} (hb : 0 < b) : k < ceilDiv a b ↔ k * b < a := by
  unfold ceilDiv
  rw [Nat.lt_iff_add_one_le, Nat.le_div_iff_mul_le hb]
  have : (k + 1) * b = k * b + b := by ring
  omega

theorem div_lt_ceilDiv {a b x : Nat} (hb : 0 < b) (h : x < a) : x / b < ceilDiv a b := by
  rw [lt_ceilDiv_iff hb]
  exact lt_of_le_of_lt (Nat.div_mul_le_self x b) h

theorem gridOf_inBounds {cs as x : List Nat} (hc : ∀ c ∈ cs, 0 < c) (hl : cs.length = as.length)
    (h : InBounds as x) : InBounds (List.zipWith ceilDiv as cs) (gridOf cs x) := by
  induction as generalizing cs x with
  | nil => cases cs <;> cases x <;> simp_all [InBounds, gridOf]
  | cons a as ih =>
    cases cs with
    | nil => simp at hl
    | cons c cs => cases x with
      | nil => exact h.elim
      | cons x xs =>
        exact ⟨div_lt_ceilDiv (hc c (by simp)) h.1,
          ih (fun y hy => hc y (by simp [hy])) (by simpa using hl) h.2⟩

theorem withinOf_inBounds {cs x : List Nat} (hc : ∀ c ∈ cs, 0 < c) (hl : x.length = cs.length) :
    InBounds cs (withinOf cs x) := by
  induction cs generalizing x with
  | nil => cases x <;> simp_all [InBounds, withinOf]
  | cons c cs ih => cases x with
    | nil => simp at hl
    | cons x xs =>
      exact ⟨Nat.mod_lt _ (hc c (by simp)), ih (fun y hy => hc y (by simp [hy])) (by simpa using hl)⟩

theorem globalCoord_grid_within {cs x : List Nat} (hl : x.length = cs.length) :
    globalCoord cs (gridOf cs x) (withinOf cs x) = x := by
  induction cs generalizing x with
  | nil => cases x <;> simp_all [globalCoord, gridOf, withinOf]
  | cons c cs ih => cases x with
    | nil => simp at hl
    | cons x xs =>
      simp only [gridOf, withinOf, globalCoord]
      rw [ih (by simpa using hl), Nat.mul_comm, Nat.div_add_mod]

end Spec
