import Verif.Lemmas.Shard

set_option linter.unusedSimpArgs false

/-! # One shard: the sequence of chunks stored in it, its table and its file -/

namespace AZ
open Spec

/-- Total number of bytes of a sequence of stored chunks (slot, bytes). -/
def totalLen (ps : List (Nat × Bytes)) : Nat := (ps.map (·.2.length)).sum

/-- The write events that store the chunks one after the other from offset `off`. -/
def writesAt (p : Text) : Nat → List (Nat × Bytes) → List Ev
  | _, [] => []
  | off, (_, b) :: r => Ev.wrote p off b :: writesAt p (off + b.length) r

/-- The table after storing the chunks from offset `off`. -/
def setParts (t : List Nat) : Nat → List (Nat × Bytes) → List Nat
  | _, [] => t
  | off, (s, b) :: r => setParts ((t.set (2 * s) off).set (2 * s + 1) b.length) (off + b.length) r

@[simp] theorem totalLen_nil : totalLen [] = 0 := rfl
@[simp] theorem totalLen_cons (x) (ps) : totalLen (x :: ps) = x.2.length + totalLen ps := by simp [totalLen]
theorem totalLen_append (a b) : totalLen (a ++ b) = totalLen a + totalLen b := by simp [totalLen]

theorem totalLen_eq (ps : List (Nat × Bytes)) : (ps.flatMap (·.2)).length = totalLen ps := by
  induction ps with
  | nil => rfl
  | cons x ps ih => simp [ih]

theorem totalLen_le {ps : List (Nat × Bytes)} {m : Nat} (h : ∀ x ∈ ps, x.2.length ≤ m) :
    totalLen ps ≤ ps.length * m := by
  induction ps with
  | nil => simp
  | cons x ps ih =>
    have h1 := h x (by simp)
    have h2 := ih fun y hy => h y (by simp [hy])
    simp only [totalLen_cons, List.length_cons, Nat.succ_mul]
    omega

theorem setParts_append (t : List Nat) (off : Nat) (a b) :
    setParts t off (a ++ b) = setParts (setParts t off a) (off + totalLen a) b := by
  induction a generalizing t off with
  | nil => simp [setParts]
  | cons x a ih =>
    obtain ⟨s, d⟩ := x
    simp only [List.cons_append, setParts, totalLen_cons]
    rw [ih, Nat.add_assoc]

theorem writesAt_append (p : Text) (off : Nat) (a b) :
    writesAt p off (a ++ b) = writesAt p off a ++ writesAt p (off + totalLen a) b := by
  induction a generalizing off with
  | nil => simp [writesAt]
  | cons x a ih =>
    obtain ⟨s, d⟩ := x
    simp only [List.cons_append, writesAt, totalLen_cons]
    rw [ih, Nat.add_assoc]

@[simp] theorem setParts_length (t : List Nat) (off : Nat) (ps) : (setParts t off ps).length = t.length := by
  induction ps generalizing t off with
  | nil => rfl
  | cons x a ih => simp [setParts, ih]

theorem writesAt_path {p : Text} {off : Nat} {ps} {e : Ev} (h : e ∈ writesAt p off ps) : e.path = p := by
  induction ps generalizing off with
  | nil => cases h
  | cons x a ih =>
    rcases List.mem_cons.1 h with rfl | h
    · rfl
    · exact ih h

/-- Slots not among the stored ones keep their entry. -/
theorem setParts_other {t : List Nat} {off : Nat} {ps : List (Nat × Bytes)} {s : Nat}
    (h : ∀ x ∈ ps, x.1 ≠ s) :
    (setParts t off ps)[2 * s]? = t[2 * s]? ∧ (setParts t off ps)[2 * s + 1]? = t[2 * s + 1]? := by
  induction ps generalizing t off with
  | nil => exact ⟨rfl, rfl⟩
  | cons x a ih =>
    obtain ⟨s', d⟩ := x
    have hne : s' ≠ s := h (s', d) (by simp)
    obtain ⟨h1, h2⟩ := ih (t := (t.set (2 * s') off).set (2 * s' + 1) d.length) (off := off + d.length)
      fun y hy => h y (by simp [hy])
    simp only [setParts]
    rw [h1, h2, List.getElem?_set_ne (by omega), List.getElem?_set_ne (by omega),
      List.getElem?_set_ne (by omega), List.getElem?_set_ne (by omega)]
    exact ⟨rfl, rfl⟩

/-- The entry of a slot is that of the last chunk stored in it. -/
theorem setParts_last {t : List Nat} {off : Nat} {a b : List (Nat × Bytes)} {s : Nat} {d : Bytes}
    (hs : 2 * s + 1 < t.length) (h : ∀ x ∈ b, x.1 ≠ s) :
    (setParts t off (a ++ (s, d) :: b))[2 * s]? = some (off + totalLen a) ∧
    (setParts t off (a ++ (s, d) :: b))[2 * s + 1]? = some d.length := by
  rw [setParts_append]
  simp only [setParts]
  obtain ⟨h1, h2⟩ := setParts_other
    (t := ((setParts t off a).set (2 * s) (off + totalLen a)).set (2 * s + 1) d.length)
    (off := off + totalLen a + d.length) h
  rw [h1, h2, List.getElem?_set_ne (by omega), List.getElem?_set_self (by simp; omega),
    List.getElem?_set_self (by simp; omega)]
  exact ⟨rfl, rfl⟩

/-- The bytes of chunk `d` in the data of the shard. -/
theorem slice_parts (a b : List (Nat × Bytes)) (s : Nat) (d tail : Bytes) :
    slice ((a ++ (s, d) :: b).flatMap (·.2) ++ tail) (totalLen a) d.length = d := by
  unfold slice
  rw [← totalLen_eq]
  simp

theorem foldl_writesAt (p : Text) (buf : Bytes) (ps : List (Nat × Bytes)) :
    (writesAt p buf.length ps).foldl (stepFile p) (some buf) = some (buf ++ ps.flatMap (·.2)) := by
  induction ps generalizing buf with
  | nil => simp [writesAt]
  | cons x a ih =>
    obtain ⟨s, d⟩ := x
    simp only [writesAt, List.foldl_cons, List.flatMap_cons]
    have hst : stepFile p (some buf) (Ev.wrote p buf.length d) = some (buf ++ d) := by
      unfold stepFile
      rw [if_neg (by simp [Ev.path])]
      simp only [Option.map_some, Option.some.injEq]
      split
      · rename_i h; simp at h; simp [h]
      · exact pwrite_append _ _
    rw [hst]
    have := ih (buf ++ d)
    rw [List.length_append] at this
    rw [this, List.append_assoc]

theorem step_table (p : Text) (buf d : Bytes) :
    stepFile p (some buf) (Ev.wrote p buf.length d) = some (buf ++ d) := by
  have := foldl_writesAt p buf [(0, d)]
  simpa [writesAt] using this

theorem u64le_length (n : Nat) : (u64le n).length = 8 := rfl

theorem tableBytes_length (t : List Nat) : (t.flatMap u64le).length = 8 * t.length := by
  induction t with
  | nil => rfl
  | cons x t ih => simp [ih, u64le_length]; omega

theorem tableBytes_slice {t : List Nat} {i v : Nat} (h : t[i]? = some v) :
    slice (t.flatMap u64le) (8 * i) 8 = u64le v := by
  induction t generalizing i with
  | nil => simp at h
  | cons x t ih =>
    cases i with
    | zero =>
      simp at h
      subst h
      simp [slice, u64le]
    | succ i =>
      rw [List.getElem?_cons_succ] at h
      have := ih h
      unfold slice at *
      rw [List.flatMap_cons]
      have e : 8 * (i + 1) = (u64le x).length + 8 * i := by rw [u64le_length]; omega
      rw [e, List.drop_append, List.drop_eq_nil_of_le (by omega)]
      simp [this]

end AZ
