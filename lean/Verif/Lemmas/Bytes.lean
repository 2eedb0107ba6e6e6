import Verif.Model.Machine
import Mathlib.Tactic.Linarith

set_option linter.unusedSimpArgs false

namespace AZ

theorem slice_length {data : Bytes} {s n : Nat} (h : s + n ≤ data.length) :
    (slice data s n).length = n := by
  simp [slice]; omega

theorem slice_getElem? {data : Bytes} {s n b : Nat} (hb : b < n) :
    (slice data s n)[b]? = data[s + b]? := by
  simp [slice, List.getElem?_take, hb]

theorem pwrite_length {buf data : Bytes} {off : Nat} (h : off + data.length ≤ buf.length) :
    (pwrite buf off data).length = buf.length := by
  simp [pwrite]; omega

theorem pwrite_length_gen (buf data : Bytes) (off : Nat) :
    (pwrite buf off data).length = max buf.length (off + data.length) := by
  simp [pwrite]; omega

theorem pwrite_getElem? {buf data : Bytes} {off : Nat} (h : off ≤ buf.length) (b : Nat) :
    (pwrite buf off data)[b]? =
      if off ≤ b ∧ b < off + data.length then data[b - off]? else buf[b]? := by
  unfold pwrite
  have h0 : off - buf.length = 0 := by omega
  rw [h0, List.replicate_zero, List.append_nil, List.append_assoc]
  by_cases h1 : b < off
  · rw [List.getElem?_append_left (by simp; omega), List.getElem?_take]
    rw [if_pos h1, if_neg (by omega)]
  · rw [List.getElem?_append_right (by simp; omega)]
    have hl : (List.take off buf).length = off := by simp; omega
    rw [hl]
    by_cases h2 : b < off + data.length
    · rw [if_pos ⟨by omega, h2⟩, List.getElem?_append_left (by omega)]
    · rw [if_neg (by omega), List.getElem?_append_right (by omega), List.getElem?_drop]
      congr 1; omega

/-- Overwriting from offset 0 with at least as much data replaces everything. -/
theorem pwrite_zero_of_le {buf data : Bytes} (h : buf.length ≤ data.length) :
    pwrite buf 0 data = data := by
  simp [pwrite, List.drop_eq_nil_of_le h]

theorem pwrite_nil (data : Bytes) (off : Nat) :
    pwrite [] off data = List.replicate off 0 ++ data := by
  simp [pwrite]

theorem pwrite_append (buf data : Bytes) : pwrite buf buf.length data = buf ++ data := by
  simp [pwrite]

end AZ
