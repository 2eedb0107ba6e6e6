import Verif.Model.VectorWriter
import Verif.Lemmas.Bytes

/-! # C45: vectorized writes -/

set_option linter.unusedSimpArgs false

namespace AZ.Vec

/-! ### Alignment -/

theorem and_not64 (k n : Nat) (hk : k ≤ 64) (hn : n < 2 ^ 64) : n &&& not64 (2 ^ k - 1) = n / 2 ^ k * 2 ^ k := by
  have hp : 2 ^ k ≤ 2 ^ 64 := Nat.pow_le_pow_right (by decide) hk
  have hpos : 0 < 2 ^ k := Nat.two_pow_pos k
  apply Nat.eq_of_testBit_eq
  intro i
  have e : not64 (2 ^ k - 1) = 2 ^ 64 - (2 ^ k - 1 + 1) := by unfold not64; omega
  rw [Nat.testBit_and, e, Nat.testBit_two_pow_sub_succ (by omega), Nat.testBit_two_pow_sub_one, Nat.mul_comm,
    Nat.testBit_two_pow_mul, Nat.testBit_div_two_pow]
  by_cases hi : k ≤ i
  · have : ¬ i < k := by omega
    rw [show i - k + k = i by omega]
    simp only [hi, this, decide_true, decide_false, Bool.not_false, Bool.and_true, Bool.true_and]
    by_cases h64 : i < 64
    · simp [h64]
    · simp only [h64, decide_false, Bool.and_false]
      rw [Nat.testBit_lt_two_pow]
      exact Nat.lt_of_lt_of_le hn (Nat.pow_le_pow_right (by decide) (by omega))
  · have : i < k := by omega
    simp [hi, this]

/-- **C45**, sizes: for every power-of-two page size, the aligned size is the least multiple of the page size that is
not smaller than the size (as long as it fits `size_t`). -/
theorem align_least {k size : Nat} (hk : k ≤ 64) (h : size + 2 ^ k - 1 < 2 ^ 64) :
    2 ^ k ∣ alignTo (2 ^ k) size ∧ size ≤ alignTo (2 ^ k) size ∧
    ∀ m, 2 ^ k ∣ m → size ≤ m → alignTo (2 ^ k) size ≤ m := by
  have hpos : 0 < 2 ^ k := Nat.two_pow_pos k
  have e : alignTo (2 ^ k) size = (size + 2 ^ k - 1) / 2 ^ k * 2 ^ k := by
    unfold alignTo
    rw [u64_of_lt h, and_not64 k _ hk h]
  rw [e]
  generalize 2 ^ k = p at *
  refine ⟨Nat.dvd_mul_left _ _, ?_, ?_⟩
  · have := Nat.div_add_mod (size + p - 1) p
    have hm := Nat.mod_lt (size + p - 1) hpos
    rw [Nat.mul_comm] at this
    omega
  · rintro m ⟨q, rfl⟩ hm
    rw [Nat.mul_comm p q]
    apply Nat.mul_le_mul_right
    have : size + p - 1 < p * (q + 1) := by rw [Nat.mul_succ]; omega
    have := Nat.div_lt_of_lt_mul this
    omega

example : alignTo (2 ^ 12) 5000 = 8192 ∧ alignTo (2 ^ 12) 8192 = 8192 ∧ alignTo (2 ^ 12) 0 = 0 := by decide

/-! ### Placement -/

/-- The cast to `int` keeps the number modulo 2^32 and yields an `int`. -/
theorem toInt32_range (n : Nat) : -2 ^ 31 ≤ toInt32 n ∧ toInt32 n < 2 ^ 31 ∧ (2 ^ 32 : Int) ∣ n - toInt32 n := by
  unfold toInt32
  split <;> omega

theorem toInt32_small {n : Nat} (h : n < 2 ^ 31) : toInt32 n = n := by
  unfold toInt32
  rw [Nat.mod_eq_of_lt (by omega), if_pos h]

/-- What the file must look like after `data` was written at `off`: byte `i` is the new one inside the
written range and the old one outside; a gap beyond the old end reads as zero. -/
def WrittenAt (file : Bytes) (off : Nat) (data after : Bytes) : Prop :=
  after.length = (if data = [] then file.length else max file.length (off + data.length)) ∧
  ∀ i, i < after.length → after[i]? =
    if off ≤ i ∧ i < off + data.length then data[i - off]? else some (file[i]?.getD 0)

theorem pwrite_written {file data : Bytes} {off : Nat} (h : data ≠ []) : WrittenAt file off data (pwrite file off data) := by
  have hd : 0 < data.length := List.length_pos_iff.2 h
  have hl1 : (List.take off (file ++ List.replicate (off - file.length) 0)).length = off := by
    rw [List.length_take, List.length_append, List.length_replicate]
    omega
  have hl : (pwrite file off data).length = max file.length (off + data.length) := by
    unfold pwrite
    rw [List.length_append, List.length_append, hl1, List.length_drop]
    omega
  refine ⟨by rw [hl, if_neg h], fun i hi => ?_⟩
  rw [hl] at hi
  unfold pwrite
  by_cases h1 : i < off
  · rw [if_neg (by omega), List.append_assoc, List.getElem?_append_left (by rw [hl1]; exact h1),
      List.getElem?_take, if_pos h1]
    by_cases h2 : i < file.length
    · rw [List.getElem?_append_left h2, List.getElem?_eq_getElem h2]
      rfl
    · rw [List.getElem?_append_right (by omega), List.getElem?_replicate, if_pos (by omega),
        List.getElem?_eq_none (by omega)]
      rfl
  · by_cases h2 : i < off + data.length
    · rw [if_pos ⟨by omega, h2⟩, List.append_assoc, List.getElem?_append_right (by rw [hl1]; omega), hl1,
        List.getElem?_append_left (by omega)]
    · rw [if_neg (by omega), List.getElem?_append_right (by rw [List.length_append, hl1]; omega), List.length_append, hl1,
        List.getElem?_drop, show off + data.length + (i - (off + data.length)) = i by omega,
        List.getElem?_eq_getElem (by omega)]
      rfl

theorem written_nothing (file : Bytes) (off : Nat) : WrittenAt file off [] file := by
  refine ⟨by simp, fun i hi => ?_⟩
  rw [if_neg (by simp), List.getElem?_eq_getElem hi]
  rfl

/-- **C45** below 2 GiB, on POSIX systems: whatever the operating system does, if `write_vectors` reports success for
an offset below 2^31, the file holds the concatenation of the buffers at that offset and is otherwise unchanged.
Missing for the full property: larger offsets, for which it is false (`vector_offset_violated`). -/
theorem vector_write_partial {io : Option Nat} {buffers : List Bytes} {offset : Nat} {file after : Bytes}
    (ho : offset < 2 ^ 31) (h : writeVectors io buffers offset file = (true, after)) :
    WrittenAt file offset buffers.flatten after := by
  unfold writeVectors at h
  dsimp only at h
  rw [Prod.mk.injEq, decide_eq_true_eq] at h
  obtain ⟨h1, rfl⟩ := h
  unfold pwritev at h1 ⊢
  rw [toInt32_small ho] at h1 ⊢
  by_cases hc : ((offset : Int) < 0 ∨ toInt32 buffers.length < 0 ∨ (iovMax : Int) < toInt32 buffers.length)
  · rw [if_pos hc] at h1
    dsimp only at h1
    omega
  · rw [if_neg hc] at h1 ⊢
    cases io with
    | none =>
      dsimp only at h1
      omega
    | some n =>
      dsimp only at h1 ⊢
      have e : buffers.flatten.take n = buffers.flatten := by
        apply List.take_of_length_le
        rw [List.length_take] at h1
        omega
      rw [e]
      split
      · rename_i he
        rw [List.isEmpty_iff.1 he]
        exact written_nothing _ _
      · rename_i he
        rw [show ((offset : Int)).toNat = offset from rfl]
        exact pwrite_written (fun h => he (by rw [h]; rfl))

/-- Up to 1024 buffers a write that the operating system carries out completely reports success. -/
theorem vector_write_succeeds {buffers : List Bytes} {offset : Nat} {file : Bytes} (ho : offset < 2 ^ 31)
    (hb : buffers.length ≤ 1024) : (writeVectors (some buffers.flatten.length) buffers offset file).1 = true := by
  have hb' : buffers.length < 2 ^ 31 := by omega
  unfold writeVectors pwritev
  rw [toInt32_small ho, toInt32_small hb', if_neg (by unfold iovMax; omega)]
  dsimp only
  rw [List.take_length]
  simp

example : writeVectors (some 4) [[1, 2], [3, 4]] 1 [9, 9, 9, 9, 9, 9] = (true, [9, 1, 2, 3, 4, 9]) := by decide

/-- **C45 is violated** on POSIX systems for every offset of 4 GiB or more whose low 31 bits are `o`: the bytes land
at `o`, the earlier part of the file is overwritten, and success is reported. -/
theorem vector_offset_violated {buffers : List Bytes} (hb : buffers.length ≤ 1024) (hne : buffers.flatten ≠ [])
    (q o : Nat) (ho : o < 2 ^ 31) (file : Bytes) :
    writeVectors (some buffers.flatten.length) buffers (2 ^ 32 * q + o) file = (true, pwrite file o buffers.flatten) := by
  have hb' : buffers.length < 2 ^ 31 := by omega
  have e : toInt32 (2 ^ 32 * q + o) = o := by
    unfold toInt32
    rw [Nat.mul_add_mod, Nat.mod_eq_of_lt (by omega), if_pos ho]
  unfold writeVectors pwritev
  rw [e, toInt32_small hb', if_neg (by unfold iovMax; omega)]
  dsimp only
  rw [List.take_length, if_neg (by simpa using hne)]
  simp

/-- The preceding effect is not the required one, for every file shorter than 4 GiB. -/
theorem vector_offset_wrong {buffers : List Bytes} (hne : buffers.flatten ≠ []) {q o : Nat} (hq : 0 < q)
    (file : Bytes) (hf : file.length < 2 ^ 32) (hl : buffers.flatten.length < 2 ^ 31) (ho : o < 2 ^ 31) :
    ¬ WrittenAt file (2 ^ 32 * q + o) buffers.flatten (pwrite file o buffers.flatten) := by
  intro h
  have h1 := h.1
  have h2 := (pwrite_written (file := file) (off := o) hne).1
  rw [if_neg hne] at h1 h2
  have : 2 ^ 32 ≤ 2 ^ 32 * q := Nat.le_mul_of_pos_right _ hq
  omega

/-- More than 1024 buffers are refused whatever the offset: nothing is written and failure is reported. -/
theorem vector_too_many_refused {io : Option Nat} {buffers : List Bytes} {offset : Nat} (h1 : 1024 < buffers.length)
    (h2 : buffers.length < 2 ^ 31) (hne : buffers.flatten ≠ []) (file : Bytes) :
    writeVectors io buffers offset file = (false, file) := by
  have hp : 0 < buffers.flatten.length := List.length_pos_iff.2 hne
  unfold writeVectors pwritev
  rw [toInt32_small h2, if_pos (by unfold iovMax; omega)]
  simp only [Prod.mk.injEq, and_true, decide_eq_false_iff_not]
  omega

/-- Between 2 and 4 GiB nothing is written; failure is reported. -/
theorem vector_offset_refused {io : Option Nat} {buffers : List Bytes} {offset : Nat} (h1 : 2 ^ 31 ≤ offset)
    (h2 : offset < 2 ^ 32) (file : Bytes) : writeVectors io buffers offset file = (false, file) := by
  unfold writeVectors pwritev
  have e : toInt32 offset < 0 := by
    unfold toInt32
    rw [Nat.mod_eq_of_lt h2, if_neg (by omega)]
    omega
  rw [if_pos (Or.inl e)]
  dsimp only
  simp only [Prod.mk.injEq, and_true, decide_eq_false_iff_not]
  omega

/-! ### Windows -/

/-- **C45** on Windows, all offsets, when the total size is a multiple of page and sector size. -/
theorem vector_write_win_partial {kp ks : Nat} (hp : kp ≤ 64) (hs : ks ≤ 64) {io : Bool} {junk : Nat → UInt8}
    {buffers : List Bytes} {offset : Nat} {file after : Bytes} (h1 : 2 ^ kp ∣ buffers.flatten.length)
    (h2 : 2 ^ ks ∣ buffers.flatten.length) (hb : buffers.flatten.length + 2 ^ kp - 1 < 2 ^ 64)
    (hb' : buffers.flatten.length + 2 ^ ks - 1 < 2 ^ 64)
    (h : writeVectorsWin (2 ^ kp) (2 ^ ks) io junk buffers offset file = some (true, after)) :
    WrittenAt file offset buffers.flatten after := by
  have a1 := align_least hp hb
  have e1 : alignTo (2 ^ kp) buffers.flatten.length = buffers.flatten.length :=
    Nat.le_antisymm (a1.2.2 _ h1 (Nat.le_refl _)) a1.2.1
  have a2 := align_least hs hb'
  have e2 : alignTo (2 ^ ks) buffers.flatten.length = buffers.flatten.length :=
    Nat.le_antisymm (a2.2.2 _ h2 (Nat.le_refl _)) a2.2.1
  unfold writeVectorsWin at h
  dsimp only at h
  rw [e1, e2] at h
  rw [if_neg (Nat.lt_irrefl _)] at h
  cases io with
  | false => simp at h
  | true =>
    simp only [Bool.not_true, Bool.false_eq_true, if_false, Nat.sub_self, List.range_zero, List.map_nil, List.append_nil,
      Option.some.injEq, Prod.mk.injEq, true_and] at h
    subst h
    split
    · rename_i he
      rw [List.isEmpty_iff.1 he]
      exact written_nothing _ _
    · rename_i he
      exact pwrite_written (fun h => he (by rw [h]; rfl))

/-- **C45 is violated** on Windows, for every page size of at least two bytes: a one-byte write at the start of a file
replaces the second byte by uninitialised memory. -/
theorem vector_write_win_violated {k : Nat} (h1 : 1 ≤ k) (hk : k < 64) (junk : Nat → UInt8) (b : UInt8) (file : Bytes) :
    ∃ after, writeVectorsWin (2 ^ k) (2 ^ k) true junk [[b]] 0 file = some (true, after) ∧ after[1]? = some (junk 1) := by
  have h2 : 2 ^ 1 ≤ 2 ^ k := Nat.pow_le_pow_right (by decide) h1
  have h63 : 2 ^ k ≤ 2 ^ 63 := Nat.pow_le_pow_right (by decide) (by omega)
  have a1 := align_least (k := k) (size := 1) (by omega) (by omega)
  have e1 : alignTo (2 ^ k) 1 = 2 ^ k :=
    Nat.le_antisymm (a1.2.2 _ (Nat.dvd_refl _) (by omega)) (Nat.le_of_dvd (by omega) a1.1)
  have a2 := align_least (k := k) (size := 2 ^ k) (by omega) (by omega)
  have e2 : alignTo (2 ^ k) (2 ^ k) = 2 ^ k := Nat.le_antisymm (a2.2.2 _ (Nat.dvd_refl _) (Nat.le_refl _)) a2.2.1
  refine ⟨pwrite file 0 (b :: (List.range (2 ^ k - 1)).map fun i => junk (1 + i)), ?_, ?_⟩
  · unfold writeVectorsWin
    rw [show [[b]].flatten = [b] from rfl]
    dsimp only [List.length_singleton]
    rw [e1, e2, if_neg (by omega)]
    rfl
  · rw [(pwrite_written (List.cons_ne_nil _ _)).2 1]
    · rw [if_pos (by simp; omega)]
      obtain ⟨m, hm⟩ : ∃ m, 2 ^ k - 1 = 1 + m := ⟨2 ^ k - 2, by omega⟩
      rw [hm, List.range_add]
      rfl
    · rw [(pwrite_written (List.cons_ne_nil _ _)).1, if_neg (List.cons_ne_nil _ _)]
      simp
      omega

end AZ.Vec
