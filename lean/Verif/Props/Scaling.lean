import Verif.Props.Append
import Verif.Props.Failures

set_option linter.unusedSimpArgs false

/-! # C67: multiscale streams are defined for every data type

`append_whole_frames_in_bounds` (C15) is the positive part: for every type but `int8`, and frames below 2 GiB, appending whole
frames never runs into undefined behaviour. Here: exactly when the scaling of a frame does, and the violation. -/

namespace AZ
open Spec

/-- Scaling a complete frame of less than 2 GiB is undefined for exactly one type, `int8`, and for exactly those frames in
which some 2 by 2 square of bytes (at the border: the square closed by repeating the last row or column) has a mean of 128 or
more when the bytes are read as unsigned numbers. -/
theorem scale_defined_partial {t : DType} {src : Bytes} {w h : Nat} (hw : 0 < w) (hh : 0 < h)
    (hs : src.length = w * h * t.bytes) (hb : (w + w % 2) * (h + h % 2) * t.bytes < 2 ^ 31 - 1) :
    scaleImage t src w h = .ub ↔ t = .i8 ∧ ∃ i j, 2 * i < h ∧ 2 * j < w ∧ 512 ≤ quadSum src w h (2 * i) (2 * j) := by
  have hbp := dtype_bytes_pos t
  have e1 : w * h * t.bytes ≤ (w + w % 2) * (h + h % 2) * t.bytes :=
    Nat.mul_le_mul_right _ (Nat.mul_le_mul (by omega) (by omega))
  have e2 : (w + w % 2) / 2 * ((h + h % 2) / 2) * t.bytes ≤ (w + w % 2) * (h + h % 2) * t.bytes :=
    Nat.mul_le_mul_right _ (Nat.mul_le_mul (by omega) (by omega))
  have h1 : w * h * t.bytes < 2 ^ 31 - 1 := by omega
  have h2 : (w + w % 2) / 2 * ((h + h % 2) / 2) * t.bytes < 2 ^ 31 - 1 := by omega
  have hwh : w * h < 2 ^ 31 - 1 := Nat.lt_of_le_of_lt (Nat.le_mul_of_pos_right _ hbp) h1
  have hwh' : (w + w % 2) / 2 * ((h + h % 2) / 2) < 2 ^ 31 - 1 := Nat.lt_of_le_of_lt (Nat.le_mul_of_pos_right _ hbp) h2
  have hw2 : w < 2 ^ 31 - 1 := Nat.lt_of_le_of_lt (Nat.le_mul_of_pos_right _ hh) hwh
  have hh2 : h < 2 ^ 31 - 1 := Nat.lt_of_le_of_lt (Nat.le_mul_of_pos_left _ hw) hwh
  unfold scaleImage
  rw [u64_of_lt (show w * h < 2 ^ 64 by omega), u64_of_lt (show w * h * t.bytes < 2 ^ 64 by omega), hs]
  have hd : decide (w * h * t.bytes ≥ w * h * t.bytes) = true := by simp
  rw [hd]
  simp only [check_true, Res.bind_ok]
  rw [if_neg (by omega)]
  by_cases ht : t = .i8
  · subst ht
    simp only [decide_true, Bool.true_and, List.any_flatMap, List.any_map, true_and]
    split
    · rename_i hany
      simp only [true_iff]
      simp only [List.any_eq_true, List.mem_range, Function.comp, decide_eq_true_eq] at hany
      obtain ⟨i, hi, j, hj, hq⟩ := hany
      exact ⟨i, j, by omega, by omega, by omega⟩
    · rename_i hany
      simp only [Res.pure_eq, reduceCtorEq, false_iff]
      rintro ⟨i, j, hi, hj, hq⟩
      apply hany
      simp only [List.any_eq_true, List.mem_range, Function.comp, decide_eq_true_eq]
      exact ⟨i, by omega, j, by omega, by omega⟩
  · simp [ht, Res.pure_eq]

/-- Two levels, one frame of 2 by 2 signed bytes per chunk. -/
def Sample.signed : Settings where
  storePath := some "/tmp/a".toList
  customMetadata := none
  s3 := none
  compression := none
  dimensions := some [⟨some "t".toList, 2, 0, 1, 1⟩, ⟨some "y".toList, 0, 4, 2, 1⟩, ⟨some "x".toList, 0, 4, 2, 1⟩]
  multiscale := true
  dataType := 4
  version := 2

/-- **C67 is violated** for `int8`: a stream of 4 by 4 frames is accepted, and the first frame whose pixels are all -1 (byte 255)
leads to the conversion of 255 to `int8_t`, which is undefined. -/
theorem int8_multiscale_violated : ∃ st, createStream Sample.world Sample.env 9 (some Sample.signed) = some (.ok st) ∧
    DType.fromC Sample.signed.dataType = .i8 ∧
    append Sample.env (appendFuel (List.replicate 16 255)) (List.replicate 16 255) st = some .ub := by
  have h : (match createStream Sample.world Sample.env 9 (some Sample.signed) with
    | some (.ok st) => match append Sample.env (appendFuel (List.replicate 16 255)) (List.replicate 16 255) st with
      | some .ub => true
      | _ => false
    | _ => false) = true := by decide +kernel
  split at h
  · rename_i st h0
    split at h
    · rename_i h1
      exact ⟨st, h0, rfl, h1⟩
    · simp at h
  · simp at h

/-- `scale_defined_partial` is not vacuous: a 2 by 2 frame of 16-bit pixels can be scaled, the same bytes as 4 by 2 signed bytes
cannot. -/
example : scaleImage .u16 (List.replicate 8 200) 2 2 ≠ .ub ∧ scaleImage .i8 (List.replicate 8 200) 4 2 = .ub := by
  refine ⟨fun h => ?_, ?_⟩
  · have := ((scale_defined_partial (t := .u16) (src := List.replicate 8 200) (w := 2) (h := 2) (by decide) (by decide) rfl
      (by decide)).1 h).1
    simp at this
  · exact (scale_defined_partial (t := .i8) (src := List.replicate 8 200) (w := 4) (h := 2) (by decide) (by decide) rfl
      (by decide)).2 ⟨rfl, 0, 0, by decide, by decide, by decide⟩

end AZ
