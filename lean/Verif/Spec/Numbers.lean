import Mathlib.Algebra.Order.Field.Rat
import Mathlib.Tactic.NormNum
import Verif.Spec.TypeNames
import Verif.Spec.ZarrV3

/-!
# Specification: what the bytes of a pixel mean

Little-endian unsigned integers, two's complement integers and IEEE 754 binary32/binary64, as rational numbers, and means of
rational pixels.
-/

namespace Spec

/-- The finite number with the given IEEE 754 bits; `none` for infinities and NaN. -/
def ieeeNumber (expBits mant bits : Nat) : Option Rat :=
  let sign : Rat := if bits / 2 ^ (expBits + mant) % 2 = 1 then -1 else 1
  let e := bits / 2 ^ mant % 2 ^ expBits
  let frac := bits % 2 ^ mant
  let bias := 2 ^ (expBits - 1) - 1
  if e = 2 ^ expBits - 1 then none
  else if e = 0 then some (sign * (frac : Rat) * 2 / 2 ^ (bias + mant))
  else some (sign * ((2 ^ mant + frac : Nat) : Rat) * 2 ^ e / 2 ^ (bias + mant))

/-- The number stored in the bytes of one pixel of data type `k` (`include/zarr.types.h:45-58`). -/
def numberOf (k : Nat) (b : List UInt8) : Option Rat :=
  match kindOf k with
  | .unsigned => some (leNat b : Rat)
  | .signed => some (if 2 * leNat b < 256 ^ b.length then (leNat b : Rat) else (leNat b : Rat) - (256 ^ b.length : Nat))
  | .float => if b.length = 4 then ieeeNumber 8 23 (leNat b) else if b.length = 8 then ieeeNumber 11 52 (leNat b) else none

/-- Exact mean of a block; rows and columns beyond the edge repeat the last one. -/
def blockMeanQ (px : Nat → Nat → Rat) (w h r c : Nat) : Rat :=
  let r1 := min (2 * r + 1) (h - 1)
  let c1 := min (2 * c + 1) (w - 1)
  (px (2 * r) (2 * c) + px (2 * r) c1 + px r1 (2 * c) + px r1 c1) / 4

/-- Exact mean of the blocks of two consecutive frames. -/
def meanOfTwoQ (px0 px1 : Nat → Nat → Rat) (w h r c : Nat) : Rat :=
  (blockMeanQ px0 w h r c + blockMeanQ px1 w h r c) / 2

-- 1.5 and -0.15625 in binary32, -2 as a 16-bit integer
example : ieeeNumber 8 23 0x3fc00000 = some (3 / 2) := by rw [ieeeNumber]; norm_num
example : ieeeNumber 8 23 0xbe200000 = some (-5 / 32) := by rw [ieeeNumber]; norm_num
example : ieeeNumber 8 23 0x7f800000 = none := by rw [ieeeNumber]; norm_num
example : numberOf 5 [0xfe, 0xff] = some (-2) := by
  simp [numberOf, kindOf, leNat]
  norm_num

end Spec
