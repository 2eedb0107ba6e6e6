/-!
# Specification: local means

A frame is a `w` by `h` matrix of numbers. The pixel (`r`, `c`) of the half-size frame is the mean, rounded
down, of the 2x2 block of pixels (2r, 2c), (2r, 2c+1), (2r+1, 2c), (2r+1, 2c+1), where a row or column beyond the
edge repeats the last one; two such frames are averaged, rounding down.
-/

namespace Spec

/-- Rounded-down mean of a block, rows and columns beyond the edge repeat the last one. -/
def blockMean (px : Nat → Nat → Nat) (w h r c : Nat) : Nat :=
  let r1 := min (2 * r + 1) (h - 1)
  let c1 := min (2 * c + 1) (w - 1)
  (px (2 * r) (2 * c) + px (2 * r) c1 + px r1 (2 * c) + px r1 c1) / 4

/-- Pixel of the frame made from two consecutive frames of the level above. -/
def meanOfTwo (px0 px1 : Nat → Nat → Nat) (w h r c : Nat) : Nat :=
  (blockMean px0 w h r c + blockMean px1 w h r c) / 2

end Spec
