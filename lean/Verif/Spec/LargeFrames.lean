import Verif.Model.Machine

/-!
# Specification: the frame that is stored when a frame has more than 2^32 pixels

Written without reference to the copy loop of the model: `C93` says that the array written is that of
these frames instead of the caller's.
-/

namespace Spec

/-- The pixel of the caller's frame (row-major, `w` columns, tiles of `c` columns) that ends up at pixel
`p`: the run of pixels of one row inside one tile is taken from its first pixel's index modulo `2^32`. -/
def seenPixel (w c p : Nat) : Nat := (p - p % w % c) % 2 ^ 32 + p % w % c

/-- The frame that ends up stored: `bpp` bytes per pixel, `w` columns, tiles of `c` columns. -/
def seenFrame (bpp w c : Nat) (frame : List UInt8) : List UInt8 :=
  (List.range frame.length).map fun b => frame.getD (seenPixel w c (b / bpp) * bpp + b % bpp) 0

end Spec
