import Verif.Spec.Index

/-!
# Specification: the logical array of an acquisition

The acquired bytes are one long stream in C order. The logical array has an unbounded first axis and
the extents `tail` along the others; the item at coordinate `x` is stored at linear index
`ravel (_ :: tail) x` of the stream. Items outside the array or not (yet) acquired are zero
(`fill_value`).
-/

namespace Spec

/-- Byte `s` of the item at coordinate `x` of the logical array. -/
def logicalByte (tail : List Nat) (itemSize : Nat) (stream : List UInt8) (x : List Nat) (s : Nat) : UInt8 :=
  if InBounds tail x.tail then stream.getD (ravel (0 :: tail) x * itemSize + s) 0 else 0

/-- Contents of one chunk of a chunked array: the chunk at grid position `grid`, in C order, edge
chunks padded to full size. -/
def chunkBytes (tail chunk : List Nat) (itemSize : Nat) (stream : List UInt8) (grid : List Nat) :
    List UInt8 :=
  (List.range (prod chunk * itemSize)).map fun b =>
    logicalByte tail itemSize stream (globalCoord chunk grid (unravel chunk (b / itemSize))) (b % itemSize)

end Spec
