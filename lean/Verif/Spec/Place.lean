import Verif.Spec.Index

/-!
# Specification: where an acquired byte belongs

The acquired bytes are numbered in arrival order. Byte `B` belongs to item `B / item`, which is the item
at coordinate `unravel (_ :: tail)` of the C-ordered array (unbounded first axis). In a chunked array it
is stored in the chunk containing that coordinate, at the C-order position inside the chunk.
-/

namespace Spec

/-- Coordinate of the item that acquired byte `B` is part of. -/
def coordOf (tail : List Nat) (item B : Nat) : List Nat := unravel (0 :: tail) (B / item)

/-- Storage location of acquired byte `B`: index of the chunk along the first axis, row-major number of
the chunk among the chunks with that first index, and byte position inside the chunk. -/
def place (tail chunks : List Nat) (item B : Nat) : Nat × Nat × Nat :=
  let x := coordOf tail item B
  (x.headD 0 / chunks.headD 0,
   ravel (List.zipWith ceilDiv tail chunks.tail) (gridOf chunks.tail x.tail),
   ravel chunks (withinOf chunks x) * item + B % item)

end Spec
