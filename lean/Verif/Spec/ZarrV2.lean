import Verif.Spec.Index

/-!
# Specification: reading a Zarr v2 array

From the Zarr v2 storage specification: an array with `dimension_separator` `/` stores the chunk at
grid position `(i0, .., ik)` in the object `i0/../ik` of the array's directory, encoded by the
compressor; the decoded chunk holds the elements in C order, edge chunks have full size; a missing
object means that all its elements have the fill value.
-/

namespace Spec

/-- `a/b/c`. -/
def joinSlash : List (List Char) → List Char
  | [] => []
  | [a] => a
  | a :: b :: rest => a ++ '/' :: joinSlash (b :: rest)

/-- Object name of a chunk inside the array directory. -/
def chunkKey (grid : List Nat) : List Char := joinSlash (grid.map (Nat.toDigits 10))

/-- The bytes of element `x` of the array in directory `dir` (with trailing slash), for `chunks` and
`itemSize` as declared in the array metadata and fill value zero. `none`: unreadable. -/
def readV2 (file : List Char → Option (List UInt8)) (dir : List Char)
    (decode : List UInt8 → Option (List UInt8)) (chunks : List Nat) (itemSize : Nat) (x : List Nat) :
    Option (List UInt8) :=
  match file (dir ++ chunkKey (gridOf chunks x)) with
  | none => some (List.replicate itemSize 0)
  | some raw =>
    match decode raw with
    | none => none
    | some chunk =>
      if chunk.length = prod chunks * itemSize then
        some ((chunk.drop (ravel chunks (withinOf chunks x) * itemSize)).take itemSize)
      else none

end Spec
