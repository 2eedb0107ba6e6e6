/-!
# Specification: reading data type names

numpy type strings (`<u2`: byte order, kind letter, size in bytes) as used by Zarr v2, and Zarr v3 core type
names (`uint16`: kind, size in bits).
-/

namespace Spec

/-- Kinds of numbers. -/
inductive NumKind where
  | unsigned | signed | float
  deriving DecidableEq, Repr

/-- A non-empty decimal numeral. -/
def readDecimal (t : List Char) : Option Nat :=
  if t.isEmpty || !t.all Char.isDigit then none
  else some (t.foldl (fun n c => n * 10 + (c.toNat - 48)) 0)

/-- Little-endian numpy type string: kind and size in bytes. -/
def readNumpyType : List Char → Option (NumKind × Nat)
  | '<' :: 'u' :: t => (readDecimal t).map fun n => (.unsigned, n)
  | '<' :: 'i' :: t => (readDecimal t).map fun n => (.signed, n)
  | '<' :: 'f' :: t => (readDecimal t).map fun n => (.float, n)
  | _ => none

/-- Zarr v3 core type name: kind and size in bytes. -/
def readV3Type : List Char → Option (NumKind × Nat)
  | 'u' :: 'i' :: 'n' :: 't' :: t => (readDecimal t).map fun n => (.unsigned, n / 8)
  | 'i' :: 'n' :: 't' :: t => (readDecimal t).map fun n => (.signed, n / 8)
  | 'f' :: 'l' :: 'o' :: 'a' :: 't' :: t => (readDecimal t).map fun n => (.float, n / 8)
  | _ => none

/-- Kind of `ZarrDataType` number `k` (`include/zarr.types.h:45-58`). -/
def kindOf (k : Nat) : NumKind := if k < 4 then .unsigned else if k < 8 then .signed else .float

end Spec
