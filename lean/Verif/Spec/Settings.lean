import Verif.Spec.Index

/-!
# Specification: the API enumerations

`include/zarr.types.h:45-58`: item size in bytes of each `ZarrDataType`, in the order of the enumerators
uint8, uint16, uint32, uint64, int8, int16, int32, int64, float32, float64.
-/

namespace Spec

/-- Bytes per pixel of `ZarrDataType` number `k`. -/
def itemSize (k : Nat) : Nat := [1, 2, 4, 8, 1, 2, 4, 8, 4, 8].getD k 0

end Spec
