import Verif.Model.Machine

/-!
# Dimensions and index arithmetic

Models `src/streaming/zarr.dimension.hh`, `src/streaming/zarr.dimension.cpp` and the size helpers of
`src/streaming/zarr.common.cpp`.
-/

namespace AZ

/-- `ZarrDataType` (`include/zarr.types.h:45-58`). -/
inductive DType where
  | u8 | u16 | u32 | u64 | i8 | i16 | i32 | i64 | f32 | f64
  deriving Repr, DecidableEq

/-- `zarr::bytes_of_type` (`src/streaming/zarr.common.cpp:42-64`). The `default: throw` branch is
for values outside the enumeration; `validate_settings` rejects those (`zarr.stream.cpp:222-225`),
see `Model.Settings`. -/
def DType.bytes : DType → Nat
  | .u8 | .i8 => 1
  | .u16 | .i16 => 2
  | .u32 | .i32 | .f32 => 4
  | .u64 | .i64 | .f64 => 8

/-- `ZarrDimensionType` (`include/zarr.types.h:75-82`). -/
inductive DimType where
  | space | channel | time | other
  deriving Repr, DecidableEq

/-- `struct ZarrDimension` (`src/streaming/zarr.dimension.hh:9-31`). The three sizes are `uint32_t`
in the code; here they are `Nat` and the bound is part of `ArrayDims.Fits`. -/
structure Dim where
  name : String
  kind : DimType
  arraySize : Nat
  chunkSize : Nat
  shardSize : Nat
  deriving Repr, DecidableEq

/-- `class ArrayDimensions` (`src/streaming/zarr.dimension.hh:33-114`): `dims_[0]` is `append`,
`dims_[1 .. n-3]` is `inner`, `dims_[n-2]` is `height`, `dims_[n-1]` is `width`. -/
structure ArrayDims where
  append : Dim
  inner : List Dim
  height : Dim
  width : Dim
  dtype : DType
  deriving Repr, DecidableEq

namespace ArrayDims

/-- Constructor `ArrayDimensions::ArrayDimensions` (`src/streaming/zarr.dimension.cpp:5-11`): throws
unless there are at least three dimensions. -/
def ofList (dims : List Dim) (dt : DType) : Res ArrayDims :=
  match dims with
  | [] => .throw
  | a :: rest =>
    match rest.reverse with
    | w :: h :: innerRev => .ok ⟨a, innerRev.reverse, h, w, dt⟩
    | _ => .throw

/-- The vector `dims_`. Models `src/streaming/zarr.dimension.hh`, member `dims_`. -/
def toList (D : ArrayDims) : List Dim := D.append :: (D.inner ++ [D.height, D.width])

/-- `dims_[1 ..]`: the dimensions every loop starting at `i = 1` visits.
Models `src/streaming/zarr.dimension.cpp`, the loops over `dims_`. -/
def tailDims (D : ArrayDims) : List Dim := D.inner ++ [D.height, D.width]

/-- `ndims()` (`src/streaming/zarr.dimension.cpp:13-17`). -/
def ndims (D : ArrayDims) : Nat := D.toList.length

end ArrayDims

/-- `zarr::chunks_along_dimension` (`src/streaming/zarr.common.cpp:74-81`), `uint32_t` arithmetic.
`EXPECT(chunk_size_px > 0)` throws in the code; validation guarantees it (`Props.Settings`). -/
def chunksAlong (d : Dim) : Nat := u32 (d.arraySize + d.chunkSize - 1) / d.chunkSize

/-- `zarr::shards_along_dimension` (`src/streaming/zarr.common.cpp:83-93`). -/
def shardsAlong (d : Dim) : Nat :=
  if d.shardSize = 0 then 0 else u32 (chunksAlong d + d.shardSize - 1) / d.shardSize

/-- `zarr::bytes_of_frame` (`src/streaming/zarr.common.cpp:66-72`): `size_t * uint32_t * uint32_t`. -/
def bytesOfFrame (D : ArrayDims) : Nat :=
  u64 (u64 (D.dtype.bytes * D.height.arraySize) * D.width.arraySize)

namespace ArrayDims

/-- `div_divisor` of `chunk_lattice_index` (`src/streaming/zarr.dimension.cpp:62-67`) for the slice `dims_[dim_index .. n-3]`. -/
def latticeDivisor (ds : List Dim) : Nat :=
  match ds with
  | [] => 1
  | d :: rest => rest.foldl (fun acc d => u64 (acc * d.arraySize)) (u64 (1 * d.chunkSize))

/-- `ArrayDimensions::chunk_lattice_index` (`src/streaming/zarr.dimension.cpp:43-73`).
`ds` is the slice `dims_[dim_index .. n-3]` for `dim_index > 0`: the loop multiplies all array sizes
into `mod_divisor`, and into `div_divisor` with the first factor replaced by the chunk size.
`CHECK(mod_divisor)`, `CHECK(div_divisor)` throw on zero divisors. -/
def latticeIndexInner (ds : List Dim) (frameId : Nat) : Nat :=
  let modDivisor := ds.foldl (fun acc d => u64 (acc * d.arraySize)) 1
  u32 (frameId % modDivisor / latticeDivisor ds)

/-- `chunk_lattice_index` for `dim_index = 0` (`src/streaming/zarr.dimension.cpp:50-60`): the
divisor is accumulated in `uint32_t`. (Only unit tests call it with index 0.) -/
def latticeIndexAppend (D : ArrayDims) (frameId : Nat) : Nat :=
  u32 (frameId / D.inner.foldl (fun acc d => u32 (acc * d.arraySize)) D.append.chunkSize)

/-- `chunk_lattice_index(frame_id, dim_index)` with its bounds check
(`src/streaming/zarr.dimension.cpp:43-73`). -/
def chunkLatticeIndex (D : ArrayDims) (frameId dimIndex : Nat) : Res Nat := do
  check (decide (dimIndex < D.ndims - 2))
  if dimIndex = 0 then
    let divisor := D.inner.foldl (fun acc d => u32 (acc * d.arraySize)) D.append.chunkSize
    check (decide (divisor ≠ 0))
    pure (latticeIndexAppend D frameId)
  else
    let ds := D.inner.drop (dimIndex - 1)
    check (decide (ds.foldl (fun acc d => u64 (acc * d.arraySize)) 1 ≠ 0))
    check (decide (latticeDivisor ds ≠ 0))
    pure (latticeIndexInner ds frameId)

/-- `strides[i]` of `tile_group_offset` (`src/streaming/zarr.dimension.cpp:78-83`): the product of
the chunk counts of the dimensions after index `i` (`after = dims_[i+1 ..]`), accumulated from the
last dimension backwards in `size_t`. -/
def tileStride (after : List Dim) : Nat :=
  after.foldr (fun d acc => u64 (acc * (u32 (d.arraySize + d.chunkSize - 1) / d.chunkSize))) 1

/-- The accumulation loop of `tile_group_offset` (`src/streaming/zarr.dimension.cpp:85-90`): `i` runs
from `n-3` down to `1`; `inner` is `dims_[i ..]`, `hw` the last two dimensions. -/
def tileGroupOffsetLoop (hw : List Dim) (frameId : Nat) : List Dim → Nat
  | [] => 0
  | d :: ds =>
    u64 (tileGroupOffsetLoop hw frameId ds +
      u64 (latticeIndexInner (d :: ds) frameId * tileStride (ds ++ hw)))

/-- `ArrayDimensions::tile_group_offset` (`src/streaming/zarr.dimension.cpp:75-93`). -/
def tileGroupOffset (D : ArrayDims) (frameId : Nat) : Nat :=
  u32 (tileGroupOffsetLoop [D.height, D.width] frameId D.inner)

/-- State of the loop of `chunk_internal_offset` after visiting the given (suffix of the) inner
dimensions: `(offset, array_strides[i-1], chunk_strides[i-1])`
(`src/streaming/zarr.dimension.cpp:106-114`, all `uint64_t`). -/
def chunkOffsetLoop (frameId : Nat) : List Dim → Nat × Nat × Nat
  | [] => (0, 1, 1)
  | d :: ds =>
    let (off, aStride, cStride) := chunkOffsetLoop frameId ds
    let internalIdx := frameId / aStride % d.arraySize % d.chunkSize
    (u64 (off + u64 (internalIdx * cStride)), u64 (aStride * d.arraySize), u64 (cStride * d.chunkSize))

/-- `ArrayDimensions::chunk_internal_offset` (`src/streaming/zarr.dimension.cpp:95-125`). -/
def chunkInternalOffset (D : ArrayDims) (frameId : Nat) : Nat :=
  let tileSize := u64 (u64 (D.dtype.bytes * D.width.chunkSize) * D.height.chunkSize)
  let (off, aStride, cStride) := chunkOffsetLoop frameId D.inner
  let internalIdx := frameId / aStride % D.append.chunkSize
  u64 (u64 (off + u64 (internalIdx * cStride)) * tileSize)

/-- `ArrayDimensions::number_of_chunks_in_memory` (`src/streaming/zarr.dimension.cpp:127-136`). -/
def numberOfChunksInMemory (D : ArrayDims) : Nat :=
  D.tailDims.foldl (fun acc d => u32 (acc * chunksAlong d)) 1

/-- `ArrayDimensions::bytes_per_chunk` (`src/streaming/zarr.dimension.cpp:138-147`). -/
def bytesPerChunk (D : ArrayDims) : Nat :=
  D.toList.foldl (fun acc d => u64 (acc * d.chunkSize)) D.dtype.bytes

/-- `ArrayDimensions::number_of_shards` (`src/streaming/zarr.dimension.cpp:149-159`). -/
def numberOfShards (D : ArrayDims) : Nat :=
  u32 (D.tailDims.foldl (fun acc d => u64 (acc * shardsAlong d)) 1)

/-- `ArrayDimensions::chunks_per_shard` (`src/streaming/zarr.dimension.cpp:161-170`). -/
def chunksPerShard (D : ArrayDims) : Nat :=
  u32 (D.toList.foldl (fun acc d => u64 (acc * d.shardSize)) 1)

/-- `chunk_strides[i]` for the dimensions after index `i`
(`src/streaming/zarr.dimension.cpp:175-184` and `217-226`, `uint64_t`). -/
def chunkStride (after : List Dim) : Nat :=
  after.foldr (fun d acc => u64 (acc * chunksAlong d)) 1

/-- `shard_strides[i]` (`src/streaming/zarr.dimension.cpp:193-198`, `uint32_t`). -/
def shardStride (after : List Dim) : Nat :=
  after.foldr (fun d acc => u32 (acc * shardsAlong d)) 1

/-- `chunk_internal_strides[i]` (`src/streaming/zarr.dimension.cpp:242-247`, `size_t`). -/
def slotStride (after : List Dim) : Nat :=
  after.foldr (fun d acc => u64 (acc * d.shardSize)) 1

/-- The part of `shard_index_for_chunk` (`src/streaming/zarr.dimension.cpp:172-212`) contributed by
`dims_[1 ..]`; for dimension `i` the lattice index is `chunk_index % chunk_strides[i-1] /
chunk_strides[i]`, divided by the shard size and multiplied by `shard_strides[i]`. The accumulator
is `uint32_t`. -/
def shardIndexLoop (chunkIndex : Nat) : List Dim → Nat → Nat
  | [], acc => acc
  | d :: ds, acc =>
    let lattice := u32 (chunkIndex % chunkStride (d :: ds) / chunkStride ds)
    shardIndexLoop chunkIndex ds (u32 (acc + u32 (lattice / d.shardSize * shardStride ds)))

/-- `ArrayDimensions::shard_index_for_chunk` (`src/streaming/zarr.dimension.cpp:172-212`).
`chunk_lattice_indices[0]` is left at its initial value 0, so the append dimension contributes
`0 / shard_size * stride = 0`. -/
def shardIndexForChunk (D : ArrayDims) (chunkIndex : Nat) : Nat :=
  shardIndexLoop chunkIndex D.tailDims
    (u32 (0 + u32 (0 / D.append.shardSize * shardStride D.tailDims)))

/-- The part of `shard_internal_index` (`src/streaming/zarr.dimension.cpp:214-258`) contributed by
`dims_[1 ..]` (`size_t` accumulator). -/
def slotIndexLoop (chunkIndex : Nat) : List Dim → Nat → Nat
  | [], acc => acc
  | d :: ds, acc =>
    let lattice := chunkIndex % chunkStride (d :: ds) / chunkStride ds
    slotIndexLoop chunkIndex ds (u64 (acc + u64 (lattice % d.shardSize * slotStride ds)))

/-- `ArrayDimensions::shard_internal_index` (`src/streaming/zarr.dimension.cpp:214-258`): the append
lattice index is `chunk_index / chunk_strides.front()`. -/
def shardInternalIndex (D : ArrayDims) (chunkIndex : Nat) : Nat :=
  let lattice0 := chunkIndex / chunkStride D.tailDims
  u32 (slotIndexLoop chunkIndex D.tailDims
    (u64 (0 + u64 (lattice0 % D.append.shardSize * slotStride D.tailDims))))

end ArrayDims
end AZ
