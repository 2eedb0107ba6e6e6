import Verif.Model.Dimension
import Verif.Spec.Index

/-!
# The domain of the theorems

`Valid` is what `validate_dimension` (`src/streaming/zarr.stream.cpp:157-190`) enforces;
`Fits` lists the sizes for which no fixed-width expression of the modelled code wraps around.
-/

namespace AZ
open Spec

/-- Array sizes, chunk sizes, chunk counts, shard sizes and shard counts of a list of dimensions.
Auxiliary: the fields of `ZarrDimension`, `src/streaming/zarr.dimension.hh`. -/
def aShape (ds : List Dim) : List Nat := ds.map (·.arraySize)
/-- Chunk sizes.
Auxiliary: `chunk_size_px`, `src/streaming/zarr.dimension.hh`. -/
def cShape (ds : List Dim) : List Nat := ds.map (·.chunkSize)
/-- Chunk counts.
Auxiliary: `chunks_along_dimension`, `src/streaming/zarr.dimension.cpp`. -/
def nShape (ds : List Dim) : List Nat := ds.map fun d => ceilDiv d.arraySize d.chunkSize
/-- Shard sizes.
Auxiliary: `shard_size_chunks`, `src/streaming/zarr.dimension.hh`. -/
def kShape (ds : List Dim) : List Nat := ds.map (·.shardSize)
/-- Shard counts.
Auxiliary: `shards_along_dimension`, `src/streaming/zarr.dimension.cpp`. -/
def mShape (ds : List Dim) : List Nat :=
  ds.map fun d => ceilDiv (ceilDiv d.arraySize d.chunkSize) d.shardSize

namespace ArrayDims

/-- Frames per append-chunk: append chunk size times the inner array sizes.
The exact value of the product in `should_flush_`:
`src/streaming/array.writer.cpp:326-337`. -/
def framesPerChunk (D : ArrayDims) : Nat := D.append.chunkSize * prod (aShape D.inner)

/-- Bytes of one frame, of one chunk; number of chunks per append layer (exact naturals).
The exact values of the products in `src/streaming/zarr.dimension.cpp` and
array.writer.cpp:99-133. -/
def frameBytes (D : ArrayDims) : Nat := D.height.arraySize * D.width.arraySize * D.dtype.bytes
/-- Bytes of one chunk.
The exact value of `bytes_per_chunk`, `src/streaming/zarr.dimension.cpp`. -/
def chunkBytes (D : ArrayDims) : Nat := prod (cShape D.toList) * D.dtype.bytes
/-- Number of chunks per append layer.
The exact value of `number_of_chunks_in_memory`, `src/streaming/zarr.dimension.cpp`. -/
def chunkCount (D : ArrayDims) : Nat := prod (nShape D.tailDims)

/-- Settings accepted by `validate_dimension` (`src/streaming/zarr.stream.cpp:157-190`): chunk sizes
are positive, and array sizes are positive except along the append dimension. -/
structure Valid (D : ArrayDims) : Prop where
  append_chunk : 0 < D.append.chunkSize
  tail_chunk : ∀ d ∈ D.tailDims, 0 < d.chunkSize
  tail_array : ∀ d ∈ D.tailDims, 0 < d.arraySize

/-- Sizes for which no 32/64-bit expression wraps, apart from the pixel offset inside a frame: `size`
(`a + c - 1` in `uint32_t`), `rows` (`int k` loop counter), `count` (`int`/`uint32_t` chunk counters),
`mem` (the chunk buffers fit the address space).
A condition on the inputs of `src/streaming/zarr.dimension.cpp` and array.writer.cpp:245-324;
models no code. -/
structure Room (D : ArrayDims) : Prop where
  size : ∀ d ∈ D.tailDims, d.arraySize + d.chunkSize ≤ 2 ^ 32
  append_size : D.append.chunkSize < 2 ^ 32
  rows : D.height.chunkSize < 2 ^ 31
  count : D.chunkCount < 2 ^ 31
  mem : D.chunkCount * D.chunkBytes < 2 ^ 63

/-- `Room`, and the pixel offset inside a frame fits `uint32_t` (`plane`): no 32/64-bit expression
wraps. Frames beyond `plane` are the subject of `Props/LargeFrames.lean`.
A condition on the inputs of `src/streaming/zarr.dimension.cpp` and array.writer.cpp:245-324;
models no code. -/
structure Fits (D : ArrayDims) : Prop extends Room D where
  plane : D.height.arraySize * D.width.arraySize < 2 ^ 32

instance (D : ArrayDims) : Coe D.Fits D.Room := ⟨Fits.toRoom⟩

instance (D : ArrayDims) : Decidable D.Valid :=
  decidable_of_iff (0 < D.append.chunkSize ∧ (∀ d ∈ D.tailDims, 0 < d.chunkSize) ∧
      ∀ d ∈ D.tailDims, 0 < d.arraySize)
    ⟨fun ⟨a, b, c⟩ => ⟨a, b, c⟩, fun ⟨a, b, c⟩ => ⟨a, b, c⟩⟩

instance (D : ArrayDims) : Decidable D.Room :=
  decidable_of_iff ((∀ d ∈ D.tailDims, d.arraySize + d.chunkSize ≤ 2 ^ 32) ∧
      D.append.chunkSize < 2 ^ 32 ∧ D.height.chunkSize < 2 ^ 31 ∧
      D.chunkCount < 2 ^ 31 ∧ D.chunkCount * D.chunkBytes < 2 ^ 63)
    ⟨fun ⟨a, b, c, e, f⟩ => ⟨a, b, c, e, f⟩, fun ⟨a, b, c, e, f⟩ => ⟨a, b, c, e, f⟩⟩

instance (D : ArrayDims) : Decidable D.Fits :=
  decidable_of_iff (D.Room ∧ D.height.arraySize * D.width.arraySize < 2 ^ 32)
    ⟨fun ⟨a, b⟩ => ⟨a, b⟩, fun ⟨a, b⟩ => ⟨a, b⟩⟩

end ArrayDims
end AZ
