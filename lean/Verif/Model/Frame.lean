import Verif.Model.Dimension

/-!
# Writing one frame into the chunk buffers

Models `ArrayWriter::write_frame_to_chunks_` (`src/streaming/array.writer.cpp:245-324`) and
`ArrayWriter::make_buffers_` (`array.writer.cpp:229-243`).
-/

namespace AZ

/-- State of the copy loop: the chunk buffers, the running `bytes_written`, and whether the early
`return bytes_written` ("Buffer overflow", `array.writer.cpp:300-310`) was taken. -/
structure CopyState where
  bufs : List Bytes
  written : Nat
  stopped : Bool
  deriving Repr, DecidableEq

/-- Body of the innermost loop (`array.writer.cpp:283-320`) for tile row `i`, tile column `j`, row `k`
of the tile. `c`, `frame_row`, `frame_col`, `region_width` are `uint32_t`; byte offsets are 64-bit.
`chunk_buffers_[c]` with `c` out of range is undefined behaviour. The iterator `chunk_it` is the
position `chunk_offset + k * bytes_per_row`. -/
def copyRow (D : ArrayDims) (data : Bytes) (groupOffset chunkOffset nTilesX : Nat) (st : CopyState)
    (ijk : Nat × Nat × Nat) : Res CopyState :=
  let (i, j, k) := ijk
  if st.stopped then .ok st else
  let bpp := D.dtype.bytes
  let frameCols := D.width.arraySize
  let tileCols := D.width.chunkSize
  let frameRows := D.height.arraySize
  let tileRows := D.height.chunkSize
  let c := u32 (u32 (groupOffset + u32 (i * nTilesX)) + j)
  match st.bufs[c]? with
  | none => .ub
  | some chunk =>
    let pos := chunkOffset + k * u64 (tileCols * bpp)
    let frameRow := u32 (u32 (i * tileRows) + k)
    if frameRow < frameRows then
      let frameCol := u32 (j * tileCols)
      let regionWidth := u32 (min (u32 (frameCol + tileCols)) frameCols + 2 ^ 32 - frameCol)
      let regionStart := u64 (bpp * u32 (u32 (frameRow * frameCols) + frameCol))
      let nbytes := u64 (regionWidth * bpp)
      if regionStart + nbytes > data.length then .ok { st with stopped := true }
      else if pos + nbytes > chunk.length then .ok { st with stopped := true }
      else .ok { bufs := st.bufs.set c (pwrite chunk pos (slice data regionStart nbytes)),
                 written := u64 (st.written + nbytes), stopped := false }
    else .ok st

/-- The sequence of `(i, j, k)` visited by the three nested loops (`array.writer.cpp:279-321`). -/
def tileRowsOf (nTilesY nTilesX tileRows : Nat) : List (Nat × Nat × Nat) :=
  (List.range nTilesY).flatMap fun i =>
    (List.range nTilesX).flatMap fun j => (List.range tileRows).map fun k => (i, j, k)

/-- The three nested loops. Models `src/streaming/array.writer.cpp:282-321`. -/
def copyRows (D : ArrayDims) (data : Bytes) (groupOffset chunkOffset nTilesX : Nat) :
    List (Nat × Nat × Nat) → CopyState → Res CopyState
  | [], st => .ok st
  | t :: ts, st => do
    let st' ← copyRow D data groupOffset chunkOffset nTilesX st t
    copyRows D data groupOffset chunkOffset nTilesX ts st'

/-- `CHECK(mod_divisor)`, `CHECK(div_divisor)` of `chunk_lattice_index`
(`src/streaming/zarr.dimension.cpp:69-70`) for every inner dimension, from the last to the first. -/
def latticeChecks : List Dim → Bool
  | [] => true
  | d :: ds => latticeChecks ds &&
    decide ((d :: ds).foldl (fun acc d => u64 (acc * d.arraySize)) 1 ≠ 0) &&
    decide (ds.foldl (fun acc d => u64 (acc * d.arraySize)) (u64 (1 * d.chunkSize)) ≠ 0)

/-- Division guards of `tile_group_offset` and `chunk_internal_offset`
(`src/streaming/zarr.dimension.cpp:80-83, 106-119`): a zero divisor is undefined behaviour, a zero
lattice divisor throws. -/
def offsetGuards (D : ArrayDims) : Res Unit :=
  if D.tailDims.any (fun d => d.chunkSize == 0) then .ub
  else if !latticeChecks D.inner then .throw
  else if D.append.chunkSize == 0 || D.inner.any (fun d => d.arraySize == 0) then .ub
  else .ok ()

/-- `ArrayWriter::write_frame_to_chunks_` (`src/streaming/array.writer.cpp:245-324`): returns the new
buffers and `bytes_written`. `frameId` is `frames_written_`. -/
def writeFrameToChunks (D : ArrayDims) (frameId : Nat) (data : Bytes) (bufs : List Bytes) :
    Res (List Bytes × Nat) :=
  if D.width.chunkSize = 0 ∨ D.height.chunkSize = 0 then .ok (bufs, 0) else do
  let nTilesX := u32 (D.width.arraySize + D.width.chunkSize - 1) / D.width.chunkSize
  let nTilesY := u32 (D.height.arraySize + D.height.chunkSize - 1) / D.height.chunkSize
  offsetGuards D
  let groupOffset := D.tileGroupOffset frameId
  let chunkOffset := D.chunkInternalOffset frameId
  let st ← copyRows D data groupOffset chunkOffset nTilesX
    (tileRowsOf nTilesY nTilesX D.height.chunkSize) ⟨bufs, 0, false⟩
  pure (st.bufs, st.written)

/-- `ArrayWriter::make_buffers_` (`src/streaming/array.writer.cpp:229-243`): every buffer is resized
and zero-filled. -/
def makeBuffers (D : ArrayDims) : List Bytes :=
  List.replicate D.numberOfChunksInMemory (List.replicate D.bytesPerChunk 0)

end AZ
