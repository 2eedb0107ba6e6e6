import Verif.Model.Settings

/-!
# Pyramid levels

Models `zarr::downsample` (`src/streaming/array.writer.cpp:16-76`) and the level loop of
`create_writers_` (`src/streaming/zarr.stream.cpp:630-648`).
-/

namespace AZ

/-- One dimension of the next level (`src/streaming/array.writer.cpp:21-50`), `uint32_t` arithmetic. -/
def downsampleDim (d : Dim) : Res Dim :=
  if d.kind = .channel then .ok d else do
  let arraySize := u32 (d.arraySize + d.arraySize % 2) / 2
  let chunkSize := if d.arraySize = 0 then d.chunkSize else min d.chunkSize arraySize
  check (decide (chunkSize ≠ 0))
  let nChunks := u32 (u32 (arraySize + chunkSize) + 2 ^ 32 - 1) / chunkSize
  let shardSize := if d.arraySize = 0 then 1 else min nChunks d.shardSize
  pure { d with arraySize := arraySize, chunkSize := chunkSize, shardSize := shardSize }

/-- The loop over the dimensions. Models `src/streaming/array.writer.cpp:22-50`. -/
def downsampleDims : List Dim → Res (List Dim)
  | [] => .ok []
  | d :: ds => do
    let d' ← downsampleDim d
    let ds' ← downsampleDims ds
    pure (d' :: ds')

/-- The final loop (`src/streaming/array.writer.cpp:64-73`): false as soon as some chunk size became
strictly smaller. -/
def keepGoing : List Dim → List Dim → Bool
  | d :: ds, d' :: ds' => !(d.chunkSize > d'.chunkSize) && keepGoing ds ds'
  | _, _ => true

/-- `zarr::downsample` (`src/streaming/array.writer.cpp:16-76`): the next configuration and the return
value. The level number is an `int`. -/
def downsample (cfg : WConfig) : Res (WConfig × Bool) := do
  let ds ← downsampleDims cfg.dims.toList
  let dims ← ArrayDims.ofList ds cfg.dims.dtype
  pure ({ cfg with dims := dims, level := cfg.level + 1 }, keepGoing cfg.dims.toList ds)

/-- The `while (do_downsample)` loop of `create_writers_` (`src/streaming/zarr.stream.cpp:630-648`), at
most `fuel` iterations: the configurations of levels `cfg.level + 1, ..`; `none` when the loop is still
running after `fuel` iterations. -/
def pyramidFrom : Nat → WConfig → Option (Res (List WConfig))
  | 0, _ => none
  | fuel + 1, cfg =>
    match downsample cfg with
    | .throw => some .throw
    | .ub => some .ub
    | .ok (next, again) =>
      if again then
        match pyramidFrom fuel next with
        | none => none
        | some .throw => some .throw
        | some .ub => some .ub
        | some (.ok rest) => some (.ok (next :: rest))
      else some (.ok [next])

/-- `create_writers_` (`src/streaming/zarr.stream.cpp:593-650`): the configurations of all levels. -/
def levelConfigs (fuel : Nat) (multiscale : Bool) (cfg : WConfig) : Option (Res (List WConfig)) :=
  if multiscale then
    match pyramidFrom fuel cfg with
    | none => none
    | some .throw => some .throw
    | some .ub => some .ub
    | some (.ok rest) => some (.ok (cfg :: rest))
  else some (.ok [cfg])

end AZ
