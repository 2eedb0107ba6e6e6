import Verif.Model.Dimension
import Verif.Model.Json

/-!
# Array metadata documents

Models `ZarrV2ArrayWriter::write_array_metadata_` (`src/streaming/zarrv2.array.writer.cpp:121-177`) and
`ZarrV3ArrayWriter::write_array_metadata_` (`src/streaming/zarrv3.array.writer.cpp:160-239`).
-/

namespace AZ

/-- `ZarrVersion` (`include/zarr.types.h:28-33`). -/
inductive Version where
  | v2 | v3
  deriving Repr, DecidableEq

/-- `struct BloscCompressionParams` (`src/streaming/blosc.compression.params.hh:10-21`). -/
structure BloscParams where
  codecId : Text
  clevel : Nat
  shuffle : Nat
  deriving Repr, DecidableEq

/-- `struct ArrayWriterConfig` (`src/streaming/array.writer.hh:14-22`). The data type is stored in
`dims` (both are set from the same setting, `zarr.stream.cpp:514-531, 613-620`). `version` is the
virtual `version_()` of the writer subclass. -/
structure WConfig where
  dims : ArrayDims
  level : Nat
  bucket : Option Text
  storePath : Text
  compression : Option BloscParams
  version : Version
  deriving Repr, DecidableEq

/-- `sample_type_to_dtype` of Zarr V2 (`src/streaming/zarrv2.array.writer.cpp:14-57`), little-endian
hosts. -/
def dtypeV2 : DType → Text
  | .u8 => "<u1".toList | .u16 => "<u2".toList | .u32 => "<u4".toList | .u64 => "<u8".toList
  | .i8 => "<i1".toList | .i16 => "<i2".toList | .i32 => "<i4".toList | .i64 => "<i8".toList
  | .f32 => "<f4".toList | .f64 => "<f8".toList

/-- `sample_type_to_dtype` of Zarr V3 (`src/streaming/zarrv3.array.writer.cpp:17-45`). -/
def dtypeV3 : DType → Text
  | .u8 => "uint8".toList | .u16 => "uint16".toList | .u32 => "uint32".toList
  | .u64 => "uint64".toList | .i8 => "int8".toList | .i16 => "int16".toList
  | .i32 => "int32".toList | .i64 => "int64".toList
  | .f32 => "float32".toList | .f64 => "float64".toList

/-- The loop computing `append_size` (`src/streaming/zarrv2.array.writer.cpp:137-144`,
`zarrv3.array.writer.cpp:171-178`): it starts from `frames_written_` and divides, rounding up, by the
inner array sizes from the last to the first; `CHECK(array_size_px)` throws on a zero size. -/
def appendSize (inner : List Dim) (frames : Nat) : Res Nat :=
  inner.foldr (fun d acc => do
    let n ← acc
    check (decide (d.arraySize ≠ 0))
    pure (u64 (n + d.arraySize - 1) / d.arraySize)) (.ok frames)

/-- `compressor` member of the V2 document (`src/streaming/zarrv2.array.writer.cpp:163-171`). -/
def compressorV2 : Option BloscParams → Json
  | some p => .obj [("clevel".toList, .num p.clevel), ("cname".toList, .str p.codecId),
      ("id".toList, .str "blosc".toList), ("shuffle".toList, .num p.shuffle)]
  | none => .null

/-- `compressor` member of the V3 document (`src/streaming/zarrv3.array.writer.cpp:206-220`). -/
def compressorV3 : Option BloscParams → Json
  | some p => .obj [
      ("codec".toList, .str "https://purl.org/zarr/spec/codec/blosc/1.0".toList),
      ("configuration".toList, .obj [("blocksize".toList, .num 0), ("clevel".toList, .num p.clevel),
        ("cname".toList, .str p.codecId), ("shuffle".toList, .num p.shuffle)])]
  | none => .null

/-- The V2 document (`src/streaming/zarrv2.array.writer.cpp:146-171`) for a given append size. -/
def metaJsonV2 (cfg : WConfig) (append : Nat) : Json :=
  .obj [
    ("chunks".toList, .arr (cfg.dims.toList.map fun d => .num d.chunkSize)),
    ("compressor".toList, compressorV2 cfg.compression),
    ("dimension_separator".toList, .str "/".toList),
    ("dtype".toList, .str (dtypeV2 cfg.dims.dtype)),
    ("fill_value".toList, .num 0),
    ("filters".toList, .null),
    ("order".toList, .str "C".toList),
    ("shape".toList, .arr (.num append :: cfg.dims.tailDims.map fun d => .num d.arraySize)),
    ("zarr_format".toList, .num 2)]

/-- The V3 document (`src/streaming/zarrv3.array.writer.cpp:180-233`) for a given append size. -/
def metaJsonV3 (cfg : WConfig) (append : Nat) : Json :=
  .obj [
    ("attributes".toList, .obj []),
    ("chunk_grid".toList, .obj [
      ("chunk_shape".toList, .arr (cfg.dims.toList.map fun d => .num d.chunkSize)),
      ("separator".toList, .str "/".toList),
      ("type".toList, .str "regular".toList)]),
    ("chunk_memory_layout".toList, .str "C".toList),
    ("compressor".toList, compressorV3 cfg.compression),
    ("data_type".toList, .str (dtypeV3 cfg.dims.dtype)),
    ("extensions".toList, .arr []),
    ("fill_value".toList, .num 0),
    ("shape".toList, .arr (.num append :: cfg.dims.tailDims.map fun d => .num d.arraySize)),
    ("storage_transformers".toList, .arr [.obj [
      ("configuration".toList, .obj [
        ("chunks_per_shard".toList, .arr (cfg.dims.toList.map fun d => .num d.shardSize))]),
      ("extension".toList, .str "https://purl.org/zarr/spec/storage_transformers/sharding/1.0".toList),
      ("type".toList, .str "indexed".toList)]])]

/-- The JSON document for the writer's version.
Models `src/streaming/zarrv2.array.writer.cpp:121-177`, zarrv3.array.writer.cpp:160-239. -/
def metaJson (cfg : WConfig) (append : Nat) : Json :=
  match cfg.version with
  | .v2 => metaJsonV2 cfg append
  | .v3 => metaJsonV3 cfg append

/-- `metadata.dump(4)` as bytes.
Models `src/streaming/zarrv2.array.writer.cpp:173`, zarrv3.array.writer.cpp:234. -/
def metaDoc (cfg : WConfig) (append : Nat) : Bytes := utf8 ((metaJson cfg append).dump 0)

end AZ
