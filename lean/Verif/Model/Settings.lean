import Verif.Model.Meta

/-!
# Stream settings: validation and commit

Models `validate_settings` and its helpers (`src/streaming/zarr.stream.cpp:18-269`), `commit_settings_`
(`zarr.stream.cpp:490-534`), `zarr::trim` / `is_empty_string` (`src/streaming/zarr.common.cpp:7-40`) and
`blosc_codec_to_string` (`src/streaming/blosc.compression.params.cpp:3-14`).

Enumerators arrive from C as plain integers, C strings may be NULL (`none`).
-/

namespace AZ

/-- `std::isspace` in the "C" locale. Called at `src/streaming/zarr.common.cpp:15-26`. -/
def isSpace (c : Char) : Bool :=
  c = ' ' || c.toNat = 9 || c.toNat = 10 || c.toNat = 11 || c.toNat = 12 || c.toNat = 13

/-- `zarr::trim` (`src/streaming/zarr.common.cpp:7-28`): erase up to the first non-space from the left,
then from the right. -/
def trim (s : Text) : Text := ((s.dropWhile isSpace).reverse.dropWhile isSpace).reverse

/-- `zarr::is_empty_string` (`src/streaming/zarr.common.cpp:30-40`) called on a C string: building the
`string_view` from NULL is undefined behaviour. -/
def isEmptyString : Option Text → Res Bool
  | none => .ub
  | some s => .ok (trim s).isEmpty

/-- `ZarrS3Settings` (`include/zarr.types.h:87-93`). -/
structure S3Settings where
  endpoint : Option Text
  bucketName : Option Text
  accessKeyId : Option Text
  secretAccessKey : Option Text
  deriving Repr, DecidableEq

/-- `ZarrCompressionSettings` (`include/zarr.types.h:101-107`). -/
structure CompressionSettings where
  compressor : Nat
  codec : Nat
  level : Nat
  shuffle : Nat
  deriving Repr, DecidableEq

/-- `ZarrDimensionProperties` (`include/zarr.types.h:112-122`). -/
structure DimProps where
  name : Option Text
  kind : Nat
  arraySize : Nat
  chunkSize : Nat
  shardSize : Nat
  deriving Repr, DecidableEq

/-- `ZarrStreamSettings` (`include/acquire.zarr.h:26-37`). `dimensions = none` is a NULL array;
`dimension_count` is the length of the list otherwise (the API contract). -/
structure Settings where
  storePath : Option Text
  customMetadata : Option Text
  s3 : Option S3Settings
  compression : Option CompressionSettings
  dimensions : Option (List DimProps)
  multiscale : Bool
  dataType : Nat
  version : Nat
  deriving Repr, DecidableEq

/-- External facts used when a stream is created: status of the parent directory of the store path; the
result of `nlohmann::json::parse` with comments allowed (`none` = discarded), as the `dump(4)` of the
parsed value; whether `create_store_` (`src/streaming/zarr.stream.cpp:542-591`) can remove an existing
store and create the directory (or reach the S3 server); the files that exist beforehand, by name. -/
structure World where
  parentExists : Text → Bool
  parentIsDir : Text → Bool
  parentWritable : Text → Bool
  parseJson : Text → Option Bytes
  storeOk : Text → Bool
  files : Text → Option Bytes

/-- `validate_s3_settings` (`src/streaming/zarr.stream.cpp:31-57`). `trimmed.length()` counts bytes. -/
def validateS3 (s : S3Settings) : Res Bool := do
  if (← isEmptyString s.endpoint) then return false
  if (← isEmptyString s.accessKeyId) then return false
  if (← isEmptyString s.secretAccessKey) then return false
  match s.bucketName with
  | none => .ub
  | some b => return !((utf8 (trim b)).length < 3 || (utf8 (trim b)).length > 63)

/-- `validate_filesystem_store_path` (`src/streaming/zarr.stream.cpp:59-90`). -/
def validateStorePath (w : World) (p : Text) : Bool :=
  w.parentExists p && w.parentIsDir p && w.parentWritable p

/-- `validate_compression_settings` (`src/streaming/zarr.stream.cpp:92-134`). -/
def validateCompression (c : CompressionSettings) : Bool :=
  if c.compressor ≥ 2 then false
  else if c.codec ≥ 3 then false
  else if c.compressor ≠ 0 && c.codec = 0 then false
  else if c.level > 9 then false
  else if c.shuffle ≠ 0 && c.shuffle ≠ 1 && c.shuffle ≠ 2 then false
  else true

/-- `validate_custom_metadata` (`src/streaming/zarr.stream.cpp:136-156`). -/
def validateCustomMetadata (w : World) : Option Text → Bool
  | none => true
  | some [] => true
  | some m => (w.parseJson m).isSome

/-- `validate_dimension` (`src/streaming/zarr.stream.cpp:158-190`). -/
def validateDimension (version : Nat) (isAppend : Bool) (d : DimProps) : Res Bool := do
  if (← isEmptyString d.name) then return false
  if d.kind ≥ 4 then return false
  if !isAppend && d.arraySize = 0 then return false
  if d.chunkSize = 0 then return false
  if version = 3 && d.shardSize = 0 then return false
  return true

/-- The loop over the dimensions (`src/streaming/zarr.stream.cpp:262-267`). -/
def validateDimensions (version : Nat) : Bool → List DimProps → Res Bool
  | _, [] => .ok true
  | isAppend, d :: ds => do
    if !(← validateDimension version isAppend d) then return false
    validateDimensions version false ds

/-- `validate_settings` (`src/streaming/zarr.stream.cpp:192-269`); `none` is a NULL settings pointer. -/
def validateSettings (w : World) : Option Settings → Res Bool
  | none => .ok false
  | some s => do
    if s.version < 2 || s.version ≥ 4 then return false
    match s.storePath with
    | none => return false
    | some path =>
      if path.isEmpty then return false
      match s.s3 with
      | some s3 => if !(← validateS3 s3) then return false
      | none => if !validateStorePath w path then return false
      if s.dataType ≥ 10 then return false
      match s.compression with
      | some c => if !validateCompression c then return false
      | none => pure ()
      if !validateCustomMetadata w s.customMetadata then return false
      match s.dimensions with
      | none => return false
      | some dims =>
        if dims.length < 3 then return false
        match dims.reverse with
        | x :: y :: _ =>
          if x.kind ≠ 0 then return false
          if y.kind ≠ 0 then return false
          validateDimensions s.version true dims
        | _ => return false

/-- `ZarrDimensionType` from its integer (`include/zarr.types.h:75-82`). -/
def DimType.fromC : Nat → DimType
  | 0 => .space
  | 1 => .channel
  | 2 => .time
  | _ => .other

/-- `ZarrDataType` from its integer (`include/zarr.types.h:45-58`). -/
def DType.fromC : Nat → DType
  | 0 => .u8 | 1 => .u16 | 2 => .u32 | 3 => .u64
  | 4 => .i8 | 5 => .i16 | 6 => .i32 | 7 => .i64
  | 8 => .f32 | _ => .f64

/-- `blosc_codec_to_string` (`src/streaming/blosc.compression.params.cpp:3-14`). -/
def codecName : Nat → Text
  | 1 => "lz4".toList
  | 2 => "zstd".toList
  | _ => "unrecognized codec".toList

/-- Copy of one dimension (`src/streaming/zarr.stream.cpp:517-528`). A NULL name cannot get here: it
is undefined behaviour earlier, in `validate_dimension`. -/
def DimProps.toDim (d : DimProps) : Dim where
  name := String.ofList (d.name.getD [])
  kind := DimType.fromC d.kind
  arraySize := d.arraySize
  chunkSize := d.chunkSize
  shardSize := d.shardSize

/-- `commit_settings_` (`src/streaming/zarr.stream.cpp:490-534`) together with the construction of the
level-0 configuration in `create_writers_` (`zarr.stream.cpp:598-620`). Compression parameters are set
whenever compression settings are present, whatever the compressor. -/
def commitSettings (s : Settings) : Res WConfig := do
  let dims ← ArrayDims.ofList ((s.dimensions.getD []).map DimProps.toDim) (DType.fromC s.dataType)
  pure {
    dims := dims
    level := 0
    bucket := s.s3.map fun x => trim (x.bucketName.getD [])
    storePath := trim (s.storePath.getD [])
    compression := s.compression.map fun c => ⟨codecName c.codec, c.level, c.shuffle⟩
    version := if s.version = 2 then .v2 else .v3 }

/-- `custom_metadata_` (`src/streaming/zarr.stream.cpp:495-499`). -/
def customMetadata (s : Settings) : Text :=
  match s.customMetadata with
  | some m => trim m
  | none => "{}".toList

end AZ
