import Verif.Model.Stream

/-!
# The caller's memory

`Model.Stream` takes settings and data as values. In C they are addresses: a structure with pointers to further structures and to
strings that end with NUL, and a buffer. Here `ZarrStream_create` and `ZarrStream_append` get addresses and the memory as it is
during that call: they read it cell by cell, in the order of the code, and reading what is not readable (freed, never allocated, beyond the end of an
array) is undefined behaviour. Memory may be a different one in each call. What a stream keeps are the values of its members
(`std::string`, numbers and `std::vector`: `src/streaming/zarr.stream.hh:36-68`), copied by `commit_settings_`.

Simplifications: addresses of characters count characters (a text is a list of characters, as everywhere in the model); addresses are not reduced modulo
2^64; the buffer of an append call is read at its beginning (C15: append reads nothing outside it).
-/

namespace AZ

/-- `ZarrDimensionProperties` in memory (`include/zarr.types.h:112-122`); the name is an address. -/
structure RawDim where
  name : Nat
  kind : Nat
  arraySize : Nat
  chunkSize : Nat
  shardSize : Nat

/-- `ZarrS3Settings` in memory (`include/zarr.types.h:87-93`). -/
structure RawS3 where
  endpoint : Nat
  bucketName : Nat
  accessKeyId : Nat
  secretAccessKey : Nat

/-- `ZarrStreamSettings` in memory (`include/acquire.zarr.h:26-37`). Address 0 is NULL. -/
structure RawSettings where
  storePath : Nat
  customMetadata : Nat
  s3 : Nat
  compression : Nat
  dimensions : Nat
  dimensionCount : Nat
  multiscale : Bool
  dataType : Nat
  version : Nat

/-- What can be read at each address, by type; nothing at or beyond `size`.
The objects behind the pointers of `include/acquire.zarr.h:26-37` and of the arguments in lines 88-112. -/
structure Mem where
  size : Nat
  char : Nat → Option Char
  byte : Nat → Option UInt8
  dim : Nat → Option RawDim
  s3 : Nat → Option RawS3
  compression : Nat → Option CompressionSettings
  settings : Nat → Option RawSettings

/-- `*p`. All dereferences of `src/streaming/zarr.stream.cpp:31-269` and 490-534. -/
def deref {α : Type} (f : Nat → Option α) (p : Nat) : Res α :=
  if p = 0 then .ub else
  match f p with
  | none => .ub
  | some x => .ok x

/-- The characters from `p` to the next NUL, as read by `std::string_view(const char*)` and `std::string(const char*)` (`src/streaming/zarr.common.cpp:7-40`,
zarr.stream.cpp:211). `fuel`: the cells left. -/
def readCells (m : Mem) : Nat → Nat → Res Text
  | 0, _ => .ub
  | fuel + 1, p => do
    let c ← deref m.char p
    if c.toNat = 0 then return []
    let t ← readCells m fuel (p + 1)
    return c :: t

/-- A C string (`src/streaming/zarr.common.cpp:7-40`). -/
def readText (m : Mem) (p : Nat) : Res Text := readCells m (m.size - p) p

/-- `zarr::is_empty_string` (`src/streaming/zarr.common.cpp:30-40`). -/
def isEmptyStringAt (m : Mem) (p : Nat) : Res Bool := do
  let t ← readText m p
  return (trim t).isEmpty

/-- `validate_s3_settings` (`src/streaming/zarr.stream.cpp:31-57`). -/
def validateS3At (m : Mem) (p : Nat) : Res Bool := do
  let s ← deref m.s3 p
  if (← isEmptyStringAt m s.endpoint) then return false
  if (← isEmptyStringAt m s.accessKeyId) then return false
  if (← isEmptyStringAt m s.secretAccessKey) then return false
  let b ← readText m s.bucketName
  return !((utf8 (trim b)).length < 3 || (utf8 (trim b)).length > 63)

/-- `validate_custom_metadata` (`src/streaming/zarr.stream.cpp:136-156`). -/
def validateCustomMetadataAt (w : World) (m : Mem) (p : Nat) : Res Bool :=
  if p = 0 then return true else do
  let c ← deref m.char p
  if c.toNat = 0 then return true
  let t ← readText m p
  return (w.parseJson t).isSome

/-- `validate_dimension` (`src/streaming/zarr.stream.cpp:158-190`). -/
def validateDimensionAt (m : Mem) (version : Nat) (isAppend : Bool) (p : Nat) : Res Bool := do
  let d ← deref m.dim p
  if (← isEmptyStringAt m d.name) then return false
  if d.kind ≥ 4 then return false
  if !isAppend && d.arraySize = 0 then return false
  if d.chunkSize = 0 then return false
  if version = 3 && d.shardSize = 0 then return false
  return true

/-- `settings->dimensions + i`: a `ZarrDimensionProperties` has 24 bytes (`include/zarr.types.h:112-122`). -/
def dimAddress (base i : Nat) : Nat := base + 24 * i

/-- The loop over the dimensions (`src/streaming/zarr.stream.cpp:262-267`): `k` are left, the next is number `i`. -/
def validateDimensionsAt (m : Mem) (version base : Nat) : (k i : Nat) → Res Bool
  | 0, _ => .ok true
  | k + 1, i => do
    if !(← validateDimensionAt m version (i == 0) (dimAddress base i)) then return false
    validateDimensionsAt m version base k (i + 1)

/-- `validate_settings` (`src/streaming/zarr.stream.cpp:192-269`). -/
def validateSettingsAt (w : World) (m : Mem) (p : Nat) : Res Bool :=
  if p = 0 then return false else do
  let s ← deref m.settings p
  if s.version < 2 || s.version ≥ 4 then return false
  if s.storePath = 0 then return false
  let path ← readText m s.storePath
  if path.isEmpty then return false
  if s.s3 ≠ 0 then
    if !(← validateS3At m s.s3) then return false
  else
    if !validateStorePath w path then return false
  if s.dataType ≥ 10 then return false
  if s.compression ≠ 0 then
    let c ← deref m.compression s.compression
    if !validateCompression c then return false
  if !(← validateCustomMetadataAt w m s.customMetadata) then return false
  if s.dimensions = 0 then return false
  if s.dimensionCount < 3 then return false
  let x ← deref m.dim (dimAddress s.dimensions (s.dimensionCount - 1))
  if x.kind ≠ 0 then return false
  let y ← deref m.dim (dimAddress s.dimensions (s.dimensionCount - 2))
  if y.kind ≠ 0 then return false
  validateDimensionsAt m s.version s.dimensions s.dimensionCount 0

/-- A pointer that may be NULL (`src/streaming/zarr.stream.cpp:495-499`, 501 and 511). -/
def ifGiven {α : Type} (p : Nat) (r : Res α) : Res (Option α) :=
  if p = 0 then .ok none else do
    let x ← r
    return some x

/-- The S3 settings that `commit_settings_` copies (`src/streaming/zarr.stream.cpp:501-509`). -/
def commitS3At (m : Mem) (p : Nat) : Res S3Settings := do
  let s ← deref m.s3 p
  let e ← readText m s.endpoint
  let b ← readText m s.bucketName
  let a ← readText m s.accessKeyId
  let k ← readText m s.secretAccessKey
  return ⟨some e, some b, some a, some k⟩

/-- The loop over the dimensions in `commit_settings_` (`src/streaming/zarr.stream.cpp:522-530`). -/
def commitDimsAt (m : Mem) (base : Nat) : (k i : Nat) → Res (List DimProps)
  | 0, _ => .ok []
  | k + 1, i => do
    let d ← deref m.dim (dimAddress base i)
    let n ← readText m d.name
    let ds ← commitDimsAt m base k (i + 1)
    return ⟨some n, d.kind, d.arraySize, d.chunkSize, d.shardSize⟩ :: ds

/-- The values that `commit_settings_` copies into the stream (`src/streaming/zarr.stream.cpp:490-534`). Trimming and the dimension object, made of the same copies, are in
`commitSettings`. -/
def commitAt (m : Mem) (p : Nat) : Res Settings := do
  let s ← deref m.settings p
  let path ← readText m s.storePath
  let custom ← ifGiven s.customMetadata (readText m s.customMetadata)
  let s3 ← ifGiven s.s3 (commitS3At m s.s3)
  let comp ← ifGiven s.compression (deref m.compression s.compression)
  let dims ← commitDimsAt m s.dimensions s.dimensionCount 0
  return ⟨some path, custom, s3, comp, some dims, s.multiscale, s.dataType, s.version⟩

/-- The constructor after `commit_settings_`, working on the members (`src/streaming/zarr.stream.cpp:383-416`), as in `createStream`. -/
def constructStream (w : World) (env : Env) (fuel : Nat) (s : Settings) : Option (Res SState) :=
  match commitSettings s with
  | .throw => some .throw
  | .ub => some .ub
  | .ok cfg =>
    if !w.storeOk cfg.storePath then some .throw else
    match levelConfigs fuel s.multiscale cfg with
    | none => none
    | some .throw => some .throw
    | some .ub => some .ub
    | some (.ok cfgs) => some do
      let paths := (metaKeys cfg.version).map (metaSinkPath cfg)
      check (paths.all env.makeMetaSink)
      let base := baseDoc cfg cfgs.length
      let e1 ← writeDoc env (metaSinkPath cfg base.1) (utf8 (base.2.dump 0))
      let group := groupDoc cfg cfgs.length
      let e2 ← writeDoc env (metaSinkPath cfg group.1) (utf8 (group.2.dump 0))
      let e3 ← match externalDoc w s with
        | none => pure []
        | some doc => writeDoc env (metaSinkPath cfg (externalKey cfg.version)) doc
      pure {
        cfg := cfg
        levels := cfgs.map fun c => ⟨c, WState.init c, none⟩
        multiscale := s.multiscale
        buf := List.replicate (bytesOfFrame cfg.dims) 0
        offset := 0
        error := []
        trace := paths.map Ev.opened ++ e1 ++ e2 ++ e3 }

/-- The constructor (`src/streaming/zarr.stream.cpp:372-417`) on the settings at address `p`. -/
def createAt (w : World) (env : Env) (fuel : Nat) (m : Mem) (p : Nat) : Option (Res SState) :=
  match validateSettingsAt w m p with
  | .throw => some .throw
  | .ub => some .ub
  | .ok false => some .throw
  | .ok true =>
    match commitAt m p with
    | .throw => some .throw
    | .ub => some .ub
    | .ok s => constructStream w env fuel s

/-- The `n` bytes at `p`. Models the reads of `data` in `src/streaming/zarr.stream.cpp:419-476`. -/
def readBytes (m : Mem) (p : Nat) : Nat → Res Bytes
  | 0 => .ok []
  | n + 1 => do
    let b ← deref m.byte p
    let bs ← readBytes m (p + 1) n
    return b :: bs

/-- A call of `ZarrStream_append`: memory as it is then, address and length of the data
(`src/streaming/acquire.zarr.cpp:158-176`). -/
structure AppendCall where
  mem : Mem
  data : Nat
  bytesIn : Nat

/-- Append calls, all of which succeed (`src/streaming/acquire.zarr.cpp:158-176`). -/
def appendsAt (env : Env) : List AppendCall → SState → Res (SState × List Nat)
  | [], st => .ok (st, [])
  | c :: cs, st => do
    let data ← readBytes c.mem c.data c.bytesIn
    let (st1, ns) ← appends env [data] st
    let (st2, ns') ← appendsAt env cs st1
    return (st2, ns ++ ns')

/-- Create a stream, append, destroy it (`src/streaming/acquire.zarr.cpp:131-176`). -/
def runAt (w : World) (env : Env) (fuel : Nat) (m : Mem) (p : Nat) (calls : List AppendCall) :
    Option (Res (SState × List Nat × List Ev)) :=
  match createAt w env fuel m p with
  | none => none
  | some .throw => some .throw
  | some .ub => some .ub
  | some (.ok st) => some do
    let (st', ns) ← appendsAt env calls st
    let tr ← destroyStream env st'
    pure (st', ns, tr)

end AZ
