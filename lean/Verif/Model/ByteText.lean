import Verif.Model.Stream

/-!
# Settings strings as the code sees them: bytes

`Model.Settings` works on characters. `zarr::trim` (`src/streaming/zarr.common.cpp:7-29`) passes each `char` it looks at to `std::isspace`, which takes an `int` and is defined for the
values of `unsigned char` and for `EOF` only. This is the creation of a stream with the calls of `trim` on the UTF-8 bytes of the strings.
-/

namespace AZ.ByteText

/-- The argument of `std::isspace(c)` (`zarr.common.cpp:17-18, 24`). `char` is signed (x86-64, and ARM on macOS and Windows), so bytes from 128 on become negative. -/
def isspaceArg (b : UInt8) : Int := if b.toNat < 128 then b.toNat else (b.toNat : Int) - 256

/-- `std::isspace` in the "C" locale: undefined for negative arguments other than `EOF` (-1).
Called at `src/streaming/zarr.common.cpp:15-26`. -/
def isspaceCall (b : UInt8) : Res Bool :=
  let a := isspaceArg b
  if 0 ≤ a ∧ a ≤ 255 ∨ a = -1 then .ok (a == 32 || (decide (9 ≤ a) && decide (a ≤ 13))) else .ub

/-- `std::find_if` for a character that is not white space, and the erasure of what is before it (`zarr.common.cpp:16-19`). -/
def eraseBlank : Bytes → Res Bytes
  | [] => .ok []
  | b :: r => do
    if (← isspaceCall b) then eraseBlank r else pure (b :: r)

/-- `zarr::trim` (`zarr.common.cpp:7-29`). -/
def trimBytes (s : Bytes) : Res Bytes :=
  if s.isEmpty then .ok [] else do
    let l ← eraseBlank s
    let r ← eraseBlank l.reverse
    pure r.reverse

/-- `zarr::is_empty_string` (`zarr.common.cpp:31-40`) on a C string. -/
def isEmptyString : Option Text → Res Bool
  | none => .ub
  | some s => do pure (← trimBytes (utf8 s)).isEmpty

/-- `validate_s3_settings` (`src/streaming/zarr.stream.cpp:31-57`). -/
def validateS3 (s : S3Settings) : Res Bool := do
  if (← isEmptyString s.endpoint) then return false
  if (← isEmptyString s.accessKeyId) then return false
  if (← isEmptyString s.secretAccessKey) then return false
  match s.bucketName with
  | none => .ub
  | some b => do
    let t ← trimBytes (utf8 b)
    return !(t.length < 3 || t.length > 63)

/-- `validate_dimension` (`zarr.stream.cpp:158-190`). -/
def validateDimension (version : Nat) (isAppend : Bool) (d : DimProps) : Res Bool := do
  if (← isEmptyString d.name) then return false
  if d.kind ≥ 4 then return false
  if !isAppend && d.arraySize = 0 then return false
  if d.chunkSize = 0 then return false
  if version = 3 && d.shardSize = 0 then return false
  return true

/-- The loop over the dimensions (`zarr.stream.cpp:262-267`). -/
def validateDimensions (version : Nat) : Bool → List DimProps → Res Bool
  | _, [] => .ok true
  | isAppend, d :: ds => do
    if !(← validateDimension version isAppend d) then return false
    validateDimensions version false ds

/-- `validate_settings` (`zarr.stream.cpp:192-269`). -/
def validateSettings (w : World) (s : Settings) : Res Bool := do
  if s.version < 2 || s.version ≥ 4 then return false
  match s.storePath with
  | none => return false
  | some path =>
    if path.isEmpty then return false
    match s.s3 with
    | some s3 => if !(← validateS3 s3) then return false
    | none => if !validateStorePath w path then return false
    if s.dataType ≥ 10 then return false
    match s.compression with
    | some c => if !validateCompression c then return false
    | none => pure ()
    if !validateCustomMetadata w s.customMetadata then return false
    match s.dimensions with
    | none => return false
    | some dims =>
      if dims.length < 3 then return false
      match dims.reverse with
      | x :: y :: _ =>
        if x.kind ≠ 0 then return false
        if y.kind ≠ 0 then return false
        validateDimensions s.version true dims
      | _ => return false

/-- The strings trimmed by `commit_settings_` (`zarr.stream.cpp:493-510`), in order. -/
def committedTexts (s : Settings) : List Text :=
  s.storePath.toList ++ s.customMetadata.toList ++
    match s.s3 with
    | none => []
    | some x => x.endpoint.toList ++ x.bucketName.toList ++ x.accessKeyId.toList ++ x.secretAccessKey.toList

/-- The calls of `trim` in `commit_settings_`. Models `src/streaming/zarr.stream.cpp:494-506`. -/
def trimAll : List Text → Res Unit
  | [] => .ok ()
  | t :: ts => do
    let _ ← trimBytes (utf8 t)
    trimAll ts

/-- `ZarrStream_create` (`zarr.stream.cpp:376-417`): validation, `commit_settings_`, then the rest of the constructor, which does not trim and is taken from `Model.Stream` (its
results of `trim` are those of `trimBytes`, `trim_bytes_exact`). -/
def createStream (w : World) (env : Env) (fuel : Nat) (s : Settings) : Option (Res SState) :=
  match validateSettings w s with
  | .ub => some .ub
  | .throw => some .throw
  | .ok false => some .throw
  | .ok true =>
    match trimAll (committedTexts s) with
    | .ub => some .ub
    | .throw => some .throw
    | .ok () => AZ.createStream w env fuel (some s)

end AZ.ByteText
