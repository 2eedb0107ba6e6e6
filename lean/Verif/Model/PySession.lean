import Verif.Model.Python
import Verif.Model.Api

/-!
# Python programs

Models `PyZarrStream` of `python/acquire-zarr-py.cpp` as a whole: construction, `append`, the end of the object's life, and the
attributes of the settings objects.
-/

namespace AZ.Py

/-- The constructor (`python/acquire-zarr-py.cpp:292-366`). `throw`: `RuntimeError` (create returned NULL). -/
def construct (w : World) (env : Env) (fuel : Nat) (s : Settings) : Option (Res SState) := AZ.createStream w env fuel (some (toC s))

/-- `append` (`python/acquire-zarr-py.cpp:371-392`) on a live stream. `throw`: `RuntimeError`. The value of `bytes_out` is dropped. -/
def append (env : Env) (st : SState) (m : Array) : Res SState :=
  match apiAppend env (some st) (some (appendBytes m)) (some 0) with
  | .ok r =>
    match r.stream with
    | some st' => if r.status = statusSuccess then .ok st' else .throw
    | none => .throw
  | .throw => .throw
  | .ub => .ub

/-- Successive calls of `append`; the first exception ends the program.
Models `python/acquire-zarr-py.cpp:371-392`, called by the user. -/
def appendAll (env : Env) : List Array → SState → Res SState
  | [], st => .ok st
  | m :: ms, st =>
    match append env st m with
    | .ok st' => appendAll env ms st'
    | .throw => .throw
    | .ub => .ub

/-- A Python program: it makes a stream, appends arrays and drops the stream, upon which `ZarrStreamDeleter`
(`python/acquire-zarr-py.cpp:13-17`) calls `ZarrStream_destroy`. The program goes on whatever that does; its outcome is the second
component. -/
def session (w : World) (env : Env) (fuel : Nat) (s : Settings) (ms : List Array) : Option (Res (SState × Res (List Ev))) :=
  match construct w env fuel s with
  | none => none
  | some .throw => some .throw
  | some .ub => some .ub
  | some (.ok st) =>
    match appendAll env ms st with
    | .throw => some .throw
    | .ub => some .ub
    | .ok st' => some (.ok (st', destroyStream env st'))

/-! ### Attributes of the settings -/

/-- An attribute of an `S3Settings` object (`python/acquire-zarr-py.cpp:490-502`). -/
inductive S3Attr where
  | endpoint | bucketName | accessKeyId | secretAccessKey
  deriving DecidableEq

/-- An attribute of a `CompressionSettings` object (`python/acquire-zarr-py.cpp:521-532`). -/
inductive CompressionAttr where
  | compressor | codec | level | shuffle
  deriving DecidableEq

/-- A numeric attribute of a `Dimension` object (`python/acquire-zarr-py.cpp:555-566`). -/
inductive DimensionAttr where
  | kind | arraySize | chunkSize | shardSize
  deriving DecidableEq

/-- The setters of `PyZarrS3Settings` (`python/acquire-zarr-py.cpp:120-136`). -/
def S3.set (x : S3) (v : Text) : S3Attr → S3
  | .endpoint => { x with endpoint := v }
  | .bucketName => { x with bucketName := v }
  | .accessKeyId => { x with accessKeyId := v }
  | .secretAccessKey => { x with secretAccessKey := v }

/-- The setters of `PyZarrCompressionSettings` (`python/acquire-zarr-py.cpp:163-172`). -/
def Compression.set (x : Compression) (v : Nat) : CompressionAttr → Compression
  | .compressor => { x with compressor := v }
  | .codec => { x with codec := v }
  | .level => { x with level := v }
  | .shuffle => { x with shuffle := v }

/-- The numeric setters of `PyZarrDimensionProperties` (`python/acquire-zarr-py.cpp:201-210`). -/
def Dimension.set (x : Dimension) (v : Nat) : DimensionAttr → Dimension
  | .kind => { x with kind := v }
  | .arraySize => { x with arraySize := v }
  | .chunkSize => { x with chunkSize := v }
  | .shardSize => { x with shardSize := v }

/-- Statements that assign to attributes of a `StreamSettings` object `settings`, where `settings` has the attribute assigned to
(otherwise Python raises `AttributeError` or `IndexError`).
Models `python/acquire-zarr-py.cpp:638-695`. -/
inductive Assign where
  /-- `settings.store_path = v` -/
  | storePath (v : Text)
  /-- `settings.custom_metadata = v` -/
  | customMetadata (v : Option Text)
  /-- `settings.s3 = v` -/
  | s3 (v : Option S3)
  /-- `settings.compression = v` -/
  | compression (v : Option Compression)
  /-- `settings.dimensions.append(v)` -/
  | addDimension (v : Dimension)
  /-- `settings.multiscale = v` -/
  | multiscale (v : Bool)
  /-- `settings.data_type = v` -/
  | dataType (v : Nat)
  /-- `settings.version = v` -/
  | version (v : Nat)
  /-- `settings.s3.endpoint = v` etc. -/
  | s3Attr (k : S3Attr) (v : Text)
  /-- `settings.compression.level = v` etc. -/
  | compressionAttr (k : CompressionAttr) (v : Nat)
  /-- `settings.dimensions[i].name = v` -/
  | dimensionName (i : Nat) (v : Text)
  /-- `settings.dimensions[i].array_size_px = v` etc. -/
  | dimensionAttr (i : Nat) (k : DimensionAttr) (v : Nat)

/-- The attribute access `settings.s3` (`python/acquire-zarr-py.cpp:656-663`): `py::cast` of an lvalue makes a Python object of its own,
a copy. -/
def getS3 (s : Settings) : Option S3 := s.s3

/-- The attribute access `settings.compression` (`python/acquire-zarr-py.cpp:671-678`): a copy. -/
def getCompression (s : Settings) : Option Compression := s.compression

/-- The effect of a statement on `settings` (`python/acquire-zarr-py.cpp:638-695`). An assignment to an attribute of `settings.s3` or
`settings.compression` changes the copy that the getter has made (the first component: the temporary object, which nobody refers to
afterwards). `dimensions` is exposed by reference (`def_readwrite` of an opaque vector). -/
def exec (s : Settings) : Assign → Settings
  | .storePath v => { s with storePath := v }
  | .customMetadata v => { s with customMetadata := v }
  | .s3 v => { s with s3 := v }
  | .compression v => { s with compression := v }
  | .addDimension v => { s with dimensions := s.dimensions ++ [v] }
  | .multiscale v => { s with multiscale := v }
  | .dataType v => { s with dataType := v }
  | .version v => { s with version := v }
  | .s3Attr k v => ((getS3 s).map fun x => x.set v k, s).2
  | .compressionAttr k v => ((getCompression s).map fun x => x.set v k, s).2
  | .dimensionName i v => { s with dimensions := s.dimensions.modify i fun d => { d with name := v } }
  | .dimensionAttr i k v => { s with dimensions := s.dimensions.modify i fun d => d.set v k }

end AZ.Py
