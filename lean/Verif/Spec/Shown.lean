import Verif.Model.Python

/-!
# Specification: what a printed form of the Python settings must tell

Reading aid for C92. Nothing here refers to the printing itself: `Same` is equality of all values a user has set, but for the secret, of which only
the first five characters count (C47).
-/

namespace AZ.Spec
open AZ.Py

/-- Equal but for the rest of a secret. -/
def SameS3 (a b : Py.S3) : Prop :=
  a.endpoint = b.endpoint ∧ a.bucketName = b.bucketName ∧ a.accessKeyId = b.accessKeyId ∧ a.secretAccessKey.take 5 = b.secretAccessKey.take 5

/-- Both absent, or both there and related. -/
def Both {α : Type} (r : α → α → Prop) : Option α → Option α → Prop
  | none, none => True
  | some a, some b => r a b
  | _, _ => False

/-- Equal but for the rest of the secret. -/
def Same (s t : Py.Settings) : Prop :=
  s.storePath = t.storePath ∧ s.customMetadata = t.customMetadata ∧ Both SameS3 s.s3 t.s3 ∧ s.compression = t.compression ∧
  s.dimensions = t.dimensions ∧ s.multiscale = t.multiscale ∧ s.dataType = t.dataType ∧ s.version = t.version

/-- No apostrophe in it. -/
def NoQuote (t : Text) : Prop := '\'' ∉ t

/-- Settings without apostrophes in texts, and whose enumerated values are among those Python knows by name (`python/acquire_zarr.pyi`). -/
structure Plain (s : Py.Settings) : Prop where
  path : NoQuote s.storePath
  custom : ∀ m, s.customMetadata = some m → NoQuote m
  s3 : ∀ x, s.s3 = some x → NoQuote x.endpoint ∧ NoQuote x.bucketName ∧ NoQuote x.accessKeyId ∧ NoQuote x.secretAccessKey
  compression : ∀ c, s.compression = some c → c.compressor ≤ 1 ∧ c.codec ≤ 2
  dims : ∀ d ∈ s.dimensions, NoQuote d.name ∧ d.kind ≤ 3
  dataType : s.dataType ≤ 9
  version : s.version = 2 ∨ s.version = 3

/-! ### Python source -/

/-- A text in single quotes. -/
def pyText (t : Text) : Text := "'".toList ++ t ++ "'".toList

/-- The `k`-th member of an enumeration, as Python source. -/
def pyMember (cls : String) (names : List String) (k : Nat) : Text := cls.toList ++ ".".toList ++ (names.getD k "").toList

/-- Arguments with their keywords, separated by commas. -/
def pyArgs : List (String × Text) → Text
  | [] => []
  | [(k, v)] => k.toList ++ "=".toList ++ v
  | (k, v) :: r => k.toList ++ "=".toList ++ v ++ ", ".toList ++ pyArgs r

/-- A call with keyword arguments. -/
def pyCall (cls : String) (args : List (String × Text)) : Text := cls.toList ++ "(".toList ++ pyArgs args ++ ")".toList

/-- A list of expressions, each followed by a comma. -/
def pyList (l : List Text) : Text := "[".toList ++ (l.flatMap fun x => x ++ ", ".toList) ++ "]".toList

/-- The keyword is there if the value is. -/
def pyMaybe (k : String) : Option Text → List (String × Text)
  | some v => [(k, v)]
  | none => []

/-- The enumerations, in the order of `include/zarr.types.h`, by the names of `python/acquire_zarr.pyi`. -/
def kinds : List String := ["SPACE", "CHANNEL", "TIME", "OTHER"]
def dataTypes : List String := ["UINT8", "UINT16", "UINT32", "UINT64", "INT8", "INT16", "INT32", "INT64", "FLOAT32", "FLOAT64"]
def compressors : List String := ["NONE", "BLOSC1"]
def codecs : List String := ["NONE", "BLOSC_LZ4", "BLOSC_ZSTD"]

/-- Python source that constructs a dimension, compression settings, S3 settings with the secret spelled `secret`, and stream settings (keywords of `python/acquire_zarr.pyi`). -/
def dimensionSource (d : Py.Dimension) : Text :=
  pyCall "Dimension" [("name", pyText d.name), ("kind", pyMember "DimensionType" kinds d.kind), ("array_size_px", decimal d.arraySize),
    ("chunk_size_px", decimal d.chunkSize), ("shard_size_chunks", decimal d.shardSize)]

def compressionSource (c : Py.Compression) : Text :=
  pyCall "CompressionSettings" [("compressor", pyMember "Compressor" compressors c.compressor), ("codec", pyMember "CompressionCodec" codecs c.codec),
    ("level", decimal c.level), ("shuffle", decimal c.shuffle)]

def s3Source (secret : Text → Text) (x : Py.S3) : Text :=
  pyCall "S3Settings" [("endpoint", pyText x.endpoint), ("bucket_name", pyText x.bucketName), ("access_key_id", pyText x.accessKeyId),
    ("secret_access_key", pyText (secret x.secretAccessKey))]

def settingsSource (secret : Text → Text) (s : Py.Settings) : Text :=
  pyCall "StreamSettings" (("store_path", pyText s.storePath) :: (pyMaybe "custom_metadata" (s.customMetadata.map pyText) ++
    (pyMaybe "s3" (s.s3.map (s3Source secret)) ++ (pyMaybe "compression" (s.compression.map compressionSource) ++
    [("dimensions", pyList (s.dimensions.map dimensionSource)), ("multiscale", if s.multiscale then "True".toList else "False".toList),
     ("data_type", pyMember "DataType" dataTypes s.dataType), ("version", "ZarrVersion.V".toList ++ decimal s.version)]))))

end AZ.Spec
