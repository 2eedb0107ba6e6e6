import Verif.Model.PySession

/-!
# Attributes of Python objects

What a Python program sees of a `StreamSettings` object: the values of its attributes, and of the attributes of the objects in them. An
assignment gives the attribute named on its left the value on its right and leaves all others alone.
-/

namespace AZ.Spec
open Py

/-- The value of an attribute. -/
inductive Value where
  | text (v : Text)
  | number (v : Nat)
  | flag (v : Bool)
  deriving DecidableEq

/-- A chain of attributes that ends at a value. -/
inductive Path where
  /-- `settings.store_path` -/
  | storePath
  /-- `settings.custom_metadata` -/
  | customMetadata
  /-- `settings.multiscale` -/
  | multiscale
  /-- `settings.data_type` -/
  | dataType
  /-- `settings.version` -/
  | version
  /-- `settings.s3.endpoint` etc. -/
  | s3 (k : S3Attr)
  /-- `settings.compression.level` etc. -/
  | compression (k : CompressionAttr)
  /-- `len(settings.dimensions)` -/
  | dimensionCount
  /-- `settings.dimensions[i].name` -/
  | dimensionName (i : Nat)
  /-- `settings.dimensions[i].array_size_px` etc. -/
  | dimension (i : Nat) (k : DimensionAttr)
  deriving DecidableEq

/-- An attribute of an `S3Settings` object. -/
def s3Value (x : Py.S3) : S3Attr → Value
  | .endpoint => .text x.endpoint
  | .bucketName => .text x.bucketName
  | .accessKeyId => .text x.accessKeyId
  | .secretAccessKey => .text x.secretAccessKey

/-- An attribute of a `CompressionSettings` object. -/
def compressionValue (x : Py.Compression) : CompressionAttr → Value
  | .compressor => .number x.compressor
  | .codec => .number x.codec
  | .level => .number x.level
  | .shuffle => .number x.shuffle

/-- A numeric attribute of a `Dimension` object. -/
def dimensionValue (x : Py.Dimension) : DimensionAttr → Value
  | .kind => .number x.kind
  | .arraySize => .number x.arraySize
  | .chunkSize => .number x.chunkSize
  | .shardSize => .number x.shardSize

/-- What the program reads; `none`: the value is `None`, or there is no such object. -/
def look (s : Py.Settings) : Path → Option Value
  | .storePath => some (.text s.storePath)
  | .customMetadata => s.customMetadata.map .text
  | .multiscale => some (.flag s.multiscale)
  | .dataType => some (.number s.dataType)
  | .version => some (.number s.version)
  | .s3 k => s.s3.map fun x => s3Value x k
  | .compression k => s.compression.map fun x => compressionValue x k
  | .dimensionCount => some (.number s.dimensions.length)
  | .dimensionName i => s.dimensions[i]?.map fun x => .text x.name
  | .dimension i k => s.dimensions[i]?.map fun x => dimensionValue x k

/-- `see` with other values for the attributes for which `new` gives one. -/
def replace (see : Path → Option Value) (new : Path → Option (Option Value)) : Path → Option Value :=
  fun p => (new p).getD (see p)

/-- The attributes that a statement gives a value to, and the value, when the program sees `see` before. -/
def given (see : Path → Option Value) : Assign → Path → Option (Option Value)
  | .storePath v, .storePath => some (some (.text v))
  | .customMetadata v, .customMetadata => some (v.map .text)
  | .multiscale v, .multiscale => some (some (.flag v))
  | .dataType v, .dataType => some (some (.number v))
  | .version v, .version => some (some (.number v))
  | .s3 v, .s3 k => some (v.map fun x => s3Value x k)
  | .compression v, .compression k => some (v.map fun x => compressionValue x k)
  | .s3Attr k v, .s3 k' => if k' = k ∧ see (.s3 k) ≠ none then some (some (.text v)) else none
  | .compressionAttr k v, .compression k' => if k' = k ∧ see (.compression k) ≠ none then some (some (.number v)) else none
  | .dimensionName i v, .dimensionName i' =>
    if i' = i ∧ see (.dimensionName i) ≠ none then some (some (.text v)) else none
  | .dimensionAttr i k v, .dimension i' k' =>
    if i' = i ∧ k' = k ∧ see (.dimension i k) ≠ none then some (some (.number v)) else none
  -- one dimension more; the last one is the new one
  | .addDimension _, .dimensionCount =>
    match see .dimensionCount with
    | some (.number n) => some (some (.number (n + 1)))
    | _ => none
  | .addDimension v, .dimensionName i => if see .dimensionCount = some (.number i) then some (some (.text v.name)) else none
  | .addDimension v, .dimension i k => if see .dimensionCount = some (.number i) then some (some (dimensionValue v k)) else none
  | _, _ => none

/-- What a statement means: afterwards the attributes have the values given, and all others are as before. -/
def meaning (see : Path → Option Value) (c : Assign) : Path → Option Value := replace see (given see c)

end AZ.Spec
