import Verif.Model.PyKeywords
import Verif.Spec.Attributes

/-!
# Keyword arguments

What a Python program that writes `StreamSettings(store_path=..., data_type=...)` expects to read from the object's attributes.
-/

namespace AZ.Spec
open Py

/-- The keyword that an attribute of a `StreamSettings` object comes from. -/
def keyword : Path → String
  | .storePath => "store_path"
  | .customMetadata => "custom_metadata"
  | .multiscale => "multiscale"
  | .dataType => "data_type"
  | .version => "version"
  | .s3 _ => "s3"
  | .compression _ => "compression"
  | .dimensionCount | .dimensionName _ | .dimension _ _ => "dimensions"

/-- What is read at `p` when the keyword of `p` was given the object `v`: the object, its attributes or its items; `none`: `None`. -/
def givenAt (v : Val) : Path → Option Value
  | .storePath => match v with | .str t => some (.text t) | _ => none
  | .customMetadata => match v with | .str t => some (.text t) | _ => none
  -- Python's truth value
  | .multiscale => match v with
    | .bool b => some (.flag b)
    | .none => some (.flag false)
    | .int i => some (.flag (decide (i ≠ 0)))
    | .vector l => some (.flag (decide (l ≠ [])))
    | _ => none
  | .dataType => match v with | .enum .dataType n => some (.number n) | _ => none
  | .version => match v with | .enum .zarrVersion n => some (.number n) | _ => none
  | .s3 k => match v with | .s3 x => some (s3Value x k) | _ => none
  | .compression k => match v with | .compression x => some (compressionValue x k) | _ => none
  | .dimensionCount => match v with | .vector l => some (.number l.length) | _ => none
  | .dimensionName i => match v with | .vector l => l[i]?.map fun x => .text x.name | _ => none
  | .dimension i k => match v with | .vector l => l[i]?.map fun x => dimensionValue x k | _ => none

/-- What is read from a `StreamSettings` object made without arguments: an empty path, `uint8`, Zarr version 2, nothing else. -/
def unset : Path → Option Value
  | .storePath => some (.text [])
  | .multiscale => some (.flag false)
  | .dataType => some (.number 0)
  | .version => some (.number 2)
  | .dimensionCount => some (.number 0)
  | _ => none

/-- The objects the constructor of `StreamSettings` documents for its keywords (`python/acquire_zarr.pyi:347-356`), except for `dimensions`, which
is documented as a `list` of `Dimension`. -/
def Documented (key : Text) (v : Val) : Prop :=
  (key = "store_path".toList ∧ ∃ t, v = .str t) ∨
  (key = "custom_metadata".toList ∧ (v = .none ∨ ∃ t, v = .str t)) ∨
  (key = "s3".toList ∧ (v = .none ∨ ∃ x, v = .s3 x)) ∨
  (key = "compression".toList ∧ (v = .none ∨ ∃ x, v = .compression x)) ∨
  (key = "dimensions".toList ∧ ∃ l, v = .vector l) ∨
  (key = "multiscale".toList ∧ ∃ b, v = .bool b) ∨
  (key = "data_type".toList ∧ ∃ n, v = .enum .dataType n) ∨
  (key = "version".toList ∧ ∃ n, v = .enum .zarrVersion n)

/-- The keyword that an attribute of an `S3Settings` object comes from. -/
def s3Keyword : S3Attr → String
  | .endpoint => "endpoint"
  | .bucketName => "bucket_name"
  | .accessKeyId => "access_key_id"
  | .secretAccessKey => "secret_access_key"

/-- The keyword that an attribute of a `CompressionSettings` object comes from. -/
def compressionKeyword : CompressionAttr → String
  | .compressor => "compressor"
  | .codec => "codec"
  | .level => "level"
  | .shuffle => "shuffle"

/-- The keyword that a numeric attribute of a `Dimension` object comes from. -/
def dimensionKeyword : DimensionAttr → String
  | .kind => "kind"
  | .arraySize => "array_size_px"
  | .chunkSize => "chunk_size_px"
  | .shardSize => "shard_size_chunks"

/-- `v` is the number `n`, or the `n`-th member of an enumeration, or a `bool` used as a number. -/
def IsNumber (v : Val) (n : Nat) : Prop := v = .int n ∨ (∃ c, v = .enum c n) ∨ ∃ b : Bool, v = .bool b ∧ n = b.toNat

end AZ.Spec
