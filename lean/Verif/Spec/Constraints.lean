import Verif.Model.Settings

/-!
# The documented constraints on stream settings

Written from `include/zarr.types.h`, `include/acquire.zarr.h` and the README, without using the validation
functions of the code. Only the input types are shared with the model. -/

namespace Spec
open AZ (Text utf8 Settings S3Settings CompressionSettings DimProps World)

/-- White space of the C locale. -/
def Whitespace (c : Char) : Prop := c ∈ [' ', '\t', '\n', '\x0b', '\x0c', '\r']

/-- Only white space. -/
def Blank (t : Text) : Prop := ∀ c ∈ t, Whitespace c

/-- `t` is `s` without surrounding white space. -/
structure Trimmed (s t : Text) : Prop where
  parts : ∃ a b, s = a ++ t ++ b ∧ Blank a ∧ Blank b
  first : ∀ c, t.head? = some c → ¬ Whitespace c
  last : ∀ c, t.getLast? = some c → ¬ Whitespace c

/-- A non-NULL string that is not blank. -/
def Given (t : Option Text) : Prop := ∃ x, t = some x ∧ ¬ Blank x

/-- The length of the bucket name is that of its UTF-8 form. -/
structure GoodS3 (x : S3Settings) : Prop where
  endpoint : Given x.endpoint
  key : Given x.accessKeyId
  secret : Given x.secretAccessKey
  bucket : ∃ b t, x.bucketName = some b ∧ Trimmed b t ∧ 3 ≤ (utf8 t).length ∧ (utf8 t).length ≤ 63

/-- Compressors: 0 none, 1 Blosc. Codecs: 0 none, 1 lz4, 2 zstd. -/
structure GoodCompression (c : CompressionSettings) : Prop where
  compressor : c.compressor = 0 ∨ c.compressor = 1
  codec : c.codec = 0 ∨ c.codec = 1 ∨ c.codec = 2
  some : c.compressor = 1 → c.codec ≠ 0
  level : c.level ≤ 9
  shuffle : c.shuffle ≤ 2

/-- Kinds: 0 space, 1 channel, 2 time, 3 other. -/
structure GoodDim (version : Nat) (d : DimProps) : Prop where
  name : Given d.name
  kind : d.kind ≤ 3
  chunk : d.chunkSize ≠ 0
  shard : version = 3 → d.shardSize ≠ 0

structure GoodDims (version : Nat) (ds : List DimProps) : Prop where
  count : 3 ≤ ds.length
  spatial : ∀ (d : DimProps) (i : Nat), ds[i]? = some d → ds.length ≤ i + 2 → d.kind = 0
  each : ∀ d ∈ ds, GoodDim version d
  sizes : ∀ (d : DimProps) (i : Nat), ds[i]? = some d → 0 < i → d.arraySize ≠ 0

/-- All documented constraints, with the state of the outside world they mention: the parent directory of a
filesystem store must exist and be writable, custom metadata must be JSON. -/
structure GoodSettings (w : World) (s : Settings) : Prop where
  version : s.version = 2 ∨ s.version = 3
  path : ∃ p, s.storePath = some p ∧ p ≠ [] ∧
    (s.s3 = none → w.parentExists p = true ∧ w.parentIsDir p = true ∧ w.parentWritable p = true)
  s3 : ∀ x, s.s3 = some x → GoodS3 x
  dtype : s.dataType ≤ 9
  compression : ∀ c, s.compression = some c → GoodCompression c
  custom : ∀ m, s.customMetadata = some m → m ≠ [] → (w.parseJson m).isSome = true
  dims : ∃ ds, s.dimensions = some ds ∧ GoodDims s.version ds

end Spec
