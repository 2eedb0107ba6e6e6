import Verif.Model.CallerMemory

/-!
# What is where in the caller's memory
-/

namespace AZ

/-- The characters of `t`, none of them NUL, and then a NUL. -/
def HoldsText (m : Mem) (p : Nat) (t : Text) : Prop :=
  p ≠ 0 ∧ p + t.length < m.size ∧ (∀ i (h : i < t.length), m.char (p + i) = some t[i] ∧ t[i].toNat ≠ 0) ∧
    m.char (p + t.length) = some (Char.ofNat 0)

/-- NULL, or the address of a text. -/
def HoldsOptText (m : Mem) (p : Nat) : Option Text → Prop
  | none => p = 0
  | some t => HoldsText m p t

/-- A dimension. -/
def HoldsDim (m : Mem) (p : Nat) (d : DimProps) : Prop :=
  ∃ name, m.dim p = some ⟨name, d.kind, d.arraySize, d.chunkSize, d.shardSize⟩ ∧ HoldsOptText m name d.name

/-- S3 settings. -/
def HoldsS3 (m : Mem) (p : Nat) (s : S3Settings) : Prop :=
  ∃ r, m.s3 p = some r ∧ HoldsOptText m r.endpoint s.endpoint ∧ HoldsOptText m r.bucketName s.bucketName ∧
    HoldsOptText m r.accessKeyId s.accessKeyId ∧ HoldsOptText m r.secretAccessKey s.secretAccessKey

/-- At `p` are the settings `s`: the structure, and behind its pointers the strings and structures of `s`. Nothing else need be readable. -/
def HoldsSettings (m : Mem) (p : Nat) (s : Settings) : Prop :=
  p ≠ 0 ∧ ∃ r, m.settings p = some r ∧ HoldsOptText m r.storePath s.storePath ∧ HoldsOptText m r.customMetadata s.customMetadata ∧
    (match s.s3 with
      | none => r.s3 = 0
      | some x => r.s3 ≠ 0 ∧ HoldsS3 m r.s3 x) ∧
    (match s.compression with
      | none => r.compression = 0
      | some c => r.compression ≠ 0 ∧ m.compression r.compression = some c) ∧
    (match s.dimensions with
      | none => r.dimensions = 0
      | some ds => r.dimensions ≠ 0 ∧ r.dimensionCount = ds.length ∧
          ∀ i (h : i < ds.length), HoldsDim m (r.dimensions + 24 * i) ds[i]) ∧
    r.multiscale = s.multiscale ∧ r.dataType = s.dataType ∧ r.version = s.version

/-- During the call, the data are where it says. -/
def HoldsData (c : AppendCall) (data : Bytes) : Prop :=
  c.data ≠ 0 ∧ c.bytesIn = data.length ∧ ∀ i (h : i < data.length), c.mem.byte (c.data + i) = some data[i]

end AZ
