import Verif.Model.PyMemory

/-!
# Memory while a Python stream is created
-/

namespace AZ.Py

/-- A `std::string` at its `c_str()`: its characters, which may be NUL, and a NUL. -/
def HoldsString (m : Mem) (p : Nat) (t : Text) : Prop :=
  p ≠ 0 ∧ p + t.length < m.size ∧ (∀ i (h : i < t.length), m.char (p + i) = some t[i]) ∧ m.char (p + t.length) = some (Char.ofNat 0)

/-- The strings of the settings are in their buffers and the structures where the binding put them. -/
structure Laid (m : Mem) (b : Buffers) (s : Settings) : Prop where
  nonnull : b.s3 ≠ 0 ∧ b.compression ≠ 0 ∧ b.dimensions ≠ 0 ∧ b.settings ≠ 0
  settings : m.settings b.settings = some (rawSettings b s)
  storePath : HoldsString m b.storePath s.storePath
  custom : ∀ t, s.customMetadata = some t → HoldsString m b.customMetadata t
  s3 : ∀ x, s.s3 = some x → m.s3 b.s3 = some (rawS3 b) ∧ HoldsString m b.endpoint x.endpoint ∧ HoldsString m b.bucketName x.bucketName ∧
    HoldsString m b.accessKeyId x.accessKeyId ∧ HoldsString m b.secretAccessKey x.secretAccessKey
  compression : ∀ c, s.compression = some c → m.compression b.compression = some ⟨c.compressor, c.codec, c.level, c.shuffle⟩
  dims : ∀ i (h : i < s.dimensions.length), m.dim (b.dimensions + 24 * i) = some (rawDim b i s.dimensions[i]) ∧
    HoldsString m (b.names i) s.dimensions[i].name

end AZ.Py
