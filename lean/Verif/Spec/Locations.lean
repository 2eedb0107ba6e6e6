import Verif.Model.StorePath

/-! # Where a dataset is -/

namespace Spec
open AZ

/-- The directory in which the place lies. -/
def containing (x : Place) : Place := ⟨x.absolute, x.names.dropLast⟩

/-- A new directory can be made in the place. -/
def CanHold (fs : FileSystem) (x : Place) : Prop := fs.exist x = true ∧ fs.isDir x = true ∧ fs.writable x = true

/-- The keys a Zarr reader asks an object store for: names joined by single slashes (readers remove slashes at both ends of the location
they are given and replace several slashes by one, as `normalize_storage_path` of zarr-python does). -/
def NormalKey (k : List Char) : Prop := ∀ x ∈ splitSlash k, x ≠ []

end Spec
