import Verif.Model.Python
import Verif.Model.CallerMemory

/-!
# What the Python binding passes to `ZarrStream_create`

The constructor of `PyZarrStream` (`python/acquire-zarr-py.cpp:292-369`) copies the strings of the settings into members, and builds structures that point
to them: two local variables, a vector of dimensions, and the settings. `Model.Python.toC` gives their values; here they are addresses.
-/

namespace AZ.Py

/-- Where the strings (`c_str()`) and the structures are: the members `store_path_`, `custom_metadata_`, `s3_endpoint_`, ..., `dimension_names_[i]`; the locals `s3_settings`,
`compression_settings`; the elements of `dimension_props`; `stream_settings` (`python/acquire-zarr-py.cpp:292-361` and 402-411). -/
structure Buffers where
  storePath : Nat
  customMetadata : Nat
  endpoint : Nat
  bucketName : Nat
  accessKeyId : Nat
  secretAccessKey : Nat
  names : Nat → Nat
  s3 : Nat
  compression : Nat
  dimensions : Nat
  settings : Nat

/-- `s3_settings` (`python/acquire-zarr-py.cpp:317-332`). -/
def rawS3 (b : Buffers) : RawS3 := ⟨b.endpoint, b.bucketName, b.accessKeyId, b.secretAccessKey⟩

/-- `dimension_props[i]` (`python/acquire-zarr-py.cpp:347-358`). -/
def rawDim (b : Buffers) (i : Nat) (d : Dimension) : RawDim :=
  ⟨b.names i, d.kind, d.arraySize, d.chunkSize, d.shardSize⟩

/-- `stream_settings` (`python/acquire-zarr-py.cpp:297-361`). An empty vector has a null `data()`. -/
def rawSettings (b : Buffers) (s : Settings) : RawSettings where
  storePath := b.storePath
  customMetadata := if s.customMetadata.isSome then b.customMetadata else 0
  s3 := if s.s3.isSome then b.s3 else 0
  compression := if s.compression.isSome then b.compression else 0
  dimensions := if s.dimensions.isEmpty then 0 else b.dimensions
  dimensionCount := s.dimensions.length
  multiscale := s.multiscale
  dataType := s.dataType
  version := s.version

/-- The call of `ZarrStream_create` (`python/acquire-zarr-py.cpp:363-364`). -/
def createFrom (w : World) (env : Env) (fuel : Nat) (m : Mem) (b : Buffers) : Option (Res SState) := createAt w env fuel m b.settings

end AZ.Py
