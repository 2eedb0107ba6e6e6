import Verif.Model.PySession

/-!
# Keyword arguments and attributes of the Python settings classes

Models the `py::init` lambdas and the property setters of `python/acquire-zarr-py.cpp:474-695`: from the Python objects a program passes
to the values stored. An exception is `none`.
-/

namespace AZ.Py

/-- The enumeration classes (`python/acquire-zarr-py.cpp:430-472`). -/
inductive EnumClass where
  | zarrVersion | dataType | compressor | compressionCodec | dimensionType | logLevel
  deriving DecidableEq

/-- A Python object, as far as the binding tells them apart. Not modelled: `bytes` (accepted where `str` is), `float` and objects of other
classes with `__bool__` (accepted for `multiscale`) or `__index__` (accepted for numbers).
The values read at `python/acquire-zarr-py.cpp:474-695`. -/
inductive Val where
  | none
  | bool (b : Bool)
  | int (i : Int)
  | str (t : Text)
  | enum (c : EnumClass) (v : Nat)
  | s3 (x : S3)
  | compression (x : Compression)
  | dimension (x : Dimension)
  /-- a `VectorDimension` -/
  | vector (l : List Dimension)
  /-- a `list` -/
  | list (l : List Val)
  /-- a `dict` or some other object -/
  | other

/-- pybind11's conversion to `std::string`. The casts at `python/acquire-zarr-py.cpp:474-695`. -/
def asText : Val → Option Text
  | .str t => some t
  | _ => none

/-- pybind11's conversion to an unsigned integer of `bits` bits: `int` (and its subclass `bool`) in range, and objects with `__index__`,
which the enumeration classes have. The casts at `python/acquire-zarr-py.cpp:474-695`. -/
def asUnsigned (bits : Nat) : Val → Option Nat
  | .bool b => some b.toNat
  | .int i => if 0 ≤ i ∧ i < 2 ^ bits then some i.toNat else none
  | .enum _ v => if v < 2 ^ bits then some v else none
  | _ => none

/-- pybind11's conversion to `bool`: `None` is false; otherwise the object's `__bool__` (a `VectorDimension` has one).
The casts at `python/acquire-zarr-py.cpp:638-695`. -/
def asBool : Val → Option Bool
  | .none => some false
  | .bool b => some b
  | .int i => some (decide (i ≠ 0))
  | .vector l => some (!l.isEmpty)
  | _ => none

/-- Conversion to an enumeration: only its own members.
The casts at `python/acquire-zarr-py.cpp:474-695` of the enumerations of 430-472. -/
def asEnum (c : EnumClass) : Val → Option Nat
  | .enum c' v => if c' = c then some v else none
  | _ => none

/-- Conversion to `PyZarrS3Settings`. The cast at `python/acquire-zarr-py.cpp:568-608`. -/
def asS3 : Val → Option S3
  | .s3 x => some x
  | _ => none

/-- Conversion to `PyZarrCompressionSettings`. The cast at `python/acquire-zarr-py.cpp:568-608`. -/
def asCompression : Val → Option Compression
  | .compression x => some x
  | _ => none

/-- Conversion to `std::vector<PyZarrDimensionProperties>`, which is opaque (`python/acquire-zarr-py.cpp:231`): no implicit conversion is
registered, so only a `VectorDimension` converts, and a `list` does not. -/
def asVector : Val → Option (List Dimension)
  | .vector l => some l
  | _ => none

/-- `None` gives `nullopt`, everything else is converted (`python/acquire-zarr-py.cpp:650-654, 664-669, 679-684`). -/
def asOptional {α : Type} (f : Val → Option α) : Val → Option (Option α)
  | .none => some none
  | v => (f v).map some

/-- `py::kwargs`: a dictionary, as the list of its items.
Models `python/acquire-zarr-py.cpp:474-608`. -/
abbrev Kwargs := List (Text × Val)

/-- `if (kwargs.contains(key)) set(kwargs[key].cast<T>());` on the object built so far.
Models `python/acquire-zarr-py.cpp:475-608`. -/
def ifGiven {σ : Type} (kw : Kwargs) (key : String) (set : σ → Val → Option σ) (x : σ) : Option σ :=
  match kw.lookup key.toList with
  | some v => set x v
  | none => some x

/-- `if (kwargs.contains(key) && !kwargs[key].is_none()) set(kwargs[key].cast<T>());`
Models `python/acquire-zarr-py.cpp:569-608`. -/
def ifGivenNotNone {σ : Type} (kw : Kwargs) (key : String) (set : σ → Val → Option σ) (x : σ) : Option σ :=
  match kw.lookup key.toList with
  | some .none => some x
  | some v => set x v
  | none => some x

/-- `S3Settings(**kwargs)` (`python/acquire-zarr-py.cpp:475-489`); the members start empty (`:149-153`). -/
def initS3 (kw : Kwargs) : Option S3 :=
  (ifGiven kw "endpoint" (fun x v => (asText v).map fun t => { x with endpoint := t }) ⟨[], [], [], []⟩).bind
    fun (x : S3) => (ifGiven kw "bucket_name" (fun x v => (asText v).map fun t => { x with bucketName := t }) x).bind
    fun (x : S3) => (ifGiven kw "access_key_id" (fun x v => (asText v).map fun t => { x with accessKeyId := t }) x).bind
    fun (x : S3) => ifGiven kw "secret_access_key" (fun x v => (asText v).map fun t => { x with secretAccessKey := t }) x

/-- `CompressionSettings(**kwargs)` (`python/acquire-zarr-py.cpp:506-518`); the initial values are at `:186-189`. -/
def initCompression (kw : Kwargs) : Option Compression :=
  (ifGiven kw "compressor" (fun x v => (asEnum .compressor v).map fun n => { x with compressor := n }) ⟨0, 0, 0, 0⟩).bind
    fun (x : Compression) => (ifGiven kw "codec" (fun x v => (asEnum .compressionCodec v).map fun n => { x with codec := n }) x).bind
    fun (x : Compression) => (ifGiven kw "level" (fun x v => (asUnsigned 8 v).map fun n => { x with level := n }) x).bind
    fun (x : Compression) => ifGiven kw "shuffle" (fun x v => (asUnsigned 8 v).map fun n => { x with shuffle := n }) x

/-- `Dimension(**kwargs)` (`python/acquire-zarr-py.cpp:535-550`); the initial values are at `:224-228`. -/
def initDimension (kw : Kwargs) : Option Dimension :=
  (ifGiven kw "name" (fun x v => (asText v).map fun t => { x with name := t }) ⟨[], 0, 0, 0, 0⟩).bind
    fun (x : Dimension) => (ifGiven kw "kind" (fun x v => (asEnum .dimensionType v).map fun n => { x with kind := n }) x).bind
    fun (x : Dimension) => (ifGiven kw "array_size_px" (fun x v => (asUnsigned 32 v).map fun n => { x with arraySize := n }) x).bind
    fun (x : Dimension) => (ifGiven kw "chunk_size_px" (fun x v => (asUnsigned 32 v).map fun n => { x with chunkSize := n }) x).bind
    fun (x : Dimension) => ifGiven kw "shard_size_chunks" (fun x v => (asUnsigned 32 v).map fun n => { x with shardSize := n }) x

/-- A new `PyZarrStreamSettings` (`python/acquire-zarr-py.cpp:239, 278-287`). -/
def Settings.initial : Settings := ⟨[], none, none, none, [], false, 0, 2⟩

/-- `StreamSettings(**kwargs)` (`python/acquire-zarr-py.cpp:569-608`). -/
def initStream (kw : Kwargs) : Option Settings :=
  (ifGiven kw "store_path" (fun x v => (asText v).map fun t => { x with storePath := t }) Settings.initial).bind
    fun (x : Settings) => (ifGivenNotNone kw "custom_metadata"
      (fun x v => (asText v).map fun t => { x with customMetadata := some t }) x).bind
    fun (x : Settings) => (ifGivenNotNone kw "s3" (fun x v => (asS3 v).map fun y => { x with s3 := some y }) x).bind
    fun (x : Settings) => (ifGivenNotNone kw "compression"
      (fun x v => (asCompression v).map fun y => { x with compression := some y }) x).bind
    fun (x : Settings) => (ifGiven kw "dimensions" (fun x v => (asVector v).map fun l => { x with dimensions := l }) x).bind
    fun (x : Settings) => (ifGiven kw "multiscale" (fun x v => (asBool v).map fun b => { x with multiscale := b }) x).bind
    fun (x : Settings) => (ifGiven kw "data_type" (fun x v => (asEnum .dataType v).map fun n => { x with dataType := n }) x).bind
    fun (x : Settings) => ifGiven kw "version" (fun x v => (asEnum .zarrVersion v).map fun n => { x with version := n }) x

/-! ### Attributes

`x.name = v` on the objects. The classes have `py::dynamic_attr()`: a name that is no property makes a new Python attribute, which the
binding never looks at. -/

/-- `x.name = v` for an `S3Settings` object (`python/acquire-zarr-py.cpp:474, 491-502`). -/
def setS3 (x : S3) (name : Text) (v : Val) : Option S3 :=
  if name = "endpoint".toList then (asText v).map fun t => { x with endpoint := t }
  else if name = "bucket_name".toList then (asText v).map fun t => { x with bucketName := t }
  else if name = "access_key_id".toList then (asText v).map fun t => { x with accessKeyId := t }
  else if name = "secret_access_key".toList then (asText v).map fun t => { x with secretAccessKey := t }
  else some x

/-- `x.name = v` for a `CompressionSettings` object (`python/acquire-zarr-py.cpp:504, 521-532`). -/
def setCompression (x : Compression) (name : Text) (v : Val) : Option Compression :=
  if name = "compressor".toList then (asEnum .compressor v).map fun n => { x with compressor := n }
  else if name = "codec".toList then (asEnum .compressionCodec v).map fun n => { x with codec := n }
  else if name = "level".toList then (asUnsigned 8 v).map fun n => { x with level := n }
  else if name = "shuffle".toList then (asUnsigned 8 v).map fun n => { x with shuffle := n }
  else some x

/-- `x.name = v` for a `Dimension` object (`python/acquire-zarr-py.cpp:534, 553-567`). -/
def setDimension (x : Dimension) (name : Text) (v : Val) : Option Dimension :=
  if name = "name".toList then (asText v).map fun t => { x with name := t }
  else if name = "kind".toList then (asEnum .dimensionType v).map fun n => { x with kind := n }
  else if name = "array_size_px".toList then (asUnsigned 32 v).map fun n => { x with arraySize := n }
  else if name = "chunk_size_px".toList then (asUnsigned 32 v).map fun n => { x with chunkSize := n }
  else if name = "shard_size_chunks".toList then (asUnsigned 32 v).map fun n => { x with shardSize := n }
  else some x

/-- `x.name = v` for a `StreamSettings` object (`python/acquire-zarr-py.cpp:568, 638-695`). -/
def setStream (x : Settings) (name : Text) (v : Val) : Option Settings :=
  if name = "store_path".toList then (asText v).map fun t => { x with storePath := t }
  else if name = "custom_metadata".toList then (asOptional asText v).map fun o => { x with customMetadata := o }
  else if name = "s3".toList then (asOptional asS3 v).map fun o => { x with s3 := o }
  else if name = "compression".toList then (asOptional asCompression v).map fun o => { x with compression := o }
  else if name = "dimensions".toList then (asVector v).map fun l => { x with dimensions := l }
  else if name = "multiscale".toList then (asBool v).map fun b => { x with multiscale := b }
  else if name = "data_type".toList then (asEnum .dataType v).map fun n => { x with dataType := n }
  else if name = "version".toList then (asEnum .zarrVersion v).map fun n => { x with version := n }
  else some x

end AZ.Py
