import Verif.Model.Settings

/-!
# The Python binding

Models `python/acquire-zarr-py.cpp`: the conversion of the Python settings to C settings, the textual
representation of the settings objects, and `append`.
-/

namespace AZ.Py

/-- `PyZarrS3Settings` (`python/acquire-zarr-py.cpp:114-154`). -/
structure S3 where
  endpoint : Text
  bucketName : Text
  accessKeyId : Text
  secretAccessKey : Text
  deriving Repr, DecidableEq

/-- `PyZarrCompressionSettings` (`python/acquire-zarr-py.cpp:156-190`). -/
structure Compression where
  compressor : Nat
  codec : Nat
  level : Nat
  shuffle : Nat
  deriving Repr, DecidableEq

/-- `PyZarrDimensionProperties` (`python/acquire-zarr-py.cpp:192-229`). -/
structure Dimension where
  name : Text
  kind : Nat
  arraySize : Nat
  chunkSize : Nat
  shardSize : Nat
  deriving Repr, DecidableEq

/-- `PyZarrStreamSettings` (`python/acquire-zarr-py.cpp:233-288`). -/
structure Settings where
  storePath : Text
  customMetadata : Option Text
  s3 : Option S3
  compression : Option Compression
  dimensions : List Dimension
  multiscale : Bool
  dataType : Nat
  version : Nat
  deriving Repr, DecidableEq

/-- What a callee sees of `s.c_str()`: the characters before the first NUL.
The `c_str()` calls at `python/acquire-zarr-py.cpp:49-92` and 293-361. -/
def cStr (s : Text) : Text := s.takeWhile (· ≠ Char.ofNat 0)

/-- The settings passed to `ZarrStream_create` by the constructor of `PyZarrStream`
(`python/acquire-zarr-py.cpp:293-361`). An empty vector has a null `data()`. -/
def toC (s : Settings) : AZ.Settings where
  storePath := some (cStr s.storePath)
  customMetadata := s.customMetadata.map cStr
  s3 := s.s3.map fun x => ⟨some (cStr x.endpoint), some (cStr x.bucketName), some (cStr x.accessKeyId),
    some (cStr x.secretAccessKey)⟩
  compression := s.compression.map fun c => ⟨c.compressor, c.codec, c.level, c.shuffle⟩
  dimensions := if s.dimensions.isEmpty then none else
    some (s.dimensions.map fun d => ⟨some (cStr d.name), d.kind, d.arraySize, d.chunkSize, d.shardSize⟩)
  multiscale := s.multiscale
  dataType := s.dataType
  version := s.version

/-! ### Representations -/

/-- `compressor_to_str` (`python/acquire-zarr-py.cpp:49-60`). -/
def compressorStr : Nat → Text
  | 0 => "NONE".toList
  | 1 => "BLOSC1".toList
  | _ => "UNKNOWN".toList

/-- `compression_codec_to_str` (`python/acquire-zarr-py.cpp:62-75`). -/
def codecStr : Nat → Text
  | 0 => "NONE".toList
  | 1 => "BLOSC_LZ4".toList
  | 2 => "BLOSC_ZSTD".toList
  | _ => "UNKNOWN".toList

/-- `dimension_type_to_str` (`python/acquire-zarr-py.cpp:77-92`). -/
def kindStr : Nat → Text
  | 0 => "SPACE".toList
  | 1 => "CHANNEL".toList
  | 2 => "TIME".toList
  | 3 => "OTHER".toList
  | _ => "UNKNOWN".toList

/-- `data_type_to_str` (`python/acquire-zarr-py.cpp:20-47`). -/
def dataTypeStr : Nat → Text
  | 0 => "UINT8".toList
  | 1 => "UINT16".toList
  | 2 => "UINT32".toList
  | 3 => "UINT64".toList
  | 4 => "INT8".toList
  | 5 => "INT16".toList
  | 6 => "INT32".toList
  | 7 => "INT64".toList
  | 8 => "FLOAT32".toList
  | 9 => "FLOAT64".toList
  | _ => "UNKNOWN".toList

/-- The shown form of the secret (`python/acquire-zarr-py.cpp:140-142`). The model counts characters where
the code counts bytes (the same for ASCII secrets). -/
def shownSecret (s : Text) : Text := if s.length < 6 then s else s.take 5 ++ "...".toList

/-- `PyZarrS3Settings::repr` (`python/acquire-zarr-py.cpp:138-147`). -/
def S3.repr (s : S3) : Text :=
  "S3Settings(endpoint='".toList ++ s.endpoint ++ "', bucket_name='".toList ++ s.bucketName ++
  "', access_key_id='".toList ++ s.accessKeyId ++ "', secret_access_key='".toList ++ shownSecret s.secretAccessKey ++
  "')".toList

/-- `PyZarrCompressionSettings::repr` (`python/acquire-zarr-py.cpp:174-183`). -/
def Compression.repr (c : Compression) : Text :=
  "CompressionSettings(compressor=Compressor.".toList ++ compressorStr c.compressor ++
  ", codec=CompressionCodec.".toList ++ codecStr c.codec ++ ", level=".toList ++ decimal c.level ++
  ", shuffle=".toList ++ decimal c.shuffle ++ ")".toList

/-- `PyZarrDimensionProperties::repr` (`python/acquire-zarr-py.cpp:212-221`). -/
def Dimension.repr (d : Dimension) : Text :=
  "Dimension(name='".toList ++ d.name ++ "', kind=DimensionType.".toList ++ kindStr d.kind ++
  ", array_size_px=".toList ++ decimal d.arraySize ++ ", chunk_size_px=".toList ++ decimal d.chunkSize ++
  ", shard_size_chunks=".toList ++ decimal d.shardSize ++ ")".toList

/-- `StreamSettings.__repr__` (`python/acquire-zarr-py.cpp:609-637`). -/
def Settings.repr (s : Settings) : Text :=
  "StreamSettings(store_path='".toList ++ s.storePath ++ "'".toList ++
  (match s.customMetadata with | some m => ", custom_metadata='".toList ++ m ++ "'".toList | none => []) ++
  (match s.s3 with | some x => ", s3=".toList ++ x.repr | none => []) ++
  (match s.compression with | some c => ", compression=".toList ++ c.repr | none => []) ++
  ", dimensions=[".toList ++ (s.dimensions.flatMap fun d => d.repr ++ ", ".toList) ++
  "], multiscale=".toList ++ (if s.multiscale then "True".toList else "False".toList) ++
  ", data_type=DataType.".toList ++ dataTypeStr s.dataType ++ ", version=ZarrVersion.".toList ++
  (if s.version = 2 then "V2".toList else "V3".toList) ++ ")".toList

/-! ### Arrays -/

/-- A numpy array: the process memory it refers to, the address of its first element, the item size in bytes,
and extent and stride (in bytes, possibly negative or zero) of every axis, first axis first
(`py::buffer_info`). The `py::buffer` read at `python/acquire-zarr-py.cpp:371-385`. -/
structure Array where
  mem : Int → UInt8
  ptr : Int
  itemsize : Nat
  axes : List (Nat × Int)

/-- `n` consecutive bytes of memory.
Auxiliary: what `ZarrStream_append` reads, `python/acquire-zarr-py.cpp:371-385`. -/
def bytesAt (mem : Int → UInt8) (a : Int) (n : Nat) : Bytes := (List.range n).map fun (k : Nat) => mem (a + (k : Int))

/-- `buf.size`: the number of elements. Models `python/acquire-zarr-py.cpp:371-385`. -/
def Array.size (a : Array) : Nat := (a.axes.map (·.1)).prod

/-- The bytes `PyZarrStream::append` hands to `ZarrStream_append` (`python/acquire-zarr-py.cpp:371-385`):
`itemsize * size` consecutive bytes from the address of the first element. The product does not wrap: numpy
refuses arrays of 2^63 bytes or more. -/
def appendBytes (a : Array) : Bytes := bytesAt a.mem a.ptr (a.itemsize * a.size)

end AZ.Py
