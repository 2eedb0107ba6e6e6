import Verif.Spec.Documents
import Verif.Spec.TypeNames
import Verif.Spec.ZarrV3

/-!
# Specification: reading a dataset that nobody has described to the reader

From the Zarr v2 storage specification, the Zarr v3 draft implemented by the project and OME-NGFF 0.4: a reader that is given the
files and the name of the store finds the levels of the image in the group's attributes, learns shape, chunk shape, data type and
compression of a level from its array document, and reads the elements. Only the features used by the project are supported: the reader
refuses (`none`) documents it does not understand. `unblosc` is the Blosc decoder (Blosc buffers name their codec and
parameters themselves).
-/

namespace Spec

/-- The value of a JSON file: UTF-8, one JSON text. -/
def jsonOf (b : List UInt8) : Option JVal :=
  match b.toByteArray.utf8Decode? with
  | none => none
  | some cs => parseJson cs.toList

namespace JVal

def nat? : JVal → Option Nat
  | .num q => if q.den = 1 ∧ 0 ≤ q.num then some q.num.toNat else none
  | _ => none

def str? : JVal → Option (List Char)
  | .str t => some t
  | _ => none

def arr? : JVal → Option (List JVal)
  | .arr xs => some xs
  | _ => none

def isNull : JVal → Bool
  | .null => true
  | _ => false

def nats? (v : JVal) : Option (List Nat) := v.arr?.bind (·.mapM nat?)

end JVal

/-- What a reader learns about an array. `shards`: chunks per shard (Zarr v3). -/
structure ArrayInfo where
  shape : List Nat
  chunks : List Nat
  shards : List Nat
  kind : NumKind
  itemSize : Nat
  blosc : Bool
  deriving Repr, DecidableEq

/-- The file as JSON. -/
def jsonFile (file : List Char → Option (List UInt8)) (p : List Char) : Option JVal := (file p).bind jsonOf

/-- Opens the Zarr v2 array in directory `dir` (with trailing slash). Fill value 0, C order, no filters, `/` between chunk indices. -/
def openV2 (file : List Char → Option (List UInt8)) (dir : List Char) : Option ArrayInfo := do
  let v ← jsonFile file (dir ++ ".zarray".toList)
  guard ((v.get? "zarr_format").bind JVal.nat? = some 2)
  guard ((v.get? "fill_value").bind JVal.nat? = some 0)
  guard ((v.get? "order").bind JVal.str? = some "C".toList)
  guard ((v.get? "filters").map JVal.isNull = some true)
  guard ((v.get? "dimension_separator").bind JVal.str? = some "/".toList)
  let shape ← (v.get? "shape").bind JVal.nats?
  let chunks ← (v.get? "chunks").bind JVal.nats?
  let (kind, itemSize) ← ((v.get? "dtype").bind JVal.str?).bind readNumpyType
  let c ← v.get? "compressor"
  guard (c.isNull = true ∨ (c.get? "id").bind JVal.str? = some "blosc".toList)
  pure ⟨shape, chunks, [], kind, itemSize, !c.isNull⟩

/-- Opens the Zarr v3 array `name` of the store `root`. Fill value 0, C layout, regular chunk grid with `/` between indices, no
extensions, exactly the sharding transformer in the `indexed` format. -/
def openV3 (file : List Char → Option (List UInt8)) (root name : List Char) : Option ArrayInfo := do
  let v ← jsonFile file (root ++ "/meta/root/".toList ++ name ++ ".array.json".toList)
  guard ((v.get? "fill_value").bind JVal.nat? = some 0)
  guard ((v.get? "chunk_memory_layout").bind JVal.str? = some "C".toList)
  guard (((v.get? "extensions").bind JVal.arr?).map List.isEmpty = some true)
  let shape ← (v.get? "shape").bind JVal.nats?
  let g ← v.get? "chunk_grid"
  guard ((g.get? "type").bind JVal.str? = some "regular".toList)
  guard ((g.get? "separator").bind JVal.str? = some "/".toList)
  let chunks ← (g.get? "chunk_shape").bind JVal.nats?
  let (kind, itemSize) ← ((v.get? "data_type").bind JVal.str?).bind readV3Type
  let ts ← (v.get? "storage_transformers").bind JVal.arr?
  guard (ts.length = 1)
  let t ← ts.head?
  guard ((t.get? "type").bind JVal.str? = some "indexed".toList)
  guard ((t.get? "extension").bind JVal.str? = some "https://purl.org/zarr/spec/storage_transformers/sharding/1.0".toList)
  let conf ← t.get? "configuration"
  let shards ← (conf.get? "chunks_per_shard").bind JVal.nats?
  let c ← v.get? "compressor"
  guard (c.isNull = true ∨ (c.get? "codec").bind JVal.str? = some "https://purl.org/zarr/spec/codec/blosc/1.0".toList)
  pure ⟨shape, chunks, shards, kind, itemSize, !c.isNull⟩

/-- How the chunks of the array are decoded. -/
def ArrayInfo.decoder (info : ArrayInfo) (unblosc : List UInt8 → Option (List UInt8)) : List UInt8 → Option (List UInt8) :=
  if info.blosc then unblosc else some

/-- Opens a Zarr v2 array and reads all of it: what is known about it, and its elements in C order. -/
def loadV2 (file : List Char → Option (List UInt8)) (unblosc : List UInt8 → Option (List UInt8)) (dir : List Char) :
    Option (ArrayInfo × List UInt8) := do
  let info ← openV2 file dir
  let items ← (List.range (prod info.shape)).mapM fun k =>
    readV2 file dir (info.decoder unblosc) info.chunks info.itemSize (unravel info.shape k)
  pure (info, items.flatten)

/-- Opens a Zarr v3 array and reads all of it. -/
def loadV3 (file : List Char → Option (List UInt8)) (unblosc : List UInt8 → Option (List UInt8)) (root name : List Char) :
    Option (ArrayInfo × List UInt8) := do
  let info ← openV3 file root name
  let items ← (List.range (prod info.shape)).mapM fun k =>
    readV3 file (root ++ "/data/root/".toList ++ name ++ "/c".toList) (info.decoder unblosc) info.chunks info.shards info.itemSize
      (unravel info.shape k)
  pure (info, items.flatten)

/-- The paths of the datasets of an OME-NGFF `multiscales` value with a single image. -/
def datasetPaths (m : JVal) : Option (List (List Char)) := do
  let ms ← m.arr?
  guard (ms.length = 1)
  let ds ← (← ms.head?).get? "datasets"
  (← ds.arr?).mapM fun d => (d.get? "path").bind JVal.str?

/-- The levels of the image in the Zarr v2 group `root`. -/
def levelsV2 (file : List Char → Option (List UInt8)) (root : List Char) : Option (List (List Char)) := do
  let g ← jsonFile file (root ++ "/.zgroup".toList)
  guard ((g.get? "zarr_format").bind JVal.nat? = some 2)
  let v ← jsonFile file (root ++ "/.zattrs".toList)
  datasetPaths (← v.get? "multiscales")

/-- The levels of the image in the root group of the Zarr v3 store `root`; the names of metadata documents end as the entry point says. -/
def levelsV3 (file : List Char → Option (List UInt8)) (root : List Char) : Option (List (List Char)) := do
  let e ← jsonFile file (root ++ "/zarr.json".toList)
  guard ((e.get? "zarr_format").bind JVal.str? = some "https://purl.org/zarr/spec/protocol/core/3.0".toList)
  let suffix ← (e.get? "metadata_key_suffix").bind JVal.str?
  let v ← jsonFile file (root ++ "/meta/root.group".toList ++ suffix)
  datasetPaths (← (← v.get? "attributes").get? "multiscales")

end Spec
