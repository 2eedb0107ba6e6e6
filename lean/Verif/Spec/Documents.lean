import Batteries.Data.List.Basic
import Verif.Spec.JsonText
import Verif.Spec.History
import Verif.Spec.Settings

/-! # Specification: metadata documents -/

namespace Spec
open AZ

/-- `b` is the UTF-8 encoding of a JSON text with value `v`. -/
def JsonFile (b : List UInt8) (v : JVal) : Prop :=
  ∃ t : List Char, t.flatMap String.utf8EncodeChar = b ∧ parseJson t = some v

/-- The writes to object `p` in a history, as (offset, bytes). -/
def writesTo (p : Text) (tr : List Ev) : List (Nat × Bytes) :=
  tr.filterMap fun e =>
    match e with
    | .wrote q off d => if q = p then some (off, d) else none
    | _ => none

/-- A string value. -/
def JVal.text (s : String) : JVal := .str s.toList

/-- numpy type string of `ZarrDataType` number `k` (`include/zarr.types.h:45-58`), little endian. -/
def typeNameV2 (k : Nat) : String :=
  ["<u1", "<u2", "<u4", "<u8", "<i1", "<i2", "<i4", "<i8", "<f4", "<f8"].getD k ""

/-- Zarr v3 type name of `ZarrDataType` number `k`. -/
def typeNameV3 (k : Nat) : String :=
  ["uint8", "uint16", "uint32", "uint64", "int8", "int16", "int32", "int64", "float32", "float64"].getD k ""

/-- Blosc codec name of `ZarrCompressionCodec` number `k` (`include/zarr.types.h:66-73`). -/
def codecNameOf (k : Nat) : String := ["", "lz4", "zstd"].getD k ""

/-- What a Zarr v2 array document says. `codec`: codec name, level and shuffle. -/
structure ArrayDocV2 (v : JVal) (shape chunks : List Nat) (dtype : String) (codec : Option (String × Nat × Nat)) :
    Prop where
  format : v.get? "zarr_format" = some (.num 2)
  shape : v.get? "shape" = some (.nats shape)
  chunks : v.get? "chunks" = some (.nats chunks)
  dtype : v.get? "dtype" = some (.text dtype)
  fill : v.get? "fill_value" = some (.num 0)
  order : v.get? "order" = some (.text "C")
  filters : v.get? "filters" = some .null
  separator : v.get? "dimension_separator" = some (.text "/")
  compressor : match codec with
    | none => v.get? "compressor" = some .null
    | some (name, level, shuffle) => ∃ c, v.get? "compressor" = some c ∧ c.get? "id" = some (.text "blosc") ∧
        c.get? "cname" = some (.text name) ∧ c.get? "clevel" = some (.num level) ∧
        c.get? "shuffle" = some (.num shuffle)

/-- What a Zarr v3 (draft) array document says; a reader needs the identifiers of the codec and of the sharding extension, and must
not find an extension it does not know. -/
structure ArrayDocV3 (v : JVal) (shape chunks shards : List Nat) (dtype : String)
    (codec : Option (String × Nat × Nat)) : Prop where
  shape : v.get? "shape" = some (.nats shape)
  grid : ∃ g, v.get? "chunk_grid" = some g ∧ g.get? "chunk_shape" = some (.nats chunks) ∧
    g.get? "separator" = some (.text "/") ∧ g.get? "type" = some (.text "regular")
  dtype : v.get? "data_type" = some (.text dtype)
  fill : v.get? "fill_value" = some (.num 0)
  layout : v.get? "chunk_memory_layout" = some (.text "C")
  extensions : v.get? "extensions" = some (.arr [])
  attributes : v.get? "attributes" = some (.obj [])
  sharding : ∃ t c, v.get? "storage_transformers" = some (.arr [t]) ∧ t.get? "type" = some (.text "indexed") ∧
    t.get? "extension" = some (.text "https://purl.org/zarr/spec/storage_transformers/sharding/1.0") ∧
    t.get? "configuration" = some c ∧ c.get? "chunks_per_shard" = some (.nats shards)
  compressor : match codec with
    | none => v.get? "compressor" = some .null
    | some (name, level, shuffle) => ∃ c d, v.get? "compressor" = some c ∧
        c.get? "codec" = some (.text "https://purl.org/zarr/spec/codec/blosc/1.0") ∧ c.get? "configuration" = some d ∧
        d.get? "blocksize" = some (.num 0) ∧
        d.get? "cname" = some (.text name) ∧ d.get? "clevel" = some (.num level) ∧
        d.get? "shuffle" = some (.num shuffle)

/-- `ZarrDimensionType` number `k` in OME-NGFF axes. -/
def axisType (k : Nat) : String := ["space", "channel", "time", "other"].getD k "other"

/-- An OME-NGFF `multiscales` value: the axes (name, type) in order, and for each dataset its path and scale
factors. The last two axes are in micrometers and no other has a unit; more than one dataset comes with the name and
the parameters of the reduction that made the levels, a single one with neither. -/
structure MultiscalesDoc (v : JVal) (axes : List (List Char × String)) (datasets : List (String × List Nat)) :
    Prop where
  version : ∃ m, v = .arr [m] ∧ m.get? "version" = some (.text "0.4") ∧
    (∃ as, m.get? "axes" = some (.arr as) ∧
      List.Forall₂ (fun a x => a.get? "name" = some (.str x.1) ∧ a.get? "type" = some (.text x.2)) as axes) ∧
    ∃ ds, m.get? "datasets" = some (.arr ds) ∧
      List.Forall₂ (fun d x => d.get? "path" = some (.text x.1) ∧ ∃ t,
        d.get? "coordinateTransformations" = some (.arr [t]) ∧ t.get? "type" = some (.text "scale") ∧
        t.get? "scale" = some (.nats x.2)) ds datasets
  units : ∃ m as, v = .arr [m] ∧ m.get? "axes" = some (.arr as) ∧ as.map (fun a => a.get? "unit") =
    List.replicate (axes.length - 2) none ++ [some (.text "micrometer"), some (.text "micrometer")]
  reduction : ∃ m, v = .arr [m] ∧
    if 1 < datasets.length then m.get? "type" = some (.text "local_mean") ∧ ∃ d, m.get? "metadata" = some d ∧
      d.get? "method" = some (.text "skimage.transform.downscale_local_mean") ∧
      d.get? "args" = some (.text "[2]") ∧ d.get? "kwargs" = some (.arr [.text "cval", .num 0])
    else m.get? "type" = none ∧ m.get? "metadata" = none

/-- Name of the array document of level `i`, relative to the store. -/
def arrayDocName (version i : Nat) : Text :=
  if version = 2 then decimal i ++ "/.zarray".toList
  else "meta/root/".toList ++ decimal i ++ ".array.json".toList

/-- Names of the stream-level documents, relative to the store. -/
def streamDocNames (version : Nat) : List String :=
  if version = 2 then [".zattrs", ".zgroup", "0/.zattrs", "acquire.json"]
  else ["zarr.json", "meta/root.group.json", "meta/acquire.json"]

end Spec
