import Verif.Model.Settings
import Verif.Model.Paths

/-!
# Stream-level metadata documents

Models `make_multiscale_metadata_`, `write_base_metadata_`, `write_group_metadata_`,
`write_external_metadata_` (`src/streaming/zarr.stream.cpp:689-867`), `dimension_type_to_string`
(`zarr.stream.cpp:271-286`) and the names of the metadata sinks
(`src/streaming/sink.creator.cpp:104-137, 199-249, 354-409`).
-/

namespace AZ

/-- `dimension_type_to_string` (`src/streaming/zarr.stream.cpp:271-286`). -/
def DimType.text : DimType → Text
  | .time => "time".toList
  | .channel => "channel".toList
  | .space => "space".toList
  | .other => "other".toList

/-- One entry of `axes` (`src/streaming/zarr.stream.cpp:803-815`); the last two get a unit. -/
def axisJson (unit : Bool) (d : Dim) : Json :=
  .obj ([("name".toList, .str d.name.toList), ("type".toList, .str d.kind.text)] ++
    if unit then [("unit".toList, .str "micrometer".toList)] else [])

/-- The `scales` vector of level `i` (`src/streaming/zarr.stream.cpp:819, 835-841`). -/
def scalesOf (D : ArrayDims) (i : Nat) : List Nat :=
  if i = 0 then List.replicate D.ndims 1
  else 2 ^ i :: (List.replicate (D.ndims - 3) 1 ++ [2 ^ i, 2 ^ i])

/-- One entry of `datasets` (`src/streaming/zarr.stream.cpp:820-831, 843-852`). -/
def datasetJson (D : ArrayDims) (i : Nat) : Json :=
  .obj [
    ("coordinateTransformations".toList, .arr [.obj [
      ("scale".toList, .arr ((scalesOf D i).map .flt)),
      ("type".toList, .str "scale".toList)]]),
    ("path".toList, .str (decimal i))]

/-- `multiscales[0]["metadata"]` (`src/streaming/zarr.stream.cpp:856-866`); the initializer list
`{ "cval", 0 }` is a JSON array. -/
def localMeanJson : Json :=
  .obj [
    ("args".toList, .str "[2]".toList),
    ("description".toList, .str ("The fields in the metadata describe how to reproduce this multiscaling " ++
      "in scikit-image. The method and its parameters are given here.").toList),
    ("kwargs".toList, .arr [.str "cval".toList, .num 0]),
    ("method".toList, .str "skimage.transform.downscale_local_mean".toList),
    ("version".toList, .str "0.21.0".toList)]

/-- `make_multiscale_metadata_` (`src/streaming/zarr.stream.cpp:796-867`) for `n` writers. -/
def multiscaleJson (D : ArrayDims) (n : Nat) : Json :=
  .arr [.obj (
    [("axes".toList, .arr ((D.append :: D.inner).map (axisJson false) ++
        [D.height, D.width].map (axisJson true))),
     ("datasets".toList, .arr (datasetJson D 0 :: (List.range (n - 1)).map fun k => datasetJson D (k + 1)))] ++
    (if n > 1 then [("metadata".toList, localMeanJson), ("type".toList, .str "local_mean".toList)] else []) ++
    [("version".toList, .str "0.4".toList)])]

/-- Keys of the metadata sinks (`src/streaming/sink.creator.cpp:206-221`). -/
def metaKeys : Version → List Text
  | .v2 => [".zattrs".toList, ".zgroup".toList, "0/.zattrs".toList, "acquire.json".toList]
  | .v3 => ["zarr.json".toList, "meta/root.group.json".toList, "meta/acquire.json".toList]

/-- Object name of a metadata sink (`src/streaming/sink.creator.cpp:110-118, 371-372, 462-463`). -/
def metaSinkPath (cfg : WConfig) (key : Text) : Text :=
  (if cfg.bucket.isSome then cfg.storePath else stripFile cfg.storePath) ++ '/' :: key

/-- `write_base_metadata_` (`src/streaming/zarr.stream.cpp:689-726`): key and document. -/
def baseDoc (cfg : WConfig) (n : Nat) : Text × Json :=
  match cfg.version with
  | .v2 => (".zattrs".toList, .obj [("multiscales".toList, multiscaleJson cfg.dims n)])
  | .v3 => ("zarr.json".toList, .obj [
      ("extensions".toList, .arr []),
      ("metadata_encoding".toList, .str "https://purl.org/zarr/spec/protocol/core/3.0".toList),
      ("metadata_key_suffix".toList, .str ".json".toList),
      ("zarr_format".toList, .str "https://purl.org/zarr/spec/protocol/core/3.0".toList)])

/-- `write_group_metadata_` (`src/streaming/zarr.stream.cpp:728-759`): key and document. -/
def groupDoc (cfg : WConfig) (n : Nat) : Text × Json :=
  match cfg.version with
  | .v2 => (".zgroup".toList, .obj [("zarr_format".toList, .num 2)])
  | .v3 => ("meta/root.group.json".toList,
      .obj [("attributes".toList, .obj [("multiscales".toList, multiscaleJson cfg.dims n)])])

/-- Key of the custom metadata (`src/streaming/zarr.stream.cpp:774-778`). -/
def externalKey (v : Version) : Text :=
  match v with
  | .v2 => "acquire.json".toList
  | .v3 => "meta/acquire.json".toList

/-- `write_external_metadata_` (`src/streaming/zarr.stream.cpp:761-794`): nothing is written for empty
custom metadata; a value that does not parse would be dumped as `<discarded>`. -/
def externalDoc (w : World) (s : Settings) : Option Bytes :=
  let m := customMetadata s
  if m.isEmpty then none else some ((w.parseJson m).getD (utf8 "<discarded>".toList))

end AZ
