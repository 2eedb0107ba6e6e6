import Verif.Model.Meta

/-!
# Object names

Models the path construction of `ArrayWriter::make_data_sinks_` / `make_metadata_sink_`
(`src/streaming/array.writer.cpp:141-227`) and `SinkCreator::make_data_sink_paths_`
(`src/streaming/sink.creator.cpp:139-197`).
-/

namespace AZ

/-- Removal of a leading `file://` (`src/streaming/sink.creator.cpp:25-27, 70-72`), done for
filesystem sinks only. -/
def stripFile (p : Text) : Text :=
  if "file://".toList.isPrefixOf p then p.drop 7 else p

/-- `data_root` (`src/streaming/array.writer.cpp:146-160`). -/
def dataRoot (cfg : WConfig) (appendIdx : Nat) : Text :=
  match cfg.version with
  | .v2 => cfg.storePath ++ ['/'] ++ decimal cfg.level ++ ['/'] ++ decimal appendIdx
  | .v3 => cfg.storePath ++ "/data/root/".toList ++ decimal cfg.level ++ "/c".toList ++ decimal appendIdx

/-- `metadata_path` of the array (`src/streaming/array.writer.cpp:196-211`), with `file://` removed for
filesystem sinks (`sink.creator.cpp:25-27`). -/
def arrayMetaPath (cfg : WConfig) : Text :=
  let p := match cfg.version with
    | .v2 => cfg.storePath ++ ['/'] ++ decimal cfg.level ++ "/.zarray".toList
    | .v3 => cfg.storePath ++ "/meta/root/".toList ++ decimal cfg.level ++ ".array.json".toList
  if cfg.bucket.isSome then p else stripFile p

/-- `parts_along_dimension` (`src/streaming/array.writer.cpp:147, 153`). -/
def partsAlong (v : Version) (d : Dim) : Nat :=
  match v with
  | .v2 => chunksAlong d
  | .v3 => shardsAlong d

/-- One round of the queue loops of `make_data_sink_paths_` (`src/streaming/sink.creator.cpp:161-169,
187-193`): every queued path is replaced by its `n` extensions, in order. `base` is never empty here, so
the `path.empty()` case of line 167 does not arise. -/
def extendPaths (paths : List Text) (n : Nat) : List Text :=
  paths.flatMap fun p => (List.range n).map fun k => p ++ '/' :: decimal k

/-- `SinkCreator::make_data_sink_paths_` (`src/streaming/sink.creator.cpp:139-197`): `none` when
`CHECK(n_parts)` fails. Directory creation is part of `Env.makeSinks`. -/
def dataPathsFrom (v : Version) : List Dim → List Text → Option (List Text)
  | [], paths => some paths
  | d :: ds, paths =>
    if partsAlong v d = 0 then none else dataPathsFrom v ds (extendPaths paths (partsAlong v d))

/-- Names of the data sinks of append-chunk (V2) or append-shard (V3) `appendIdx`, in the order of
`data_sinks_`.
Models `src/streaming/sink.creator.cpp:140-198`, called at
`src/streaming/array.writer.cpp:141-187`. -/
def dataPaths (cfg : WConfig) (appendIdx : Nat) : Option (List Text) :=
  let root := dataRoot cfg appendIdx
  let root := if cfg.bucket.isSome then root else stripFile root
  dataPathsFrom cfg.version cfg.dims.tailDims [root]

end AZ
