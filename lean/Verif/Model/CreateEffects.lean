import Verif.Model.Stream

/-!
# What creating a stream does to the files, also if it fails

`Model.Stream.createStream` says what a successful constructor leaves. The constructor of `ZarrStream_s` (`src/streaming/zarr.stream.cpp:376-417`) first removes what is at the store path
(`create_store_`, `zarr.stream.cpp:567-580`: `fs::remove_all`), then goes on and may throw, upon which `ZarrStream_create` returns NULL (`src/streaming/acquire.zarr.cpp:141-147`). This is
the same constructor with its effects on files in every case.

Simplified: if `create_store_` itself fails, nothing has been removed (`fs::remove_all` may stop half-way); symbolic links are not modelled.
-/

namespace AZ.CreateEffects

/-- What `ZarrStream_create` returns. Models `src/streaming/acquire.zarr.cpp:134-147`. -/
inductive Made where
  | stream
  | null
  | ub
  deriving DecidableEq

/-- `cleared`: the store path was removed; `events`: what the metadata sinks did afterwards.
Models `src/streaming/zarr.stream.cpp:542-591` and 376-417. -/
structure Effects where
  made : Made
  cleared : Bool
  events : List Ev

/-- `write_base_metadata_`, `write_group_metadata_`, `write_external_metadata_` (`zarr.stream.cpp:689-794`) one after the other, up to the first that fails. -/
def writeDocs (env : Env) : List (Text × Bytes) → List Ev × Bool
  | [] => ([], true)
  | (p, d) :: r =>
    match env.write p 0 d with
    | .stored => let (e, b) := writeDocs env r; (.wrote p 0 d :: e, b)
    | .silent => writeDocs env r
    | .failed | .threw => ([], false)

/-- The documents written by the constructor, in order.
Models `src/streaming/zarr.stream.cpp:376-417`. -/
def documents (w : World) (s : Settings) (cfg : WConfig) (levels : Nat) : List (Text × Bytes) :=
  let base := baseDoc cfg levels
  let group := groupDoc cfg levels
  [(metaSinkPath cfg base.1, utf8 (base.2.dump 0)), (metaSinkPath cfg group.1, utf8 (group.2.dump 0))] ++
    match externalDoc w s with
    | none => []
    | some doc => [(metaSinkPath cfg (externalKey cfg.version), doc)]

/-- The constructor after `create_store_` (`zarr.stream.cpp:398-416`). If a metadata sink cannot be created, some of the others are created nevertheless
(`tried`), depending on the schedule of the jobs (`src/streaming/sink.creator.cpp:311-414`). -/
def afterStore (w : World) (env : Env) (tried : Text → Bool) (s : Settings) (cfg : WConfig) (levels : Nat) : Made × List Ev :=
  let paths := (metaKeys cfg.version).map (metaSinkPath cfg)
  if !paths.all env.makeMetaSink then (.null, (paths.filter fun p => tried p && env.makeMetaSink p).map Ev.opened) else
  let (e, ok) := writeDocs env (documents w s cfg levels)
  (if ok then .stream else .null, paths.map Ev.opened ++ e)

/-- `ZarrStream_create` (`acquire.zarr.cpp:136-150`, `zarr.stream.cpp:376-417`), `after` being the part after `create_store_` and `create_writers_`. `none`: it does not return. -/
def createWith (w : World) (after : WConfig → Nat → Made × List Ev) (fuel : Nat) (s : Settings) : Option Effects :=
  match validateSettings w (some s) with
  | .throw => some ⟨.null, false, []⟩
  | .ub => some ⟨.ub, false, []⟩
  | .ok false => some ⟨.null, false, []⟩
  | .ok true =>
    match commitSettings s with
    | .throw => some ⟨.null, false, []⟩
    | .ub => some ⟨.ub, false, []⟩
    | .ok cfg =>
      if !w.storeOk cfg.storePath then some ⟨.null, false, []⟩ else
      -- nothing is removed from a bucket (`zarr.stream.cpp:545-566`)
      let cleared := cfg.bucket.isNone
      match levelConfigs fuel s.multiscale cfg with
      | none => none
      | some .throw => some ⟨.null, cleared, []⟩
      | some .ub => some ⟨.ub, cleared, []⟩
      | some (.ok cfgs) =>
        let (made, events) := after cfg cfgs.length
        some ⟨made, cleared, events⟩

/-- `ZarrStream_create` for strings of characters.
Models `src/streaming/acquire.zarr.cpp:134-147`. -/
def create (w : World) (env : Env) (tried : Text → Bool) (fuel : Nat) (s : Settings) : Option Effects :=
  createWith w (afterStore w env tried s) fuel s

/-! ### Names of bytes

A C string need not be UTF-8. `nlohmann::json` stores the bytes of a dimension name unchecked (`zarr.stream.cpp:808-812`), and `dump(4)` throws `type_error` when it meets a string
that is not UTF-8. The names are in `.zattrs` (V2, `write_base_metadata_`, `zarr.stream.cpp:695-696`) or `meta/root.group.json` (V3, `write_group_metadata_`, `zarr.stream.cpp:737`). -/

/-- The characters of a UTF-8 string, `none` for other strings.
Auxiliary: nlohmann's UTF-8 check in the `dump(4)` calls, `src/streaming/zarr.stream.cpp:716`,
750 and 785. -/
def textOf (b : Bytes) : Option Text := b.toByteArray.utf8Decode?.map Array.toList

/-- Settings with other dimension names.
Auxiliary: the strings of `src/streaming/zarr.stream.cpp:490-534`. -/
def withNames (s : Settings) (names : List Text) : Settings :=
  { s with dimensions := s.dimensions.map fun ds => ds.zipWith (fun d n => { d with name := some n }) names }

/-- The rest of the constructor (`zarr.stream.cpp:398-416`) if the names cannot be dumped: version 2 throws before `.zattrs` is written, version 3 after `zarr.json` has been. -/
def afterStoreUndumpable (env : Env) (tried : Text → Bool) (cfg : WConfig) (levels : Nat) : Made × List Ev :=
  let paths := (metaKeys cfg.version).map (metaSinkPath cfg)
  if !paths.all env.makeMetaSink then (.null, (paths.filter fun p => tried p && env.makeMetaSink p).map Ev.opened) else
  match cfg.version with
  | .v2 => (.null, paths.map Ev.opened)
  | .v3 => (.null, paths.map Ev.opened ++ (writeDocs env [(metaSinkPath cfg (baseDoc cfg levels).1, utf8 ((baseDoc cfg levels).2.dump 0))]).1)

/-- `ZarrStream_create` with the given bytes as dimension names (those in `s` are not used). Up to the documents, only whether a name is blank matters, for which bytes are as good as
characters (`std::isspace` knows no white space outside ASCII; that it is undefined there is C95).
Models `src/streaming/acquire.zarr.cpp:134-147`. -/
def createNamed (w : World) (env : Env) (tried : Text → Bool) (fuel : Nat) (s : Settings) (names : List Bytes) : Option Effects :=
  match names.mapM textOf with
  | some ts => create w env tried fuel (withNames s ts)
  | none => createWith w (afterStoreUndumpable env tried) fuel (withNames s (names.map fun b => b.map fun x => Char.ofNat x.toNat))

/-- The file `p` after the call, `root` being the store path as the settings spell it.
Models `src/streaming/zarr.stream.cpp:542-591` and 376-417. -/
def fileAfterCreate (w : World) (root : Text) (e : Effects) (p : Text) : Option Bytes :=
  e.events.foldl (stepFile p) (if e.cleared && (root ++ ['/']).isPrefixOf p then none else w.files p)

end AZ.CreateEffects
