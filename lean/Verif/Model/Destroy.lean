import Verif.Model.Stream

/-!
# Repeated calls of `ZarrStream_destroy`

`ZarrStream_destroy` (`src/streaming/acquire.zarr.cpp:149-156`) deletes the stream only if `finalize_stream`
(`src/streaming/zarr.stream.cpp:961-1000`) succeeds; otherwise it returns, without a status, and the stream is still there.
`Model.Stream.destroyStream` models one successful call on a fresh stream; this file models which parts of the stream are left
after each call. Whether a storage operation succeeds is given by a `Plan` per call.
-/

namespace AZ.Destroy

/-- What remains of a stream. `sinks`: the entries of `metadata_sinks_` in iteration order (unspecified; any order here) with
whether the pointer is non-null. `arrays`: for each element of `writers_`, whether the pointer is non-null.
Models `src/streaming/zarr.stream.cpp:961-1000` and zarr.stream.hh. -/
structure Handle where
  sinks : List (Text × Bool)
  arrays : List Bool
  deriving Repr, DecidableEq

/-- Which operations of one call of destroy succeed: writing the group document; `flush_` of the sink with a given key;
`finalize_array` of an array.
Models `src/streaming/zarr.stream.cpp:961-1000`, array.writer.cpp:442-465. -/
structure Plan where
  group : Bool
  sink : Text → Bool
  array : Nat → Bool

/-- Result of a call: the stream is deleted; it is still there; an exception leaves the `extern "C"` function and the process
ends. Models `src/streaming/acquire.zarr.cpp:149-156`. -/
inductive Outcome where
  | deleted
  | kept (h : Handle)
  | terminated
  deriving Repr, DecidableEq

/-- `for (auto& [sink_name, sink] : metadata_sinks_) if (!finalize_sink(std::move(sink))) return false;`
(`src/streaming/zarr.stream.cpp:974-980`, `sink.cpp:4-18`: a null sink is fine, a sink is reset if and only if its `flush_`
succeeds): the sinks afterwards and whether all succeeded. -/
def closeSinks (ok : Text → Bool) : List (Text × Bool) → List (Text × Bool) × Bool
  | [] => ([], true)
  | (k, false) :: rest => let (r, b) := closeSinks ok rest; ((k, false) :: r, b)
  | (k, true) :: rest =>
    if ok k then let (r, b) := closeSinks ok rest; ((k, false) :: r, b)
    else ((k, true) :: rest, false)

/-- The loop over `writers_` (`src/streaming/zarr.stream.cpp:983-989`, `array.writer.cpp:442-465`), from index `i`. -/
def closeArrays (ok : Nat → Bool) (i : Nat) : List Bool → List Bool × Bool
  | [] => ([], true)
  | false :: rest => let (r, b) := closeArrays ok (i + 1) rest; (false :: r, b)
  | true :: rest =>
    if ok i then let (r, b) := closeArrays ok (i + 1) rest; (false :: r, b)
    else (true :: rest, false)

/-- One call of `ZarrStream_destroy`; `key` names the group document (`.zgroup` or `meta/root.group.json`).
Models `src/streaming/acquire.zarr.cpp:149-156`, zarr.stream.cpp:961-1000. -/
def destroy (key : Text) (p : Plan) (h : Handle) : Outcome :=
  -- `write_group_metadata_` (`src/streaming/zarr.stream.cpp:728-759`): `metadata_sinks_.at(key)` throws if there is no entry
  match h.sinks.lookup key with
  | none => .terminated
  | some false => .kept h
  | some true =>
    if !p.group then .kept h else
    let (sinks, ok) := closeSinks p.sink h.sinks
    if !ok then .kept { h with sinks := sinks } else
    -- `metadata_sinks_.clear()`
    let (arrays, ok) := closeArrays p.array 0 h.arrays
    if !ok then .kept ⟨[], arrays⟩ else
    -- `writers_.clear(); await_stop(); ...; delete stream`
    .deleted

/-- Successive calls of destroy on the same handle, as long as it is valid.
Models `src/streaming/acquire.zarr.cpp:149-156`, called by the user. -/
def destroys (key : Text) : List Plan → Handle → Outcome
  | [], h => .kept h
  | p :: ps, h =>
    match destroy key p h with
    | .kept h' => destroys key ps h'
    | o => o

/-- A stream with the given metadata keys and number of arrays before the first call.
Models `src/streaming/zarr.stream.cpp:376-417`. -/
def fresh (keys : List Text) (n : Nat) : Handle := ⟨keys.map fun k => (k, true), List.replicate n true⟩

/-- The plan that a storage gives to the first call.
Models `src/streaming/zarr.stream.cpp:961-1000`. -/
def planOf (env : Env) (st : SState) : Plan where
  group := match writeDoc env (metaSinkPath st.cfg (groupDoc st.cfg st.levels.length).1)
      (utf8 ((groupDoc st.cfg st.levels.length).2.dump 0)) with
    | .ok _ => true
    | _ => false
  sink := fun k => env.finalize (metaSinkPath st.cfg k)
  array := fun i => match st.levels[i]? with
    | none => true
    | some lv => match finalizeArray env lv.cfg lv.st with
      | .ok _ => true
      | _ => false

end AZ.Destroy
