import Verif.Model.Downsample
import Verif.Model.GroupMeta
import Verif.Model.Scale
import Verif.Model.Store

/-!
# The stream

Models `ZarrStream_s` (`src/streaming/zarr.stream.cpp:376-1000`) and the C API functions
`ZarrStream_create`, `ZarrStream_append`, `ZarrStream_destroy`
(`src/streaming/acquire.zarr.cpp:128-176`).

Simplifications: jobs run in queue order, in particular an error message set by a worker is visible when
the call returns (the code calls `set_error_` after releasing the latch, see `Props.Failures`); a thrown
exception discards the state (the caller gets NULL or an error status).
-/

namespace AZ

/-- One element of `writers_` with its `scaled_frames_` slot (`src/streaming/zarr.stream.hh:57-66`). The
slot holds the numerators of the scaled pixels (`Model.Scale`); level 0 has no slot. -/
structure Level where
  cfg : WConfig
  st : WState
  saved : Option (List Nat)
  deriving Repr, DecidableEq

/-- Members of `ZarrStream_s` (`src/streaming/zarr.stream.hh:38-66`) plus the history of storage events of
the whole stream. `cfg` is the level-0 configuration. -/
structure SState where
  cfg : WConfig
  levels : List Level
  multiscale : Bool
  buf : Bytes
  offset : Nat
  error : Text
  trace : List Ev
  deriving Repr, DecidableEq

/-- Successive calls of `set_error_` (`src/streaming/zarr.stream.cpp:536-540`): the last message wins. -/
def setErrors (err : Text) (msgs : List Text) : Text := msgs.foldl (fun _ m => m) err

/-- `writers_[i]->write_frame(data)` (`src/streaming/array.writer.cpp:99-133`) as seen by the stream: the
new level, the return value, the storage events and the error messages it produced. -/
def writerStep (env : Env) (lv : Level) (data : Bytes) : Res (Level × Nat × List Ev × List Text) := do
  let (st', n) ← writeFrame env lv.cfg data lv.st
  pure ({ lv with st := st' }, n, st'.trace.drop lv.st.trace.length, st'.errors.drop lv.st.errors.length)

/-- The level loop of `write_multiscale_frames_` (`src/streaming/zarr.stream.cpp:928-958`). `data` is the
frame of the level above, `w` and `h` its extents. -/
def pyramidLoop (env : Env) (t : DType) : List Level → Bytes → Nat → Nat →
    Res (List Level × List Ev × List Text)
  | [], _, _, _ => .ok ([], [], [])
  | lv :: rest, data, w, h => do
    let s ← scaleImage t data w h
    match lv.saved with
    | none => pure ({ lv with saved := some s.px } :: rest, [], [])
    | some px =>
      let avg := averageFrames t s.px px
      let (lv', n, evs, errs) ← writerStep env { lv with saved := none } avg
      check (n != 0)
      let (rest', evs', errs') ← pyramidLoop env t rest avg s.w s.h
      pure (lv' :: rest', evs ++ evs', errs ++ errs')

/-- `write_multiscale_frames_` (`src/streaming/zarr.stream.cpp:869-959`) for the levels below the first. -/
def writeMultiscale (env : Env) (st : SState) (data : Bytes) : Res SState :=
  if !st.multiscale then .ok st else
  match st.levels with
  | [] => .ok st
  | l0 :: rest => do
    let (rest', evs, errs) ← pyramidLoop env st.cfg.dims.dtype rest data st.cfg.dims.width.arraySize
      st.cfg.dims.height.arraySize
    pure { st with
      levels := l0 :: rest'
      trace := st.trace ++ evs
      error := setErrors st.error errs }

/-- `writers_[0]->write_frame(data)` (`src/streaming/zarr.stream.cpp:449-450, 465-466`). -/
def writeLevel0 (env : Env) (st : SState) (data : Bytes) : Res (SState × Nat) :=
  match st.levels with
  | [] => .ub
  | l0 :: rest => do
    let (l0', n, evs, errs) ← writerStep env l0 data
    pure ({ st with
      levels := l0' :: rest
      trace := st.trace ++ evs
      error := setErrors st.error errs }, n)

/-- The loop of `ZarrStream::append` (`src/streaming/zarr.stream.cpp:433-473`). `data` is the caller's
buffer, `ptr` the displacement of the local pointer `data` from its start and `bw` is `bytes_written`.
Reading the caller's buffer out of range is undefined behaviour. `none`: more than `fuel` iterations. -/
def appendLoop (env : Env) (data : Bytes) : Nat → (ptr bw : Nat) → SState → Option (Res (SState × Nat))
  | fuel, ptr, bw, st =>
    if bw ≥ data.length then some (.ok (st, bw)) else
    match fuel with
    | 0 => none
    | fuel + 1 =>
      let frameSize := st.buf.length
      let remaining := data.length - bw
      if st.offset > 0 then
        let n := min (frameSize - st.offset) remaining
        if ptr + bw + n > data.length then some .ub else
        let buf := pwrite st.buf st.offset (slice data (ptr + bw) n)
        let st1 := { st with buf := buf, offset := st.offset + n }
        if st1.offset = frameSize then
          if ptr + frameSize > data.length then some .ub else
          match writeLevel0 env st1 (slice data ptr frameSize) with
          | .throw => some .throw
          | .ub => some .ub
          | .ok (st2, k) =>
            if k = 0 then some (.ok (st2, bw + n))
            else appendLoop env data fuel (ptr + n) (bw + n + n) { st2 with offset := 0 }
        else appendLoop env data fuel ptr (bw + n) st1
      else if remaining < frameSize then
        if ptr + remaining > data.length then some .ub else
        appendLoop env data fuel ptr (bw + remaining)
          { st with buf := pwrite st.buf 0 (slice data ptr remaining), offset := remaining }
      else
        if ptr + frameSize > data.length then some .ub else
        match writeLevel0 env st (slice data ptr frameSize) with
        | .throw => some .throw
        | .ub => some .ub
        | .ok (st2, k) =>
          if k = 0 then some (.ok (st2, bw))
          else
            match writeMultiscale env st2 (slice data ptr frameSize) with
            | .throw => some .throw
            | .ub => some .ub
            | .ok st3 => appendLoop env data fuel (ptr + k) (bw + k) st3

/-- `ZarrStream::append` (`src/streaming/zarr.stream.cpp:419-476`): throws when an error is pending. -/
def append (env : Env) (fuel : Nat) (data : Bytes) (st : SState) : Option (Res (SState × Nat)) :=
  if !st.error.isEmpty then some .throw
  else appendLoop env data fuel 0 0 st

/-- Writing one document into a metadata sink at offset 0 (`src/streaming/zarr.stream.cpp:719-723,
752-756, 787-791`): failure makes the caller throw. -/
def writeDoc (env : Env) (p : Text) (doc : Bytes) : Res (List Ev) :=
  match env.write p 0 doc with
  | .stored => .ok [.wrote p 0 doc]
  | .silent => .ok []
  | .failed | .threw => .throw

/-- Constructor `ZarrStream::ZarrStream_s` (`src/streaming/zarr.stream.cpp:376-417`). `fuel` bounds the
level loop (`none`: it is still running). -/
def createStream (w : World) (env : Env) (fuel : Nat) (s : Option Settings) : Option (Res SState) :=
  match validateSettings w s, s with
  | .throw, _ => some .throw
  | .ub, _ => some .ub
  | .ok false, _ => some .throw
  | .ok true, none => some .throw
  | .ok true, some s =>
    match commitSettings s with
    | .throw => some .throw
    | .ub => some .ub
    | .ok cfg =>
      if !w.storeOk cfg.storePath then some .throw else
      match levelConfigs fuel s.multiscale cfg with
      | none => none
      | some .throw => some .throw
      | some .ub => some .ub
      | some (.ok cfgs) => some do
        let paths := (metaKeys cfg.version).map (metaSinkPath cfg)
        check (paths.all env.makeMetaSink)
        let base := baseDoc cfg cfgs.length
        let e1 ← writeDoc env (metaSinkPath cfg base.1) (utf8 (base.2.dump 0))
        let group := groupDoc cfg cfgs.length
        let e2 ← writeDoc env (metaSinkPath cfg group.1) (utf8 (group.2.dump 0))
        let e3 ← match externalDoc w s with
          | none => pure []
          | some doc => writeDoc env (metaSinkPath cfg (externalKey cfg.version)) doc
        pure {
          cfg := cfg
          levels := cfgs.map fun c => ⟨c, WState.init c, none⟩
          multiscale := s.multiscale
          buf := List.replicate (bytesOfFrame cfg.dims) 0
          offset := 0
          error := []
          trace := paths.map Ev.opened ++ e1 ++ e2 ++ e3 }

/-- The array loop of `finalize_stream` (`src/streaming/zarr.stream.cpp:983-989`). -/
def finalizeLevels (env : Env) : List Level → Res (List Ev)
  | [] => .ok []
  | lv :: rest => do
    let st' ← finalizeArray env lv.cfg lv.st
    let evs ← finalizeLevels env rest
    pure (st'.trace.drop lv.st.trace.length ++ evs)

/-- `finalize_stream` (`src/streaming/zarr.stream.cpp:961-1000`); `throw` stands for the result `false`.
The metadata sinks live in an unordered map; the model finalizes them in a fixed order. Returns the
complete history of the stream. -/
def destroyStream (env : Env) (st : SState) : Res (List Ev) := do
  let group := groupDoc st.cfg st.levels.length
  let e1 ← writeDoc env (metaSinkPath st.cfg group.1) (utf8 (group.2.dump 0))
  let e2 ← finalizeSinks env ((metaKeys st.cfg.version).map (metaSinkPath st.cfg))
  let e3 ← finalizeLevels env st.levels
  pure (st.trace ++ e1 ++ e2 ++ e3)

/-- Number of loop iterations that always suffices for one call of append (`Props.Append`).
Auxiliary: the loop of `src/streaming/zarr.stream.cpp:419-476`. -/
def appendFuel (data : Bytes) : Nat := data.length + 3

/-- A sequence of append calls, all of which succeed; the list of their `bytes_out`.
Models `src/streaming/acquire.zarr.cpp:158-176`, called repeatedly by the user. -/
def appends (env : Env) : List Bytes → SState → Res (SState × List Nat)
  | [], st => .ok (st, [])
  | d :: ds, st =>
    match append env (appendFuel d) d st with
    | none => .throw
    | some .throw => .throw
    | some .ub => .ub
    | some (.ok (st', n)) => do
      let (st'', ns) ← appends env ds st'
      pure (st'', n :: ns)

/-- A complete session: create, append buffers, destroy.
Models `src/streaming/acquire.zarr.cpp:134-176`, called by the user. -/
def runStream (w : World) (env : Env) (fuel : Nat) (s : Settings) (calls : List Bytes) :
    Option (Res (SState × List Nat × List Ev)) :=
  match createStream w env fuel (some s) with
  | none => none
  | some .throw => some .throw
  | some .ub => some .ub
  | some (.ok st) => some do
    let (st', ns) ← appends env calls st
    let tr ← destroyStream env st'
    pure (st', ns, tr)

/-- Contents of file `p` after a session: `create_store_` removes what lies under the store path exactly as
it is spelled in the settings (`src/streaming/zarr.stream.cpp:567-580`; a `file://` prefix is not removed
there), then the sinks act. -/
def fileInStore (w : World) (cfg : WConfig) (p : Text) (tr : List Ev) : Option Bytes :=
  let before := if (cfg.storePath ++ ['/']).isPrefixOf p then none else w.files p
  tr.foldl (stepFile p) before

end AZ
