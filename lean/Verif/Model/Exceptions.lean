import Verif.Model.Stream

/-!
# What an exception leaves behind

`ZarrStream_append` turns an exception into the status `ZarrStatusCode_InternalError`
(`src/streaming/acquire.zarr.cpp:169-175`); the stream stays allocated and may be used again. The definitions of
`Model.Writer` and `Model.Stream` say when the code throws and what it does otherwise; here every function also says in
which state the object is left by the exception. The storage may behave differently in every call of the API, so each call has its
own `Env`.
-/

namespace AZ
namespace Exc

/-- Result of a member function: it returns, it throws (the object keeps the state reached), or undefined behaviour.
Auxiliary: how a member function of `src/streaming/zarr.stream.cpp` or array.writer.cpp ends. -/
inductive Out (σ α : Type) where
  | ok (a : α) (s : σ)
  | throw (s : σ)
  | ub
  deriving Repr, DecidableEq

/-- The state an exception leaves, given the normal outcome.
Auxiliary, as `Out`: `src/streaming/zarr.stream.cpp:419-476`. -/
def Out.of {σ : Type} (r : Res σ) (onThrow : σ) : Out σ Unit :=
  match r with
  | .ok s => .ok () s
  | .throw => .throw onThrow
  | .ub => .ub

/-- An array writer with `nulls`, the number of elements at the front of `data_sinks_` that are null: after
`finalize_sink` failed for an element, the elements before it have been destroyed but are still in the vector
(`src/streaming/array.writer.cpp:422-431`, `sink.cpp:5-17`). -/
structure XW where
  st : WState
  nulls : Nat
  deriving Repr, DecidableEq

/-- `flush_impl_` (`src/streaming/zarrv2.array.writer.cpp:75-119`, `zarrv3.array.writer.cpp:74-158`) with the enclosing
`CHECK`. If the sinks cannot be created (their directories cannot, `sink.creator.cpp:76-83`) `data_sinks_` stays empty; a
later failure leaves the new sinks open. The version 3 jobs dereference the sinks: a null sink is undefined behaviour.
Simplification: every shard is taken to have a chunk. -/
def flushImpl (env : Env) (cfg : WConfig) (w : XW) : Out XW Unit :=
  match cfg.version with
  | .v2 => Out.of ((flushImplV2 env cfg w.st).bind fun s => .ok ⟨s, 0⟩)
      (if !w.st.dataSinks.isEmpty then w else
        match makeDataSinks env cfg w.st with
        | none => w
        | some s => ⟨s, 0⟩)
  | .v3 =>
    if w.nulls > 0 then .ub else
    Out.of ((flushImplV3 env cfg w.st).bind fun s => .ok ⟨s, 0⟩)
      (if !w.st.dataSinks.isEmpty then w else
        match makeDataSinks env cfg w.st with
        | none => w
        | some s => ⟨s, 0⟩)

/-- `rollover_` (`src/streaming/array.writer.cpp:422-440`): the sinks before the first that cannot be finalized are
finalized and destroyed, the vector keeps its length and the append index its value. -/
def rolloverX (env : Env) (w : XW) : Out XW Unit :=
  let done := w.st.dataSinks.takeWhile env.finalize
  Out.of ((rollover env w.st).bind fun s => .ok ⟨s, 0⟩)
    ⟨{ w.st with trace := w.st.trace ++ done.map Ev.finalized }, done.length⟩

/-- `write_array_metadata_` (`src/streaming/array.writer.cpp:189-227, 411-413`): if it throws after the metadata sink was
created, the sink stays. -/
def writeArrayMetadataX (env : Env) (cfg : WConfig) (w : XW) : Out XW Unit :=
  let p := arrayMetaPath cfg
  Out.of ((writeArrayMetadata env cfg w.st).bind fun s => .ok { w with st := s })
    (if !w.st.metaSink && env.makeMetaSink p then
      { w with st := { w.st with metaSink := true, trace := w.st.trace ++ [.opened p] } }
    else w)

/-- Sequencing: the second step runs if the first returned.
Auxiliary: `;` in `src/streaming/zarr.stream.cpp` and array.writer.cpp. -/
def Out.bind {σ α β : Type} (o : Out σ α) (f : α → σ → Out σ β) : Out σ β :=
  match o with
  | .ok a s => f a s
  | .throw s => .throw s
  | .ub => .ub

/-- `flush_` (`src/streaming/array.writer.cpp:395-420`): after an exception the chunk buffers keep what they hold, that is
the compressed chunks if compression is on, and `bytes_to_flush_` its value. -/
def flushX (env : Env) (cfg : WConfig) (w : XW) : Out XW Unit :=
  if w.st.bytesToFlush = 0 then .ok () w else
  let w := { w with st := compressBuffers env cfg w.st }
  (flushImpl env cfg w).bind fun _ w =>
  match shouldRollover cfg w.st with
  | .throw => .throw w
  | .ub => .ub
  | .ok roll =>
    (if roll then rolloverX env w else .ok () w).bind fun _ w =>
    (if roll || w.st.finalizing then writeArrayMetadataX env cfg w else .ok () w).bind fun _ w =>
    .ok () { w with st := { w.st with bufs := makeBuffers cfg.dims, bytesToFlush := 0 } }

/-- `write_frame` (`src/streaming/array.writer.cpp:99-133`): the frame counts as written before the flush is attempted. -/
def writeFrameX (env : Env) (cfg : WConfig) (data : Bytes) (w : XW) : Out XW Nat :=
  if bytesOfFrame cfg.dims ≠ data.length then .ok 0 w else
  let st := if w.st.bufs.isEmpty then { w.st with bufs := makeBuffers cfg.dims } else w.st
  match writeFrameToChunks cfg.dims st.framesWritten data st.bufs with
  | .throw => .throw { w with st := st }
  | .ub => .ub
  | .ok (bufs, n) =>
    if n ≠ data.length then .throw { w with st := { st with bufs := bufs } } else
    let st := { st with bufs := bufs, bytesToFlush := u64 (st.bytesToFlush + n),
                        framesWritten := u32 (st.framesWritten + 1) }
    match shouldFlush cfg.dims st with
    | .throw => .throw { w with st := st }
    | .ub => .ub
    | .ok fl =>
      (if fl then flushX env cfg { w with st := st } else .ok () { w with st := st }).bind fun _ w => .ok n w

/-- `finalize_array` (`src/streaming/array.writer.cpp:442-465`); `throw` stands for the result `false`. -/
def finalizeArrayX (env : Env) (cfg : WConfig) (w : XW) : Out XW Unit :=
  (flushX env cfg { w with st := { w.st with finalizing := true } }).bind fun _ w =>
  let p := arrayMetaPath cfg
  let fin := fun (w : XW) =>
    Out.ok () (⟨{ w.st with trace := w.st.trace ++ (w.st.dataSinks.drop w.nulls).map Ev.dropped, dataSinks := [] }, 0⟩ : XW)
  if w.st.metaSink then
    if env.finalize p then fin { w with st := { w.st with metaSink := false, trace := w.st.trace ++ [.finalized p] } }
    else .throw w
  else fin w

/-! ### The stream -/

/-- One element of `writers_` with its `scaled_frames_` slot (`src/streaming/zarr.stream.hh:57-66`). -/
structure XLevel where
  cfg : WConfig
  w : XW
  saved : Option (List Nat)
  deriving Repr, DecidableEq

/-- `ZarrStream_s` (`src/streaming/zarr.stream.hh:38-66`), see `SState`. -/
structure XStream where
  cfg : WConfig
  levels : List XLevel
  multiscale : Bool
  buf : Bytes
  offset : Nat
  error : Text
  trace : List Ev
  deriving Repr, DecidableEq

/-- Storage events and error messages a writer call added.
Models `src/streaming/array.writer.cpp:99-133` and 442-465. -/
def newEvents (w w' : XW) : List Ev := w'.st.trace.drop w.st.trace.length

/-- Error messages the jobs of a writer call produced.
Models `src/streaming/array.writer.cpp:99-133` and 442-465. -/
def newErrors (w w' : XW) : List Text := w'.st.errors.drop w.st.errors.length

/-- What the pyramid levels did: their new states, the events and the messages.
Models `src/streaming/zarr.stream.cpp:869-959`. -/
structure XPyramid where
  levels : List XLevel
  events : List Ev
  errors : List Text

/-- The level loop of `write_multiscale_frames_` (`src/streaming/zarr.stream.cpp:928-958`). If `write_frame` throws or
returns 0 the saved frame of the level stays, and with it the state of the levels below. -/
def pyramidLoopX (env : Env) (t : DType) : List XLevel → Bytes → Nat → Nat → Out XPyramid Unit
  | [], _, _, _ => .ok () ⟨[], [], []⟩
  | lv :: rest, data, w, h =>
    match scaleImage t data w h with
    | .throw => .throw ⟨lv :: rest, [], []⟩
    | .ub => .ub
    | .ok s =>
      match lv.saved with
      | none => .ok () ⟨{ lv with saved := some s.px } :: rest, [], []⟩
      | some px =>
        let avg := averageFrames t s.px px
        match writeFrameX env lv.cfg avg lv.w with
        | .ub => .ub
        | .throw w' => .throw ⟨{ lv with w := w' } :: rest, newEvents lv.w w', newErrors lv.w w'⟩
        | .ok n w' =>
          if n = 0 then .throw ⟨{ lv with w := w' } :: rest, newEvents lv.w w', newErrors lv.w w'⟩ else
          match pyramidLoopX env t rest avg s.w s.h with
          | .ub => .ub
          | .throw p => .throw ⟨{ lv with w := w', saved := none } :: p.levels, newEvents lv.w w' ++ p.events,
              newErrors lv.w w' ++ p.errors⟩
          | .ok _ p => .ok () ⟨{ lv with w := w', saved := none } :: p.levels, newEvents lv.w w' ++ p.events,
              newErrors lv.w w' ++ p.errors⟩

/-- The stream after the pyramid levels did `p`. Models `src/streaming/zarr.stream.cpp:869-959`. -/
def XStream.afterPyramid (st : XStream) (l0 : XLevel) (p : XPyramid) : XStream :=
  { st with levels := l0 :: p.levels, trace := st.trace ++ p.events, error := setErrors st.error p.errors }

/-- `write_multiscale_frames_` (`src/streaming/zarr.stream.cpp:869-959`) for the levels below the first. -/
def writeMultiscaleX (env : Env) (st : XStream) (data : Bytes) : Out XStream Unit :=
  if !st.multiscale then .ok () st else
  match st.levels with
  | [] => .ok () st
  | l0 :: rest =>
    match pyramidLoopX env st.cfg.dims.dtype rest data st.cfg.dims.width.arraySize st.cfg.dims.height.arraySize with
    | .ub => .ub
    | .throw p => .throw (st.afterPyramid l0 p)
    | .ok _ p => .ok () (st.afterPyramid l0 p)

/-- The stream after the writer of level 0 went from `l0.w` to `w`.
Models `src/streaming/zarr.stream.cpp:419-476`. -/
def XStream.afterLevel0 (st : XStream) (l0 : XLevel) (rest : List XLevel) (w : XW) : XStream :=
  { st with levels := { l0 with w := w } :: rest, trace := st.trace ++ newEvents l0.w w,
            error := setErrors st.error (newErrors l0.w w) }

/-- `writers_[0]->write_frame(data)` (`src/streaming/zarr.stream.cpp:449-450, 465-466`). -/
def writeLevel0X (env : Env) (st : XStream) (data : Bytes) : Out XStream Nat :=
  match st.levels with
  | [] => .ub
  | l0 :: rest =>
    match writeFrameX env l0.cfg data l0.w with
    | .ub => .ub
    | .throw w => .throw (st.afterLevel0 l0 rest w)
    | .ok n w => .ok n (st.afterLevel0 l0 rest w)

/-- The loop of `ZarrStream::append` (`src/streaming/zarr.stream.cpp:433-473`), see `appendLoop`. An exception leaves the
partial frame in the frame buffer. -/
def appendLoopX (env : Env) (data : Bytes) : Nat → (ptr bw : Nat) → XStream → Option (Out XStream Nat)
  | fuel, ptr, bw, st =>
    if bw ≥ data.length then some (.ok bw st) else
    match fuel with
    | 0 => none
    | fuel + 1 =>
      let frameSize := st.buf.length
      let remaining := data.length - bw
      if st.offset > 0 then
        let n := min (frameSize - st.offset) remaining
        if ptr + bw + n > data.length then some .ub else
        let buf := pwrite st.buf st.offset (slice data (ptr + bw) n)
        let st1 := { st with buf := buf, offset := st.offset + n }
        if st1.offset = frameSize then
          if ptr + frameSize > data.length then some .ub else
          match writeLevel0X env st1 (slice data ptr frameSize) with
          | .throw s => some (.throw s)
          | .ub => some .ub
          | .ok k st2 =>
            if k = 0 then some (.ok (bw + n) st2)
            else appendLoopX env data fuel (ptr + n) (bw + n + n) { st2 with offset := 0 }
        else appendLoopX env data fuel ptr (bw + n) st1
      else if remaining < frameSize then
        if ptr + remaining > data.length then some .ub else
        appendLoopX env data fuel ptr (bw + remaining)
          { st with buf := pwrite st.buf 0 (slice data ptr remaining), offset := remaining }
      else
        if ptr + frameSize > data.length then some .ub else
        match writeLevel0X env st (slice data ptr frameSize) with
        | .throw s => some (.throw s)
        | .ub => some .ub
        | .ok k st2 =>
          if k = 0 then some (.ok bw st2)
          else
            match writeMultiscaleX env st2 (slice data ptr frameSize) with
            | .throw s => some (.throw s)
            | .ub => some .ub
            | .ok _ st3 => appendLoopX env data fuel (ptr + k) (bw + k) st3

/-- `ZarrStream::append` (`src/streaming/zarr.stream.cpp:419-476`). -/
def appendX (env : Env) (data : Bytes) (st : XStream) : Option (Out XStream Nat) :=
  if !st.error.isEmpty then some (.throw st)
  else appendLoopX env data (appendFuel data) 0 0 st

/-- What the caller of `ZarrStream_append` sees (`src/streaming/acquire.zarr.cpp:160-176`): `some n`: success and
`bytes_out = n`; `none`: an error status. -/
abbrev Status := Option Nat

/-- A sequence of `ZarrStream_append` calls, each with the storage it meets; the calls go on after an error status. `none`:
undefined behaviour (or a call that does not return).
Models `src/streaming/acquire.zarr.cpp:158-176`, called repeatedly by the user. -/
def callsX : List (Env × Bytes) → XStream → Option (XStream × List Status)
  | [], st => some (st, [])
  | (env, d) :: cs, st =>
    match appendX env d st with
    | none => none
    | some .ub => none
    | some (.throw s) => (callsX cs s).map fun (s', rs) => (s', none :: rs)
    | some (.ok n s) => (callsX cs s).map fun (s', rs) => (s', some n :: rs)

/-- The array loop of `finalize_stream` (`src/streaming/zarr.stream.cpp:983-989`): stops at the first failure. The events,
and whether all arrays were closed; `none`: undefined behaviour. -/
def finalizeLevelsX (env : Env) : List XLevel → Option (List Ev × Bool)
  | [] => some ([], true)
  | lv :: rest =>
    match finalizeArrayX env lv.cfg lv.w with
    | .ub => none
    | .throw w => some (newEvents lv.w w, false)
    | .ok _ w => (finalizeLevelsX env rest).map fun (evs, b) => (newEvents lv.w w ++ evs, b)

/-- `finalize_stream` (`src/streaming/zarr.stream.cpp:961-1000`), first call: the complete history and whether it returned
true. -/
def destroyX (env : Env) (st : XStream) : Option (List Ev × Bool) :=
  let group := groupDoc st.cfg st.levels.length
  match writeDoc env (metaSinkPath st.cfg group.1) (utf8 (group.2.dump 0)) with
  | .ub => none
  | .throw => some (st.trace, false)
  | .ok e1 =>
    let sinks := (metaKeys st.cfg.version).map (metaSinkPath st.cfg)
    match finalizeSinks env sinks with
    | .ub => none
    | .throw => some (st.trace ++ e1 ++ (sinks.takeWhile env.finalize).map Ev.finalized, false)
    | .ok e2 => (finalizeLevelsX env st.levels).map fun (e3, b) => (st.trace ++ e1 ++ e2 ++ e3, b)

/-- A stream that has not met an exception yet. Models `src/streaming/zarr.stream.cpp:376-417`. -/
def XStream.of (s : SState) : XStream :=
  ⟨s.cfg, s.levels.map fun l => ⟨l.cfg, ⟨l.st, 0⟩, l.saved⟩, s.multiscale, s.buf, s.offset, s.error, s.trace⟩

end Exc
end AZ
