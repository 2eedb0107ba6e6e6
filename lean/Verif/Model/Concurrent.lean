import Verif.Model.Stream
import Mathlib.Logic.Relation

/-!
# The stream with its worker threads

`Model.Stream` runs the jobs of a flush one after the other. Here the worker threads of the pool run them
(`src/streaming/thread.pool.cpp:20-95`): a *phase* is a list of jobs that the calling thread pushes and whose end it awaits at a
latch (`array.writer.cpp:345-392`, `zarrv2.array.writer.cpp:83-118`, `zarrv3.array.writer.cpp:91-146`,
`sink.creator.cpp:261-306, 324-355, 373-406`); between the phases the calling thread acts alone. A job releases the latch after its last
storage step. The history (`SState.trace`) is the order in which the storage steps really happen.

Simplifications: the jobs of a phase are queued before the first of them starts (a worker that starts earlier takes the same jobs
in the same order); a phase without jobs for the pool (an S3 bucket) is one of the schedules of the phase. The history kept by a
writer (`WState.trace`) stays the sequential one, only its length and its new part are used.
-/

namespace AZ

/-- The storage steps of the parallel write jobs of a flush: one job per chunk in V2
(`src/streaming/zarrv2.array.writer.cpp:93-110`), one per shard in V3 (`zarrv3.array.writer.cpp:99-141`). -/
def writeJobs (env : Env) (cfg : WConfig) (st : WState) : List (List Ev) :=
  match cfg.version with
  | .v2 => (st.dataSinks.zip st.bufs).map fun x => (chunkJob env x.1 x.2).1
  | .v3 => (List.range cfg.dims.numberOfShards).map fun i =>
      (shardJob env cfg.dims (st.dataSinks.getD i []) st.bufs (chunksInShard cfg.dims st.bufs.length i)
        (st.shardTables.getD i []) (st.shardOffsets.getD i 0)
        (st.finalizing || (match shouldRollover cfg st with | .ok b => b | _ => false))).trace

/-- The state in which the jobs of a flush are started: the sinks have been created if there were none
(`src/streaming/zarrv2.array.writer.cpp:78-81`, `zarrv3.array.writer.cpp:77-79`). -/
def jobsStart (env : Env) (cfg : WConfig) (st : WState) : Option WState :=
  match cfg.version with
  | .v2 => makeDataSinks env cfg st
  | .v3 => if st.dataSinks.isEmpty then makeDataSinks env cfg st else some st

namespace Conc

/-- Jobs that run in parallel, each given by its storage steps.
The jobs between the pushes and `latch.wait()`: `src/streaming/array.writer.cpp:349-392`,
sink.creator.cpp:258-308 and 319-408, zarrv2.array.writer.cpp:79-119, zarrv3.array.writer.cpp:90-150. -/
abbrev Phase := List (List Ev)

/-- The pool during a phase (`src/streaming/thread.pool.cpp:20-95`): the jobs in the queue, what each worker has left of the job it is
running (`[]`: idle), the storage steps performed so far. -/
structure PoolState where
  queue : List (List Ev)
  workers : List (List Ev)
  log : List Ev

/-- One step of one worker: an idle worker pops the first job of the queue (`src/streaming/thread.pool.cpp:60-95`), a busy one performs
the next storage step of its job. -/
inductive PoolStep : PoolState → PoolState → Prop where
  | pop {q r : List (List Ev)} {log : List Ev} {i : Nat} {j : List Ev} (h : r[i]? = some []) :
      PoolStep ⟨j :: q, r, log⟩ ⟨q, r.set i j, log⟩
  | act {q r : List (List Ev)} {log : List Ev} {i : Nat} {e : Ev} {l : List Ev} (h : r[i]? = some (e :: l)) :
      PoolStep ⟨q, r, log⟩ ⟨q, r.set i l, log ++ [e]⟩

/-- `w` is the order in which `n` workers may perform the steps of the jobs until the latch is released.
Models `src/streaming/thread.pool.cpp:28-40` and 60-96. -/
def PoolRun (n : Nat) (jobs : Phase) (w : List Ev) : Prop :=
  ∃ r, Relation.ReflTransGen PoolStep ⟨jobs, List.replicate n [], []⟩ ⟨[], r, w⟩ ∧ ∀ l ∈ r, l = []

/-- A schedule of all phases: the order of the steps of a phase, which may depend on everything that happened before.
Models `src/streaming/thread.pool.cpp:60-96`. -/
abbrev Sched := List Ev → Phase → List Ev

/-- A schedule `n` workers can perform. Models `src/streaming/thread.pool.cpp:5-14` and 60-96. -/
def Sched.By (n : Nat) (σ : Sched) : Prop := ∀ hist jobs, PoolRun n jobs (σ hist jobs)

/-- The phases one after the other.
Models `src/streaming/array.writer.cpp:395-440`, where each phase ends with `latch.wait()`. -/
def runPhases (σ : Sched) (hist : List Ev) : List Phase → List Ev
  | [] => []
  | ph :: phs => σ hist ph ++ runPhases σ (hist ++ σ hist ph) phs

/-- The phases of `ArrayWriter::flush_` (`src/streaming/array.writer.cpp:395-420`): the files are created in parallel
(`sink.creator.cpp:324-355`), then the chunks or shards are written in parallel, then the calling thread closes the files and writes
the array document. -/
def flushPhases (env : Env) (cfg : WConfig) (st : WState) : List Phase :=
  if st.bytesToFlush = 0 then [] else
  match jobsStart env cfg (compressBuffers env cfg st), flush env cfg st with
  | some st1, .ok st' =>
    [(st1.trace.drop st.trace.length).map fun e => [e],
     writeJobs env cfg st1,
     [st'.trace.drop (st1.trace.length + (writeJobs env cfg st1).flatten.length)]]
  | _, _ => []

/-- The phases of `ArrayWriter::write_frame` (`src/streaming/array.writer.cpp:99-133`): those of the flush, if there is one. -/
def framePhases (env : Env) (cfg : WConfig) (data : Bytes) (st : WState) : List Phase :=
  if bytesOfFrame cfg.dims ≠ data.length then [] else
  let s0 := if st.bufs.isEmpty then { st with bufs := makeBuffers cfg.dims } else st
  match writeFrameToChunks cfg.dims s0.framesWritten data s0.bufs with
  | .ok r =>
    let s1 := { s0 with
      bufs := r.1
      bytesToFlush := u64 (s0.bytesToFlush + r.2)
      framesWritten := u32 (s0.framesWritten + 1) }
    match shouldFlush cfg.dims s1 with
    | .ok true => flushPhases env cfg s1
    | _ => []
  | _ => []

/-- The phases of `finalize_array` (`src/streaming/array.writer.cpp:442-465`): those of the flush; then the calling thread closes the
array document and destroys the sinks that are still open. -/
def finalPhases (env : Env) (cfg : WConfig) (st : WState) : List Phase :=
  match flush env cfg { st with finalizing := true }, finalizeArray env cfg st with
  | .ok s1, .ok st' => flushPhases env cfg { st with finalizing := true } ++ [[st'.trace.drop s1.trace.length]]
  | _, _ => []

/-- `writers_[i]->write_frame(data)` after the history `hist` (`src/streaming/array.writer.cpp:99-133`). -/
def writerStep (σ : Sched) (env : Env) (hist : List Ev) (lv : Level) (data : Bytes) : Res (Level × Nat × List Ev × List Text) := do
  let (lv', n, _, errs) ← AZ.writerStep env lv data
  pure (lv', n, runPhases σ hist (framePhases env lv.cfg data lv.st), errs)

/-- The level loop of `write_multiscale_frames_` (`src/streaming/zarr.stream.cpp:928-958`). -/
def pyramidLoop (σ : Sched) (env : Env) (t : DType) : List Ev → List Level → Bytes → Nat → Nat → Res (List Level × List Ev × List Text)
  | _, [], _, _, _ => .ok ([], [], [])
  | hist, lv :: rest, data, w, h => do
    let s ← scaleImage t data w h
    match lv.saved with
    | none => pure ({ lv with saved := some s.px } :: rest, [], [])
    | some px =>
      let avg := averageFrames t s.px px
      let (lv', n, evs, errs) ← writerStep σ env hist { lv with saved := none } avg
      check (n != 0)
      let (rest', evs', errs') ← pyramidLoop σ env t (hist ++ evs) rest avg s.w s.h
      pure (lv' :: rest', evs ++ evs', errs ++ errs')

/-- `write_multiscale_frames_` (`src/streaming/zarr.stream.cpp:869-959`). -/
def writeMultiscale (σ : Sched) (env : Env) (st : SState) (data : Bytes) : Res SState :=
  if !st.multiscale then .ok st else
  match st.levels with
  | [] => .ok st
  | l0 :: rest => do
    let (rest', evs, errs) ← pyramidLoop σ env st.cfg.dims.dtype st.trace rest data st.cfg.dims.width.arraySize
      st.cfg.dims.height.arraySize
    pure { st with
      levels := l0 :: rest'
      trace := st.trace ++ evs
      error := setErrors st.error errs }

/-- `writers_[0]->write_frame(data)` (`src/streaming/zarr.stream.cpp:449-450, 465-466`). -/
def writeLevel0 (σ : Sched) (env : Env) (st : SState) (data : Bytes) : Res (SState × Nat) :=
  match st.levels with
  | [] => .ub
  | l0 :: rest => do
    let (l0', n, evs, errs) ← writerStep σ env st.trace l0 data
    pure ({ st with
      levels := l0' :: rest
      trace := st.trace ++ evs
      error := setErrors st.error errs }, n)

/-- The loop of `ZarrStream::append` (`src/streaming/zarr.stream.cpp:433-473`), as in `Model.Stream`. -/
def appendLoop (σ : Sched) (env : Env) (data : Bytes) : Nat → (ptr bw : Nat) → SState → Option (Res (SState × Nat))
  | fuel, ptr, bw, st =>
    if bw ≥ data.length then some (.ok (st, bw)) else
    match fuel with
    | 0 => none
    | fuel + 1 =>
      let frameSize := st.buf.length
      let remaining := data.length - bw
      if st.offset > 0 then
        let n := min (frameSize - st.offset) remaining
        if ptr + bw + n > data.length then some .ub else
        let buf := pwrite st.buf st.offset (slice data (ptr + bw) n)
        let st1 := { st with buf := buf, offset := st.offset + n }
        if st1.offset = frameSize then
          if ptr + frameSize > data.length then some .ub else
          match writeLevel0 σ env st1 (slice data ptr frameSize) with
          | .throw => some .throw
          | .ub => some .ub
          | .ok (st2, k) =>
            if k = 0 then some (.ok (st2, bw + n))
            else appendLoop σ env data fuel (ptr + n) (bw + n + n) { st2 with offset := 0 }
        else appendLoop σ env data fuel ptr (bw + n) st1
      else if remaining < frameSize then
        if ptr + remaining > data.length then some .ub else
        appendLoop σ env data fuel ptr (bw + remaining)
          { st with buf := pwrite st.buf 0 (slice data ptr remaining), offset := remaining }
      else
        if ptr + frameSize > data.length then some .ub else
        match writeLevel0 σ env st (slice data ptr frameSize) with
        | .throw => some .throw
        | .ub => some .ub
        | .ok (st2, k) =>
          if k = 0 then some (.ok (st2, bw))
          else
            match writeMultiscale σ env st2 (slice data ptr frameSize) with
            | .throw => some .throw
            | .ub => some .ub
            | .ok st3 => appendLoop σ env data fuel (ptr + k) (bw + k) st3

/-- `ZarrStream::append` (`src/streaming/zarr.stream.cpp:419-476`). -/
def append (σ : Sched) (env : Env) (fuel : Nat) (data : Bytes) (st : SState) : Option (Res (SState × Nat)) :=
  if !st.error.isEmpty then some .throw
  else appendLoop σ env data fuel 0 0 st

/-- A sequence of append calls, all of which succeed; the list of their `bytes_out`.
Models `src/streaming/acquire.zarr.cpp:158-176`, called repeatedly by the user. -/
def appends (σ : Sched) (env : Env) : List Bytes → SState → Res (SState × List Nat)
  | [], st => .ok (st, [])
  | d :: ds, st =>
    match append σ env (appendFuel d) d st with
    | none => .throw
    | some .throw => .throw
    | some .ub => .ub
    | some (.ok (st', n)) => do
      let (st'', ns) ← appends σ env ds st'
      pure (st'', n :: ns)

/-- The constructor (`src/streaming/zarr.stream.cpp:376-417`): the files of the root documents are created in parallel
(`sink.creator.cpp:373-406`), then the calling thread writes them. -/
def createStream (σ : Sched) (w : World) (env : Env) (fuel : Nat) (s : Option Settings) : Option (Res SState) :=
  match AZ.createStream w env fuel s with
  | some (.ok st) =>
    let n := (metaKeys st.cfg.version).length
    some (.ok { st with trace := σ [] ((st.trace.take n).map fun e => [e]) ++ st.trace.drop n })
  | r => r

/-- The array loop of `finalize_stream` (`src/streaming/zarr.stream.cpp:983-989`). -/
def finalizeLevels (σ : Sched) (env : Env) : List Ev → List Level → Res (List Ev)
  | _, [] => .ok []
  | hist, lv :: rest => do
    let _ ← finalizeArray env lv.cfg lv.st
    let e := runPhases σ hist (finalPhases env lv.cfg lv.st)
    let evs ← finalizeLevels σ env (hist ++ e) rest
    pure (e ++ evs)

/-- `finalize_stream` (`src/streaming/zarr.stream.cpp:961-1000`). The root documents are closed in the order of an unordered map: like
jobs of one step each. -/
def destroyStream (σ : Sched) (env : Env) (st : SState) : Res (List Ev) := do
  let group := groupDoc st.cfg st.levels.length
  let e1 ← writeDoc env (metaSinkPath st.cfg group.1) (utf8 (group.2.dump 0))
  let e2 ← finalizeSinks env ((metaKeys st.cfg.version).map (metaSinkPath st.cfg))
  let h := st.trace ++ e1 ++ σ (st.trace ++ e1) (e2.map fun e => [e])
  let e3 ← finalizeLevels σ env h st.levels
  pure (h ++ e3)

/-- A complete session: create, append buffers, destroy.
Models `src/streaming/acquire.zarr.cpp:134-176`, called by the user. -/
def runStream (σ : Sched) (w : World) (env : Env) (fuel : Nat) (s : Settings) (calls : List Bytes) :
    Option (Res (SState × List Nat × List Ev)) :=
  match createStream σ w env fuel (some s) with
  | none => none
  | some .throw => some .throw
  | some .ub => some .ub
  | some (.ok st) => some do
    let (st', ns) ← appends σ env calls st
    let tr ← destroyStream σ env st'
    pure (st', ns, tr)

end Conc
end AZ
