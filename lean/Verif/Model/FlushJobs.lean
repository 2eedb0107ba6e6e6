import Verif.Model.Reporting
import Verif.Model.Concurrent

/-!
# The jobs an array writer gives to the pool

Which jobs the flushes of an array writer start, with the chunk buffers each of them accesses and the message with which it
fails, computed from the sequential model of the writer (`Model.Writer`): the programs that `Model.Reporting` runs under a
schedule. Not modelled: the jobs that create files and directories (`Model.Creation`).
-/

namespace AZ.Reporting

/-- The jobs of `ArrayWriter::compress_buffers_`, one per chunk buffer (`src/streaming/array.writer.cpp:339-393`). -/
def compressBatches (env : Env) (cfg : WConfig) (st : WState) : List (List Job) :=
  match cfg.compression with
  | none => []
  | some p => [(List.range st.bufs.length).map fun i =>
      ⟨[i], (compressJob env p cfg.dims.dtype.bytes (st.bufs.getD i [])).2.head?⟩]

/-- `write_table` (`src/streaming/zarrv3.array.writer.cpp:92`). -/
def tableDue (cfg : WConfig) (st : WState) : Bool :=
  st.finalizing || (match shouldRollover cfg st with | .ok b => b | _ => false)

/-- The write jobs of `flush_impl_`, started in state `st`: version 2, one per chunk, with the buffer of that chunk
(`src/streaming/zarrv2.array.writer.cpp:83-115`); version 3, one per shard, with the buffers of the chunks of that shard
(`src/streaming/zarrv3.array.writer.cpp:84-150`). -/
def writeBatch (env : Env) (cfg : WConfig) (st : WState) : List Job :=
  match cfg.version with
  | .v2 => (List.range st.bufs.length).map fun i =>
      ⟨[i], (chunkJob env (st.dataSinks.getD i []) (st.bufs.getD i [])).2.head?⟩
  | .v3 => (List.range cfg.dims.numberOfShards).map fun i =>
      let chunks := chunksInShard cfg.dims st.bufs.length i
      let j := shardJob env cfg.dims (st.dataSinks.getD i []) st.bufs chunks (st.shardTables.getD i [])
        (st.shardOffsets.getD i 0) (tableDue cfg st)
      ⟨chunks, if j.success then none else some j.err⟩

/-- The batches of `ArrayWriter::flush_` (`src/streaming/array.writer.cpp:395-420`). -/
def flushBatches (env : Env) (cfg : WConfig) (st : WState) : List (List Job) :=
  if st.bytesToFlush = 0 then [] else
  compressBatches env cfg st ++
    match jobsStart env cfg (compressBuffers env cfg st) with
    | some st1 => [writeBatch env cfg st1]
    | none => []

/-- The batches of `ArrayWriter::write_frame` (`src/streaming/array.writer.cpp:99-133`): those of the flush, if there is one. -/
def frameBatches (env : Env) (cfg : WConfig) (data : Bytes) (st : WState) : List (List Job) :=
  if bytesOfFrame cfg.dims ≠ data.length then [] else
  let s0 := if st.bufs.isEmpty then { st with bufs := makeBuffers cfg.dims } else st
  match writeFrameToChunks cfg.dims s0.framesWritten data s0.bufs with
  | .ok r =>
    let s1 := { s0 with
      bufs := r.1
      bytesToFlush := u64 (s0.bytesToFlush + r.2)
      framesWritten := u32 (s0.framesWritten + 1) }
    match shouldFlush cfg.dims s1 with
    | .ok true => flushBatches env cfg s1
    | _ => []
  | _ => []

/-- The batches of the `write_frame` calls of one append call with the given frames
(`src/streaming/zarr.stream.cpp:419-476`). -/
def callBatches (env : Env) (cfg : WConfig) : List Bytes → WState → List (List Job)
  | [], _ => []
  | f :: fs, st => frameBatches env cfg f st ++
    match writeFrame env cfg f st with
    | .ok (st', _) => callBatches env cfg fs st'
    | _ => []

/-- The batches of a sequence of append calls, each with the frames it completes, none of them refused.
Models `src/streaming/zarr.stream.cpp:419-476`. -/
def program (env : Env) (cfg : WConfig) : List (List Bytes) → WState → List (List (List Job))
  | [], _ => []
  | c :: cs, st => callBatches env cfg c st ::
    match writeFrames env cfg c st with
    | .ok st' => program env cfg cs st'
    | _ => cs.map fun _ => []

/-- The batches of the level loop of `write_multiscale_frames_` (`src/streaming/zarr.stream.cpp:928-958`). -/
def pyramidBatches (env : Env) (t : DType) : List Level → Bytes → Nat → Nat → List (List Job)
  | [], _, _, _ => []
  | lv :: rest, data, w, h =>
    match scaleImage t data w h, lv.saved with
    | .ok s, some px =>
      let avg := averageFrames t s.px px
      frameBatches env lv.cfg avg lv.st ++
        match writerStep env { lv with saved := none } avg with
        | .ok (_, n, _) => if n = 0 then [] else pyramidBatches env t rest avg s.w s.h
        | _ => []
    | _, _ => []

/-- The batches of `write_multiscale_frames_` (`src/streaming/zarr.stream.cpp:869-959`). -/
def multiscaleBatches (env : Env) (st : SState) (data : Bytes) : List (List Job) :=
  if !st.multiscale then [] else
  match st.levels with
  | [] => []
  | _ :: rest => pyramidBatches env st.cfg.dims.dtype rest data st.cfg.dims.width.arraySize st.cfg.dims.height.arraySize

/-- The batches of `writers_[0]->write_frame(data)` (`src/streaming/zarr.stream.cpp:449-450, 465-466`). -/
def level0Batches (env : Env) (st : SState) (data : Bytes) : List (List Job) :=
  match st.levels with
  | [] => []
  | l0 :: _ => frameBatches env l0.cfg data l0.st

/-- The batches of the loop of `ZarrStream::append` (`src/streaming/zarr.stream.cpp:433-473`), which is `appendLoop` of
`Model.Stream`. -/
def appendBatches (env : Env) (data : Bytes) : Nat → (ptr bw : Nat) → SState → List (List Job)
  | 0, _, _, _ => []
  | fuel + 1, ptr, bw, st =>
    if bw ≥ data.length then [] else
    let frameSize := st.buf.length
    let remaining := data.length - bw
    if st.offset > 0 then
      let n := min (frameSize - st.offset) remaining
      if ptr + bw + n > data.length then [] else
      let st1 := { st with
        buf := pwrite st.buf st.offset (slice data (ptr + bw) n)
        offset := st.offset + n }
      if st1.offset = frameSize then
        if ptr + frameSize > data.length then [] else
        level0Batches env st1 (slice data ptr frameSize) ++
          match writeLevel0 env st1 (slice data ptr frameSize) with
          | .ok (st2, k) => if k = 0 then [] else appendBatches env data fuel (ptr + n) (bw + n + n) { st2 with offset := 0 }
          | _ => []
      else appendBatches env data fuel ptr (bw + n) st1
    else if remaining < frameSize then
      if ptr + remaining > data.length then [] else
      appendBatches env data fuel ptr (bw + remaining) { st with
        buf := pwrite st.buf 0 (slice data ptr remaining)
        offset := remaining }
    else
      if ptr + frameSize > data.length then [] else
      level0Batches env st (slice data ptr frameSize) ++
        match writeLevel0 env st (slice data ptr frameSize) with
        | .ok (st2, k) =>
          if k = 0 then [] else
          multiscaleBatches env st2 (slice data ptr frameSize) ++
            match writeMultiscale env st2 (slice data ptr frameSize) with
            | .ok st3 => appendBatches env data fuel (ptr + k) (bw + k) st3
            | _ => []
        | _ => []

/-- The batches of a sequence of append calls none of which is refused (`src/streaming/zarr.stream.cpp:419-476`). After an exception
or undefined behaviour in a call the further calls have none: a simplification. -/
def streamProgram (env : Env) : List Bytes → SState → List (List (List Job))
  | [], _ => []
  | d :: ds, st => appendBatches env d (appendFuel d) 0 0 st ::
    match appendLoop env d (appendFuel d) 0 0 st with
    | some (.ok (st', _)) => streamProgram env ds st'
    | _ => ds.map fun _ => []

/-- The calls of `streamProgram`, all of them accepted and completed: the state they leave.
Models `src/streaming/zarr.stream.cpp:419-476`, without the test of `error_`. -/
def acceptedCalls (env : Env) : List Bytes → SState → Option SState
  | [], st => some st
  | d :: ds, st =>
    match appendLoop env d (appendFuel d) 0 0 st with
    | some (.ok (st', _)) => acceptedCalls env ds st'
    | _ => none

end AZ.Reporting
