import Verif.Model.Frame
import Verif.Model.Paths

/-!
# The array writer

Models `ArrayWriter` (`src/streaming/array.writer.cpp:79-465`), `ZarrV2ArrayWriter`
(`src/streaming/zarrv2.array.writer.cpp:75-183`) and `ZarrV3ArrayWriter`
(`src/streaming/zarrv3.array.writer.cpp:55-254`).

Simplifications: the jobs pushed to the thread pool run in queue order (`Props.Schedule` proves that the
order is irrelevant); a thrown exception discards the writer state (the caller sees the failure);
pushing to the pool does not fail (the pool accepts jobs until `finalize_stream` stops it, after the
arrays are closed, `zarr.stream.cpp:983-991`).
-/

namespace AZ

/-- What a sink's `write` did: stored the bytes and returned true; returned true without storing them
(`FileSink::write` ignores stream errors, `src/streaming/file.sink.cpp:13-23`); returned false; threw. -/
inductive WriteOut where
  | stored | silent | failed | threw
  deriving Repr, DecidableEq

/-- The environment of a writer: Blosc (`none` = negative return value, after which `tmp.resize` throws,
`array.writer.cpp:362-374`), creation of the data sinks under a root and of the metadata sink, and the
outcome of writes and of `finalize_sink`. -/
structure Env where
  compress : BloscParams → Nat → Bytes → Option Bytes
  makeSinks : Text → Bool
  makeMetaSink : Text → Bool
  write : Text → Nat → Bytes → WriteOut
  finalize : Text → Bool

/-- Externally visible storage events, in program order. `opened`: a sink object is constructed (a file is
created/truncated); `wrote`: bytes handed to the sink at an offset; `finalized`: `finalize_sink`
succeeded (flushed, destroyed); `dropped`: destroyed without `finalize_sink`.
Models `src/streaming/sink.hh`, file.sink.cpp:1-30, s3.sink.cpp:10-203. -/
inductive Ev where
  | opened (p : Text)
  | wrote (p : Text) (off : Nat) (data : Bytes)
  | finalized (p : Text)
  | dropped (p : Text)
  deriving Repr, DecidableEq

/-- Members of `ArrayWriter` / `ZarrV3ArrayWriter` (`src/streaming/array.writer.hh:62-84`,
`zarrv3.array.writer.hh:24-26`). `errors` is the sequence of messages passed to the pool's error
handler; `trace` the history of storage events. -/
structure WState where
  bufs : List Bytes
  bytesToFlush : Nat
  framesWritten : Nat
  appendIdx : Nat
  finalizing : Bool
  dataSinks : List Text
  metaSink : Bool
  shardOffsets : List Nat
  shardTables : List (List Nat)
  trace : List Ev
  errors : List Text
  deriving Repr, DecidableEq

/-- `std::numeric_limits<uint64_t>::max()`. Models `src/streaming/zarrv3.array.writer.cpp:67-71`. -/
def u64Max : Nat := 2 ^ 64 - 1

/-- A table with all entries missing (`src/streaming/zarrv3.array.writer.cpp:67-71, 147-150`);
`2 * chunks_per_shard` is evaluated in `uint32_t`. -/
def emptyTable (D : ArrayDims) : List Nat := List.replicate (u32 (2 * D.chunksPerShard)) u64Max

/-- Constructors `ArrayWriter::ArrayWriter` (`src/streaming/array.writer.cpp:86-97`) and
`ZarrV3ArrayWriter::ZarrV3ArrayWriter` (`src/streaming/zarrv3.array.writer.cpp:55-72`). -/
def WState.init (cfg : WConfig) : WState where
  bufs := []
  bytesToFlush := 0
  framesWritten := 0
  appendIdx := 0
  finalizing := false
  dataSinks := []
  metaSink := false
  shardOffsets := match cfg.version with
    | .v2 => []
    | .v3 => List.replicate cfg.dims.numberOfShards 0
  shardTables := match cfg.version with
    | .v2 => []
    | .v3 => List.replicate cfg.dims.numberOfShards (emptyTable cfg.dims)
  trace := []
  errors := []

/-- One compression job (`src/streaming/array.writer.cpp:351-386`): the buffer is replaced by its
compressed form; when Blosc reports failure the buffer is left as it is and an error is recorded. -/
def compressJob (env : Env) (p : BloscParams) (bpp : Nat) (buf : Bytes) : Bytes × List Text :=
  match env.compress p bpp buf with
  | some out => (out, [])
  | none => (buf, ["Failed to compress chunk".toList])

/-- `ArrayWriter::compress_buffers_` (`src/streaming/array.writer.cpp:339-393`). -/
def compressBuffers (env : Env) (cfg : WConfig) (st : WState) : WState :=
  match cfg.compression with
  | none => st
  | some p =>
    let rs := st.bufs.map (compressJob env p cfg.dims.dtype.bytes)
    { st with bufs := rs.map (·.1), errors := st.errors ++ rs.flatMap (·.2) }

/-- One V2 write job (`src/streaming/zarrv2.array.writer.cpp:93-110`): `CHECK(sink->write(0, data))`. -/
def chunkJob (env : Env) (p : Text) (data : Bytes) : List Ev × List Text :=
  match env.write p 0 data with
  | .stored => ([.wrote p 0 data], [])
  | .silent => ([], [])
  | .failed | .threw => ([], ["Failed to write chunk".toList])

/-- `ArrayWriter::make_data_sinks_` (`src/streaming/array.writer.cpp:141-187`): the new sinks, or
failure. -/
def makeDataSinks (env : Env) (cfg : WConfig) (st : WState) : Option WState :=
  match dataPaths cfg st.appendIdx with
  | none => none
  | some paths =>
    if env.makeSinks (dataRoot cfg st.appendIdx) then
      some { st with dataSinks := paths, trace := st.trace ++ paths.map Ev.opened }
    else none

/-- `ZarrV2ArrayWriter::flush_impl_` (`src/streaming/zarrv2.array.writer.cpp:75-119`) with the
enclosing `CHECK` (`array.writer.cpp:404`). -/
def flushImplV2 (env : Env) (cfg : WConfig) (st : WState) : Res WState := do
  check st.dataSinks.isEmpty
  match makeDataSinks env cfg st with
  | none => .throw
  | some st =>
    check (st.dataSinks.length == st.bufs.length)
    let rs := (st.dataSinks.zip st.bufs).map fun (p, buf) => chunkJob env p buf
    pure { st with trace := st.trace ++ rs.flatMap (·.1), errors := st.errors ++ rs.flatMap (·.2) }

/-- Little-endian bytes of a `uint64_t`. Models `src/streaming/zarrv3.array.writer.cpp:127-141`. -/
def u64le (n : Nat) : Bytes :=
  [UInt8.ofNat n, UInt8.ofNat (n / 2 ^ 8), UInt8.ofNat (n / 2 ^ 16), UInt8.ofNat (n / 2 ^ 24),
   UInt8.ofNat (n / 2 ^ 32), UInt8.ofNat (n / 2 ^ 40), UInt8.ofNat (n / 2 ^ 48), UInt8.ofNat (n / 2 ^ 56)]

/-- State of one shard job (`src/streaming/zarrv3.array.writer.cpp:99-141`). `halted` = left the loop by
`break` or by an exception; `err` is non-empty exactly when an exception was caught. -/
structure ShardJob where
  table : List Nat
  offset : Nat
  success : Bool
  halted : Bool
  err : Text
  trace : List Ev
  deriving Repr, DecidableEq

/-- Loop over the chunks of the shard (`src/streaming/zarrv3.array.writer.cpp:109-126`). An exception
(from `write` or from `.at`) leaves `success` at its current value. Table positions are `uint32_t`
(`2 * internal_idx` is even, so adding 1 does not wrap). -/
def shardLoop (env : Env) (D : ArrayDims) (p : Text) (bufs : List Bytes) : List Nat → ShardJob → ShardJob
  | [], j => j
  | ci :: cs, j =>
    match bufs[ci]? with
    | none => { j with halted := true, err := "Failed to write chunk".toList }
    | some chunk =>
      match env.write p j.offset chunk with
      | .threw => { j with halted := true, err := "Failed to write chunk".toList }
      | .failed => { j with success := false, halted := true }
      | w =>
        let evs := if w = .stored then [Ev.wrote p j.offset chunk] else []
        let pos := u32 (2 * D.shardInternalIndex ci)
        if pos + 1 < j.table.length then
          shardLoop env D p bufs cs
            { j with success := true, trace := j.trace ++ evs,
                     table := (j.table.set pos j.offset).set (pos + 1) chunk.length,
                     offset := u64 (j.offset + chunk.length) }
        else { j with success := true, halted := true, trace := j.trace ++ evs,
                      err := "Failed to write chunk".toList }

/-- One shard job (`src/streaming/zarrv3.array.writer.cpp:99-141`). -/
def shardJob (env : Env) (D : ArrayDims) (p : Text) (bufs : List Bytes) (chunks : List Nat)
    (table : List Nat) (offset : Nat) (writeTable : Bool) : ShardJob :=
  let j := shardLoop env D p bufs chunks ⟨table, offset, false, false, [], []⟩
  if j.err.isEmpty && j.success && writeTable then
    let data := j.table.flatMap u64le
    match env.write p j.offset data with
    | .threw => { j with err := "Failed to write chunk".toList }
    | .failed => { j with success := false }
    | .stored => { j with trace := j.trace ++ [Ev.wrote p j.offset data] }
    | .silent => j
  else j

/-- `chunk_in_shards[i]` (`src/streaming/zarrv3.array.writer.cpp:85-89`): chunks in increasing order. -/
def chunksInShard (D : ArrayDims) (nChunks shard : Nat) : List Nat :=
  (List.range nChunks).filter fun ci => D.shardIndexForChunk ci == shard

/-- `frames_before_flush` products (`src/streaming/array.writer.cpp:329-333`,
`zarrv3.array.writer.cpp:245-250`). -/
def innerFrames (D : ArrayDims) (start : Nat) : Nat :=
  D.inner.foldl (fun acc d => u64 (acc * d.arraySize)) start

/-- `ArrayWriter::should_flush_` (`src/streaming/array.writer.cpp:326-337`). -/
def shouldFlush (D : ArrayDims) (st : WState) : Res Bool := do
  let n := innerFrames D D.append.chunkSize
  check (decide (n > 0))
  pure (st.framesWritten % n == 0)

/-- `should_rollover_` (`src/streaming/zarrv2.array.writer.cpp:179-183`,
`zarrv3.array.writer.cpp:241-254`; the chunk and shard sizes are multiplied in `uint32_t`). -/
def shouldRollover (cfg : WConfig) (st : WState) : Res Bool :=
  match cfg.version with
  | .v2 => .ok true
  | .v3 => do
    let n := innerFrames cfg.dims (u32 (cfg.dims.append.chunkSize * cfg.dims.append.shardSize))
    check (decide (n > 0))
    pure (st.framesWritten % n == 0)

/-- Number of data sinks, `number_of_shards()`; `chunk_in_shards[index]` with `index` out of range is
undefined behaviour (`src/streaming/zarrv3.array.writer.cpp:86-89`). -/
def shardIndicesOk (D : ArrayDims) (nChunks : Nat) : Bool :=
  (List.range nChunks).all fun ci => D.shardIndexForChunk ci < D.numberOfShards

/-- `ZarrV3ArrayWriter::flush_impl_` (`src/streaming/zarrv3.array.writer.cpp:74-158`) with the enclosing
`CHECK` (`array.writer.cpp:404`). Simplification: the code does not evaluate `should_rollover_` here for a finalizing writer; it throws (a
product that wraps to 0) in `flush_`, after the jobs, instead of before them. -/
def flushImplV3 (env : Env) (cfg : WConfig) (st : WState) : Res WState := do
  let st' := if st.dataSinks.isEmpty then makeDataSinks env cfg st else some st
  match st' with
  | none => .throw
  | some st =>
    let nShards := cfg.dims.numberOfShards
    check (st.dataSinks.length == nShards)
    if !shardIndicesOk cfg.dims st.bufs.length then .ub else
    let rollover ← shouldRollover cfg st
    let writeTable := st.finalizing || rollover
    check (st.shardTables.length == nShards && st.shardOffsets.length == nShards)
    let jobs := (List.range nShards).map fun i =>
      shardJob env cfg.dims (st.dataSinks.getD i []) st.bufs (chunksInShard cfg.dims st.bufs.length i)
        (st.shardTables.getD i []) (st.shardOffsets.getD i 0) writeTable
    pure { st with
      trace := st.trace ++ jobs.flatMap (·.trace)
      errors := st.errors ++ jobs.flatMap fun j => if j.success then [] else [j.err]
      shardTables := if writeTable then st.shardTables.map fun _ => emptyTable cfg.dims
        else jobs.map (·.table)
      shardOffsets := if writeTable then st.shardOffsets.map fun _ => 0 else jobs.map (·.offset) }

/-- Finalizing a list of sinks in order: the events, and whether all succeeded
(`src/streaming/array.writer.cpp:422-431`). -/
def finalizeSinks (env : Env) : List Text → Res (List Ev)
  | [] => .ok []
  | p :: ps => do
    check (env.finalize p)
    let rest ← finalizeSinks env ps
    pure (Ev.finalized p :: rest)

/-- `close_sinks_` and `rollover_` (`src/streaming/array.writer.cpp:422-440`). -/
def rollover (env : Env) (st : WState) : Res WState := do
  let evs ← finalizeSinks env st.dataSinks
  pure { st with dataSinks := [], trace := st.trace ++ evs, appendIdx := u32 (st.appendIdx + 1) }

/-- `make_metadata_sink_` and `write_array_metadata_` with the enclosing `CHECK`
(`src/streaming/array.writer.cpp:189-227, 411-413`; `zarrv2.array.writer.cpp:121-177`;
`zarrv3.array.writer.cpp:160-239`): the document is written at offset 0 of the same sink every time. -/
def writeArrayMetadata (env : Env) (cfg : WConfig) (st : WState) : Res WState := do
  let p := arrayMetaPath cfg
  check (st.metaSink || env.makeMetaSink p)
  let st := if st.metaSink then st else { st with metaSink := true, trace := st.trace ++ [.opened p] }
  let n ← appendSize cfg.dims.inner st.framesWritten
  match env.write p 0 (metaDoc cfg n) with
  | .stored => pure { st with trace := st.trace ++ [.wrote p 0 (metaDoc cfg n)] }
  | .silent => pure st
  | .failed | .threw => .throw

/-- `ArrayWriter::flush_` (`src/streaming/array.writer.cpp:395-420`). -/
def flush (env : Env) (cfg : WConfig) (st : WState) : Res WState :=
  if st.bytesToFlush = 0 then .ok st else do
  let st := compressBuffers env cfg st
  let st ← match cfg.version with
    | .v2 => flushImplV2 env cfg st
    | .v3 => flushImplV3 env cfg st
  let roll ← shouldRollover cfg st
  let st ← if roll then rollover env st else .ok st
  let st ← if roll || st.finalizing then writeArrayMetadata env cfg st else .ok st
  pure { st with bufs := makeBuffers cfg.dims, bytesToFlush := 0 }

/-- `ArrayWriter::write_frame` (`src/streaming/array.writer.cpp:99-133`): returns the number of bytes
written, 0 on a frame-size mismatch. -/
def writeFrame (env : Env) (cfg : WConfig) (data : Bytes) (st : WState) : Res (WState × Nat) :=
  if bytesOfFrame cfg.dims ≠ data.length then .ok (st, 0) else do
  let st := if st.bufs.isEmpty then { st with bufs := makeBuffers cfg.dims } else st
  let (bufs, n) ← writeFrameToChunks cfg.dims st.framesWritten data st.bufs
  check (n == data.length)
  let st := { st with bufs := bufs, bytesToFlush := u64 (st.bytesToFlush + n),
                      framesWritten := u32 (st.framesWritten + 1) }
  let fl ← shouldFlush cfg.dims st
  let st ← if fl then flush env cfg st else .ok st
  pure (st, n)

/-- `zarr::finalize_array` (`src/streaming/array.writer.cpp:442-465`) including the destruction of the
writer; `throw` stands for the return value `false`. Sinks still open when the writer is destroyed are
dropped without `finalize_sink`. -/
def finalizeArray (env : Env) (cfg : WConfig) (st : WState) : Res WState := do
  let st ← flush env cfg { st with finalizing := true }
  let st ← if st.metaSink then do
      check (env.finalize (arrayMetaPath cfg))
      pure { st with metaSink := false, trace := st.trace ++ [.finalized (arrayMetaPath cfg)] }
    else .ok st
  pure { st with trace := st.trace ++ st.dataSinks.map Ev.dropped, dataSinks := [] }

/-- A sequence of `write_frame` calls.
Models `src/streaming/array.writer.cpp:99-133`, called repeatedly. -/
def writeFrames (env : Env) (cfg : WConfig) : List Bytes → WState → Res WState
  | [], st => .ok st
  | f :: fs, st => do
    let (st', n) ← writeFrame env cfg f st
    check (n != 0)
    writeFrames env cfg fs st'

/-- A whole life of an array writer: construct, write the frames, finalize.
Models `src/streaming/array.writer.cpp:80-133` and 442-465. -/
def runArray (env : Env) (cfg : WConfig) (frames : List Bytes) : Res WState := do
  let st ← writeFrames env cfg frames (WState.init cfg)
  finalizeArray env cfg st

end AZ
