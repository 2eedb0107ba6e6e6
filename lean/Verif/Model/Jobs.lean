/-!
# The bodies of the jobs

Every job that is handed to the thread pool, statement by statement, with every operation in it that can fail or throw, and the worker that runs it
(`ThreadPool::process_tasks_`, `src/streaming/thread.pool.cpp:78-96`), which has no handler for exceptions. The other models (`Model.Pool`, `Model.Reporting`,
`Model.Creation`) start from jobs that end; here is what they do to get there.

What the operations do is given by the environment. Exceptions are those derived from `std::exception`; these are what the operations of the standard library
and `CHECK` throw. Modelled of the data: nothing (`Model.Writer`).
-/

namespace AZ.Jobs

/-- How an operation ends: with true, with false or with an exception.
Auxiliary: the operations of the jobs in `src/streaming/sink.creator.cpp:267-302`,
array.writer.cpp:354-387, zarrv2.array.writer.cpp:91-115, zarrv3.array.writer.cpp:100-141. -/
inductive Call where
  | yes
  | no
  | throws
deriving DecidableEq

/-- What a job shares with the thread that waits for it: how often it has counted the latch down, and `all_successful`; and the job's own variable `success`,
which keeps its value when an exception is caught.
Models `latch` and `all_successful`: `src/streaming/sink.creator.cpp:258-308`,
array.writer.cpp:349-392, zarrv2.array.writer.cpp:79-119, zarrv3.array.writer.cpp:90-150. -/
structure Shared where
  downs : Nat
  flag : Bool
  success : Bool

/-- A statement returns or throws.
Auxiliary: exceptions in the jobs of `src/streaming/sink.creator.cpp:267-302`. -/
inductive Ends (α : Type) where
  | ret (a : α) (s : Shared)
  | threw (s : Shared)

/-- A statement, given the shared state.
Auxiliary: statements of the jobs of `src/streaming/sink.creator.cpp:267-302`. -/
def M (α : Type) := Shared → Ends α

instance : Monad M where
  pure a := fun s => .ret a s
  bind m f := fun s =>
    match m s with
    | .ret a s' => f a s'
    | .threw s' => .threw s'

/-- An operation of the system.
Models `src/streaming/sink.creator.cpp:267-302`, array.writer.cpp:354-387. -/
def op (c : Call) : M Bool := fun s =>
  match c with
  | .yes => .ret true s
  | .no => .ret false s
  | .throws => .threw s

/-- An operation that only can throw.
Models `src/streaming/sink.creator.cpp:267-302`, array.writer.cpp:354-387. -/
def act (works : Bool) : M Unit := fun s => if works then .ret () s else .threw s

/-- `latch.count_down()` Models `src/streaming/sink.creator.cpp:267-302` and the other jobs. -/
def countDown : M Unit := fun s => .ret () { s with downs := s.downs + 1 }

/-- `all_successful.fetch_and(b)`
Models `src/streaming/sink.creator.cpp:267-302` and the other jobs. -/
def fetchAnd (b : Bool) : M Unit := fun s => .ret () { s with flag := s.flag && b }

/-- `success = b` Models `src/streaming/sink.creator.cpp:267-302` and the other jobs. -/
def setSuccess (b : Bool) : M Unit := fun s => .ret () { s with success := b }

/-- The value of `success`.
Models `src/streaming/sink.creator.cpp:267-302` and the other jobs. -/
def readSuccess : M Bool := fun s => .ret s.success s

/-- `if (all_successful)` Models `src/streaming/sink.creator.cpp:267-302` and the other jobs. -/
def readFlag : M Bool := fun s => .ret s.flag s

/-- `try { body } catch (const std::exception& exc) { handler }`
Models `src/streaming/sink.creator.cpp:267-302` and the other jobs. -/
def attempt {α : Type} (body handler : M α) : M α := fun s =>
  match body s with
  | .ret a s' => .ret a s'
  | .threw s' => handler s'

/-- What happens to the job that makes a directory.
Models `src/streaming/sink.creator.cpp:267-302`. -/
structure DirEnv where
  /-- whether the name is empty -/
  empty : Bool
  /-- `fs::is_directory(dirname)` and `fs::exists(dirname)`, which throw if the status cannot be determined for another reason than that there is no such
  file ([fs.op.status]): no permission to search a directory on the way, too long a name, an input/output error -/
  isDirectory : Call
  pathExists : Call
  /-- `fs::create_directories(dirname, ec)`, which reports errors in `ec` -/
  creates : Bool
  /-- whether the error message can be allocated -/
  text : Bool

/-- The job of `SinkCreator::make_dirs_` (`src/streaming/sink.creator.cpp:267-302`). -/
def makeDir (e : DirEnv) : M Bool := do
  if e.empty then
    act e.text
    countDown
    fetchAnd false
    return false
  if ← op e.isDirectory then
    countDown
    return true
  else if ← op e.pathExists then
    act e.text
    countDown
    fetchAnd false
    return false
  if ← readFlag then
    if !e.creates then
      act e.text
      countDown
      fetchAnd false
      return false
  countDown
  return true

/-- What happens to the job that opens a file.
Models `src/streaming/sink.creator.cpp:332-350` and 383-401. -/
structure FileEnv where
  /-- whether making the sink works; it throws if not -/
  opens : Bool
  text : Bool

/-- The job of both `SinkCreator::make_files_` (`sink.creator.cpp:332-350, 383-401`). -/
def makeFile (e : FileEnv) : M Bool := do
  setSuccess false
  attempt (do
      if ← readFlag then
        act e.opens
      setSuccess true)
    (act e.text)
  countDown
  fetchAnd (← readSuccess)
  readSuccess

/-- What happens to the job that compresses a chunk.
Models `src/streaming/array.writer.cpp:354-387`. -/
structure CompressEnv where
  /-- whether the buffer can be allocated -/
  buffer : Bool
  /-- whether the size Blosc returns is one the buffer can be resized to (a negative one is not) -/
  resizes : Bool
  text : Bool

/-- The job of `ArrayWriter::compress_buffers_` (`src/streaming/array.writer.cpp:354-387`). -/
def compress (e : CompressEnv) : M Bool := do
  setSuccess false
  attempt (do
      act e.buffer
      act e.resizes
      setSuccess true)
    (act e.text)
  countDown
  readSuccess

/-- What happens to the job that writes a chunk.
Models `src/streaming/zarrv2.array.writer.cpp:91-115`. -/
structure WriteEnv where
  /-- `sink->write`: false or an exception (S3) -/
  writes : Call
  text : Bool

/-- The job of `ZarrV2ArrayWriter::flush_impl_` (`src/streaming/zarrv2.array.writer.cpp:91-115`); `CHECK` of false throws. -/
def writeChunk (e : WriteEnv) : M Bool := do
  setSuccess false
  attempt (do
      let written ← op e.writes
      act written
      setSuccess true)
    (act e.text)
  countDown
  readSuccess

/-- What happens to the job that writes the chunks of a shard: for each chunk the write and the two accesses `chunk_table.at`.
Models `src/streaming/zarrv3.array.writer.cpp:100-141`. -/
structure ShardEnv where
  chunks : List (Call × Bool)
  /-- whether this flush writes the index -/
  table : Bool
  writesTable : Call
  text : Bool

/-- The loop over the chunks (`src/streaming/zarrv3.array.writer.cpp:110-125`). -/
def writeChunks : List (Call × Bool) → M Unit
  | [] => pure ()
  | (w, inTable) :: l => do
    setSuccess (← op w)
    if ← readSuccess then
      act inTable
      writeChunks l

/-- The job of `ZarrV3ArrayWriter::flush_impl_` (`zarrv3.array.writer.cpp:100-141`). -/
def writeShard (e : ShardEnv) : M Bool := do
  setSuccess false
  attempt (do
      writeChunks e.chunks
      if (← readSuccess) && e.table then
        setSuccess (← op e.writesTable))
    (act e.text)
  countDown
  readSuccess

/-- What becomes of the process when a worker runs a job.
Models `src/streaming/thread.pool.cpp:78-96`. -/
inductive After where
  | goesOn (s : Shared)
  | terminated

/-- One round of `ThreadPool::process_tasks_` (`src/streaming/thread.pool.cpp:89-95`): an exception leaves the thread's function, which terminates the process. `report`:
whether storing the message of a failed job (`set_error_`) works. -/
def work (job : M Bool) (report : Bool) (s : Shared) : After :=
  match job s with
  | .ret true s' => .goesOn s'
  | .ret false s' => if report then .goesOn s' else .terminated
  | .threw _ => .terminated

/-- The jobs there are.
Models `src/streaming/sink.creator.cpp:267-302`, 332-350 and 383-401, array.writer.cpp:354-387,
zarrv2.array.writer.cpp:91-115, zarrv3.array.writer.cpp:100-141. -/
inductive Job where
  | makeDir (e : DirEnv)
  | makeFile (e : FileEnv)
  | compress (e : CompressEnv)
  | writeChunk (e : WriteEnv)
  | writeShard (e : ShardEnv)

/-- The body of a job.
Models `src/streaming/sink.creator.cpp:267-302`, 332-350 and 383-401, array.writer.cpp:354-387,
zarrv2.array.writer.cpp:91-115, zarrv3.array.writer.cpp:100-141. -/
def Job.body : Job → M Bool
  | .makeDir e => Jobs.makeDir e
  | .makeFile e => Jobs.makeFile e
  | .compress e => Jobs.compress e
  | .writeChunk e => Jobs.writeChunk e
  | .writeShard e => Jobs.writeShard e

/-- Workers run jobs one after the other, in the order given, each with what `report` says.
Models `src/streaming/thread.pool.cpp:78-96`. -/
def runJobs : List (Job × Bool) → Shared → After
  | [], s => .goesOn s
  | (j, r) :: l, s =>
    match work j.body r s with
    | .goesOn s' => runJobs l s'
    | .terminated => .terminated

end AZ.Jobs
