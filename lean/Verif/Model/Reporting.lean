import Verif.Model.Text

/-!
# Background jobs and how their failures reach the caller

Transition system of a caller of `ZarrStream_append` and the workers of the pool, at the granularity of the accesses to
shared state. A call of append runs any number of *batches* (`compress_buffers_`, `src/streaming/array.writer.cpp:339-393`;
`flush_impl_` of both writers, `src/streaming/zarrv2.array.writer.cpp:75-119`,
`src/streaming/zarrv3.array.writer.cpp:74-158`): it pushes the jobs of the batch one by one and waits on a latch until all of
them have counted down. The outcome of a job does not change what append does next. A worker
(`src/streaming/thread.pool.cpp:78-96`) runs a job; the job counts the latch down as its last action and *then* returns
false, upon which the worker calls the error handler, which is `set_error_` of the stream
(`src/streaming/zarr.stream.cpp:388-389, 536-540`).

The queue itself is in `Model.Pool`; here taking a job is one step. Not modelled: creation of sinks (`Model.Creation`),
stopping the pool, exceptions in append.
-/

namespace AZ.Reporting

/-- A job: the chunk buffers it accesses, and the message with which it fails (`none`: it succeeds).
Models `src/streaming/array.writer.cpp:354-387`, zarrv2.array.writer.cpp:91-115,
zarrv3.array.writer.cpp:100-141. -/
structure Job where
  owns : List Nat
  fails : Option Text
  deriving Repr, DecidableEq

/-- A worker: in `pop_from_job_queue_`/`wait`; inside the job, before `latch.count_down()`; between `latch.count_down()` and
the end of the error handler. Models `src/streaming/thread.pool.cpp:78-96`. -/
inductive Worker where
  | idle
  | running (j : Job)
  | counted (j : Job)
  deriving Repr, DecidableEq

/-- The caller: between two calls; inside append, outside the batches (it fills chunk buffers, writes metadata, clears the
buffers); pushing the jobs of a batch (with no job left: waiting on the latch). `rest` are the further batches of the call.
Models `src/streaming/zarr.stream.cpp:419-476`, array.writer.cpp:99-133. -/
inductive Caller where
  | outside
  | inside (rest : List (List Job))
  | pushing (todo : List Job) (rest : List (List Job))
  deriving Repr, DecidableEq

/-- `calls`: the calls still to be made. `results`: the status of the finished ones. `failed`: messages of the jobs that
failed and counted down, in that order. `reported`: the arguments of `set_error_` so far. `error` is `error_`.
Models `src/streaming/zarr.stream.cpp:419-476` and 536-540, thread.pool.cpp:28-96. -/
structure State where
  calls : List (List (List Job))
  caller : Caller
  queue : List Job
  latch : Nat
  workers : List Worker
  error : Text
  results : List Bool
  failed : List Text
  reported : List Text
  deriving Repr, DecidableEq

/-- Before the first call; the workers are idle.
Models `src/streaming/zarr.stream.cpp:376-417`, thread.pool.cpp:5-14. -/
def init (workers : Nat) (calls : List (List (List Job))) : State where
  calls := calls
  caller := .outside
  queue := []
  latch := 0
  workers := List.replicate workers .idle
  error := []
  results := []
  failed := []
  reported := []

/-- A step of the caller or of a worker.
Models `src/streaming/thread.pool.cpp:28-96`, zarr.stream.cpp:419-476. -/
inductive Step where
  | call
  | batch
  | push
  | wait
  | ret
  | take (w : Nat)
  | count (w : Nat)
  | report (w : Nat)
  deriving Repr, DecidableEq

/-- `none`: the step is not possible.
Models `src/streaming/thread.pool.cpp:28-96`, zarr.stream.cpp:419-476 and 536-540. -/
def step (s : State) : Step → Option State
  /- `EXPECT(error_.empty(), ...)` (`src/streaming/zarr.stream.cpp:422`): a pending error makes the call fail at once -/
  | .call =>
    match s.caller, s.calls with
    | .outside, c :: cs =>
      if s.error.isEmpty then some { s with calls := cs, caller := .inside c }
      else some { s with calls := cs, results := s.results ++ [false] }
    | _, _ => none
  /- `std::latch latch(n)` -/
  | .batch =>
    match s.caller with
    | .inside (b :: rest) => some { s with caller := .pushing b rest, latch := b.length }
    | _ => none
  /- `thread_pool_->push_job(...)` -/
  | .push =>
    match s.caller with
    | .pushing (j :: js) rest => some { s with caller := .pushing js rest, queue := s.queue ++ [j] }
    | _ => none
  /- `latch.wait()` -/
  | .wait =>
    match s.caller with
    | .pushing [] rest => if s.latch = 0 then some { s with caller := .inside rest } else none
    | _ => none
  | .ret =>
    match s.caller with
    | .inside [] => some { s with caller := .outside, results := s.results ++ [true] }
    | _ => none
  /- `pop_from_job_queue_` -/
  | .take w =>
    match s.workers[w]?, s.queue with
    | some .idle, j :: q => some { s with queue := q, workers := s.workers.set w (.running j) }
    | _, _ => none
  /- `latch.count_down()`, the last action of the job -/
  | .count w =>
    match s.workers[w]? with
    | some (.running j) => some { s with
        latch := s.latch - 1
        workers := s.workers.set w (.counted j)
        failed := s.failed ++ j.fails.toList }
    | _ => none
  /- `if (!job(err_msg)) error_handler_(err_msg);` -/
  | .report w =>
    match s.workers[w]? with
    | some (.counted j) =>
      match j.fails with
      | none => some { s with workers := s.workers.set w .idle }
      | some m => some { s with
          workers := s.workers.set w .idle
          error := m
          reported := s.reported ++ [m] }
    | _ => none

/-- A schedule: a sequence of possible steps.
Models `src/streaming/thread.pool.cpp:28-96`, zarr.stream.cpp:419-476. -/
def run (s : State) : List Step → Option State
  | [] => some s
  | x :: xs =>
    match step s x with
    | none => none
    | some s' => run s' xs

/-- The states a program of `calls` can be in, with `n` workers.
Models `src/streaming/thread.pool.cpp:28-96`, zarr.stream.cpp:419-476. -/
def Reachable (n : Nat) (calls : List (List (List Job))) (s : State) : Prop := ∃ ss, run (init n calls) ss = some s

end AZ.Reporting
