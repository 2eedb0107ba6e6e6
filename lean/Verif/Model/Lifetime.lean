import Verif.Model.Reporting

/-!
# The life of a stream and of its worker threads

`Model.Reporting` with the end: `ZarrStream_destroy` (`src/streaming/acquire.zarr.cpp:152-159`) calls `finalize_stream`
(`src/streaming/zarr.stream.cpp:961-1000`), which flushes the arrays (more batches of jobs), then stops the pool
(`await_stop`, `src/streaming/thread.pool.cpp:42-58`: no more jobs are accepted, every thread is joined), and then deletes the
stream. If finalizing fails it returns before that, and the stream stays. If the constructor of the stream throws
(`src/streaming/zarr.stream.cpp:376-417`), its members are destroyed; among them the pool, whose destructor
(`src/streaming/thread.pool.cpp:16-26`) drops the queue and joins the threads; `error_`, to which the error handler writes, is
declared first and so destroyed last (`src/streaming/zarr.stream.hh:44-65`).

Simplifications: joining the threads and the destruction of all members after it are one move, `free`; the caller of the library
uses a stream from one thread at a time, and not after destroy.
-/

namespace AZ.Reporting

/-- How far the stream has come: in use; in `finalize_stream`; the pool stopped and being joined; freed.
Models `src/streaming/zarr.stream.cpp:961-1000`, acquire.zarr.cpp:136-159. -/
inductive Phase where
  | inUse
  | closing
  | stopped
  | freed
  deriving Repr, DecidableEq

/-- The stream with its caller and workers; which threads have left `process_tasks_`.
Models `src/streaming/thread.pool.cpp:28-95`, zarr.stream.cpp:376-476 and 961-1000. -/
structure Life where
  base : State
  phase : Phase
  gone : List Bool
  deriving Repr, DecidableEq

/-- A stream with `n` threads, before the first call.
Models `src/streaming/zarr.stream.cpp:376-417`, thread.pool.cpp:5-14. -/
def Life.start (n : Nat) (calls : List (List (List Job))) : Life := ⟨init n calls, .inUse, List.replicate n false⟩

/-- A move of the caller or of a worker thread.
Models `src/streaming/thread.pool.cpp:16-95`, zarr.stream.cpp:376-476 and 961-1000, acquire.zarr.cpp:136-159. -/
inductive Move where
  | work (x : Step)
  | close (batches : List (List Job))
  | giveUp
  | stop
  | abandon
  | leave (w : Nat)
  | free
  deriving Repr, DecidableEq

/-- The thread that takes the move, if it is a worker.
Models `src/streaming/thread.pool.cpp:78-95`. -/
def Move.worker : Move → Option Nat
  | .work (.take w) | .work (.count w) | .work (.report w) | .leave w => some w
  | _ => none

/-- One move; `none`: it is not possible.
Models `src/streaming/thread.pool.cpp:16-95`, zarr.stream.cpp:376-476 and 961-1000, acquire.zarr.cpp:136-159. -/
def Life.step (l : Life) : Move → Option Life
  /- in `process_tasks_` until the thread has left it; the caller: in append, or in the flushes of `finalize_stream` -/
  | .work x =>
    match (Move.work x).worker with
    | some w => if l.gone[w]? = some false then (Reporting.step l.base x).map fun b => { l with base := b } else none
    | none =>
      if l.phase = .inUse ∨ l.phase = .closing ∧ x ≠ .call then (Reporting.step l.base x).map fun b => { l with base := b } else none
  /- `finalize_stream` begins (`src/streaming/zarr.stream.cpp:961-984`), whatever `error_` says -/
  | .close batches =>
    if l.phase = .inUse ∧ l.base.caller = .outside then
      some { l with phase := .closing, base := { l.base with caller := .inside batches } }
    else none
  /- an early `return false` of `finalize_stream` (`src/streaming/zarr.stream.cpp:969-987`) -/
  | .giveUp =>
    match l.phase, l.base.caller with
    | .closing, .inside _ => some { l with phase := .inUse, base := { l.base with caller := .outside } }
    | .closing, .outside => some { l with phase := .inUse }
    | _, _ => none
  /- `stream->thread_pool_->await_stop()` (`src/streaming/zarr.stream.cpp:994`, thread.pool.cpp:42-49) -/
  | .stop => if l.phase = .closing ∧ l.base.caller = .outside then some { l with phase := .stopped } else none
  /- the constructor throws: `~ThreadPool` (`src/streaming/thread.pool.cpp:16-26`) -/
  | .abandon =>
    match l.phase, l.base.caller with
    | .inUse, .inside _ => some { l with phase := .stopped, base := { l.base with queue := [], caller := .outside } }
    | _, _ => none
  /- `if (should_stop_()) break;` (`src/streaming/thread.pool.cpp:84-86`), between two jobs -/
  | .leave w =>
    if (l.phase = .stopped ∨ l.phase = .freed) ∧ l.base.queue = [] ∧ l.base.workers[w]? = some .idle ∧ l.gone[w]? = some false then
      some { l with gone := l.gone.set w true }
    else none
  /- every `thread.join()` has returned (`src/streaming/thread.pool.cpp:51-57`); `delete stream`
     (`src/streaming/acquire.zarr.cpp:158`), or the destruction of the members -/
  | .free => if l.phase = .stopped ∧ ∀ g ∈ l.gone, g = true then some { l with phase := .freed } else none

/-- A sequence of possible moves.
Models `src/streaming/thread.pool.cpp:16-95`, zarr.stream.cpp:376-476 and 961-1000, acquire.zarr.cpp:136-159. -/
def Life.run (l : Life) : List Move → Option Life
  | [] => some l
  | m :: ms =>
    match l.step m with
    | none => none
    | some l' => l'.run ms

/-- The states of a stream with `n` threads.
Models `src/streaming/thread.pool.cpp:16-95`, zarr.stream.cpp:376-476 and 961-1000, acquire.zarr.cpp:136-159. -/
def Lives (n : Nat) (calls : List (List (List Job))) (l : Life) : Prop := ∃ ms, (Life.start n calls).run ms = some l

end AZ.Reporting
