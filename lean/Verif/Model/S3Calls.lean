import Verif.Model.S3

/-!
# Calls on an S3 stream, with workers and connections

`Model.Reporting` lets every job end; `Model.Connections` has threads but no calls. Here both are together: a thread calls
`ZarrStream_append` and `ZarrStream_destroy`, the workers run the jobs it hands out, and calling thread and workers use the connections
of one pool.

A call consists of *items*: what the calling thread does alone with its sinks (the documents and the finalization of sinks: `write_array_metadata_`, `close_sinks_`,
`finalize_array`; `src/streaming/array.writer.cpp:422-465`), and batches of jobs
(`src/streaming/zarrv2.array.writer.cpp:83-118`, `zarrv3.array.writer.cpp:91-146`) with a latch at which it waits until every job has counted down. A job counts
down whether its write succeeds, returns false or throws (`zarrv2.array.writer.cpp:94-113`).

Simplifications: connections are counted, not named (`Model.Connections` names them); waiting for a connection is an atomic step that is
possible when there is one (`Model.ConnectionWait` has the condition variable). What each job does with its sink (`Act`) is given in advance.
-/

namespace AZ.S3

/-- A part of a call.
Models `src/streaming/zarr.stream.cpp:419-476` and 961-1000, array.writer.cpp:395-465. -/
inductive Item where
  /-- the calling thread uses sinks -/
  | alone (todo : List Act)
  /-- jobs for the pool, awaited -/
  | batch (jobs : List (List Act))

/-- The calling thread: between two items; using sinks, with or without a connection; pushing the jobs of a batch (none left: waiting at the
latch). Models `src/streaming/s3.sink.cpp:91-203`, thread.pool.cpp:28-40. -/
inductive Caller where
  | between
  | alone (held : Bool) (todo : List Act)
  | pushing (todo : List (List Act))

/-- `workers`: `none` is an idle worker; otherwise whether it holds a connection and what is left of its job. `pending`: the latch.
Models `src/streaming/s3.connection.cpp:217-264`, thread.pool.cpp:5-96. -/
structure CallState where
  free : Nat
  lost : Nat
  caller : Caller
  rest : List Item
  queue : List (List Act)
  workers : List (Option (Bool × List Act))
  pending : Nat

/-- A pool of `n` connections, `m` workers, and all that is to be done.
Models `src/streaming/zarr.stream.cpp:376-417` and 542-591. -/
def CallState.start (n m : Nat) (items : List Item) : CallState :=
  ⟨n, 0, .between, items, [], List.replicate m none, 0⟩

/-- One action with a connection: free and lost connections and whether the thread holds one, before and after
(`src/streaming/s3.connection.cpp:241-264`, `s3.sink.cpp:91-203`). `get` is possible if there is a free connection. -/
def actStep (free lost : Nat) (held : Bool) : Act → Option (Nat × Nat × Bool)
  | .get => if held then none else if free = 0 then none else some (free - 1, lost, true)
  | .sent _ _ => some (free, lost, held)
  | .giveBack => if held then some (free + 1, lost, false) else none
  | .lose => if held then some (free, lost + 1, false) else none

/-- The next step of the calling thread; `none`: it has returned from all calls, or waits.
Models `src/streaming/s3.sink.cpp:91-203`, array.writer.cpp:395-465. -/
def CallState.callerStep (s : CallState) : Option CallState :=
  match s.caller with
  | .between =>
    match s.rest with
    | [] => none
    | .alone p :: r => some { s with caller := .alone false p, rest := r }
    | .batch js :: r => some { s with caller := .pushing js, rest := r, pending := js.length }
  | .alone held [] => if held then none else some { s with caller := .between }
  | .alone held (a :: p) =>
    (actStep s.free s.lost held a).map fun x => { s with free := x.1, lost := x.2.1, caller := .alone x.2.2 p }
  | .pushing (j :: js) => some { s with caller := .pushing js, queue := s.queue ++ [j] }
  | .pushing [] => if s.pending = 0 then some { s with caller := .between } else none

/-- The next step of worker `i` (`src/streaming/thread.pool.cpp:78-96`); `none`: it waits for a job or a connection. -/
def CallState.workerStep (s : CallState) (i : Nat) : Option CallState :=
  match s.workers[i]? with
  | none => none
  | some none =>
    match s.queue with
    | [] => none
    | j :: q => some { s with queue := q, workers := s.workers.set i (some (false, j)) }
  | some (some (held, [])) =>
    if held then none else some { s with workers := s.workers.set i none, pending := s.pending - 1 }
  | some (some (held, a :: p)) =>
    (actStep s.free s.lost held a).map fun x =>
      { s with free := x.1, lost := x.2.1, workers := s.workers.set i (some (x.2.2, p)) }

/-- One step: of the calling thread (`none`) or of a worker.
Models `src/streaming/s3.connection.cpp:241-264`, thread.pool.cpp:28-96. -/
def CallState.step (s : CallState) : Option Nat → Option CallState
  | none => s.callerStep
  | some i => s.workerStep i

/-- A schedule. Models `src/streaming/s3.connection.cpp:241-264`, thread.pool.cpp:28-96. -/
def CallState.run : CallState → List (Option Nat) → Option CallState
  | s, [] => some s
  | s, t :: ts => (s.step t).bind (CallState.run · ts)

/-- All calls have returned. Models `src/streaming/acquire.zarr.cpp:149-176`. -/
def CallState.Returned (s : CallState) : Prop := s.caller = .between ∧ s.rest = []

end AZ.S3
