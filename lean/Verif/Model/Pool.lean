/-!
# The worker pool

Models `zarr::ThreadPool` (`src/streaming/thread.pool.hh`, `thread.pool.cpp:1-96`) as a transition system. Every
section protected by `jobs_mutex_` is one step (mutual exclusion makes it atomic); waiting on the condition
variable releases the mutex and goes to sleep in one step. Jobs run outside the mutex. Sleeping workers may wake up
spuriously at any time.

Not modelled: exceptions thrown by a job out of `process_tasks_` (they would terminate the process; the jobs of the
library catch `std::exception`), and failure of `std::thread` construction.
-/

namespace AZ.Pool

/-- Where a worker is in `process_tasks_` (`src/streaming/thread.pool.cpp:78-96`): about to lock the mutex and
look at the queue; asleep in `cv_.wait`; executing a job (with its error handler); returned. -/
inductive Worker where
  | ready
  | asleep
  | running (job : Nat)
  | exited
  deriving Repr, DecidableEq

/-- Members of the pool, and the history: jobs are numbered in the order in which `push_job` accepted them.
Models `src/streaming/thread.pool.hh` and thread.pool.cpp:5-96. -/
structure Pool where
  accepting : Bool
  queue : List Nat
  workers : List Worker
  accepted : Nat
  rejected : Nat
  started : List Nat
  finished : List Nat
  dropped : List Nat
  deriving Repr, DecidableEq

/-- Constructor (`src/streaming/thread.pool.cpp:5-14`): the number of threads is clamped to `1 .. max_threads`. -/
def init (nThreads maxThreads : Nat) : Pool where
  accepting := true
  queue := []
  workers := List.replicate (max 1 (min nThreads (max maxThreads 1))) .ready
  accepted := 0
  rejected := 0
  started := []
  finished := []
  dropped := []

/-- Steps: `push k` is `push_job` by any thread, `k` being the sleeper `notify_one` picks; `stop` is the first part
of `await_stop`; `clear` the first part of the destructor; the others are steps of worker `w`.
Models `src/streaming/thread.pool.cpp:28-96`. -/
inductive Step where
  | push (k : Nat)
  | stop
  | clear
  | look (w : Nat)
  | finish (w : Nat)
  | wake (w : Nat)
  deriving Repr, DecidableEq

/-- `cv_.notify_one` (`src/streaming/thread.pool.cpp:36`): wakes one sleeper, if there is one. -/
def notifyOne (ws : List Worker) (k : Nat) : Option (List Worker) :=
  if ws.contains .asleep then
    if ws[k]? = some .asleep then some (ws.set k .ready) else none
  else some ws

/-- `cv_.notify_all` (`src/streaming/thread.pool.cpp:48`). -/
def notifyAll (ws : List Worker) : List Worker := ws.map fun w => if w = .asleep then .ready else w

/-- `none`: the step is not possible. Models `src/streaming/thread.pool.cpp:28-96`. -/
def step (p : Pool) : Step → Option Pool
  /- `push_job` (`src/streaming/thread.pool.cpp:28-39`) -/
  | .push k =>
    if !p.accepting then some { p with rejected := p.rejected + 1 } else
    match notifyOne p.workers k with
    | none => none
    | some ws => some { p with
        queue := p.queue ++ [p.accepted]
        accepted := p.accepted + 1
        workers := ws }
  /- `await_stop` up to the joins (`src/streaming/thread.pool.cpp:42-49`) -/
  | .stop => some { p with
      accepting := false
      workers := notifyAll p.workers }
  /- the loop of the destructor (`src/streaming/thread.pool.cpp:17-23`) -/
  | .clear => some { p with
      dropped := p.dropped ++ p.queue
      queue := [] }
  /- one pass of `process_tasks_` up to `lock.unlock()` (`src/streaming/thread.pool.cpp:81-90`, with `should_stop_`
     and `pop_from_job_queue_`, lines 59-76) -/
  | .look w =>
    if p.workers[w]? = some .ready then
      match p.queue with
      | [] =>
        if p.accepting then some { p with workers := p.workers.set w .asleep }
        else some { p with workers := p.workers.set w .exited }
      | j :: q => some { p with
          queue := q
          started := p.started ++ [j]
          workers := p.workers.set w (.running j) }
    else none
  /- the call of the job and, if it fails, of the error handler (`src/streaming/thread.pool.cpp:91-93`) -/
  | .finish w =>
    match p.workers[w]? with
    | some (.running j) => some { p with
        finished := p.finished ++ [j]
        workers := p.workers.set w .ready }
    | _ => none
  | .wake w =>
    if p.workers[w]? = some .asleep then some { p with workers := p.workers.set w .ready } else none

/-- A schedule: a sequence of possible steps. Models `src/streaming/thread.pool.cpp:28-96`. -/
def run (p : Pool) : List Step → Option Pool
  | [] => some p
  | s :: ss =>
    match step p s with
    | none => none
    | some p' => run p' ss

/-- `await_stop` (`src/streaming/thread.pool.cpp:42-57`) returns when the pool was stopped and all workers have
been joined. -/
def Joined (p : Pool) : Prop := p.accepting = false ∧ ∀ w ∈ p.workers, w = .exited

end AZ.Pool
