/-!
# Parallel creation of directories and files

Models the jobs and the caller of `SinkCreator::make_dirs_` and `make_files_`
(`src/streaming/sink.creator.cpp:251-309, 311-358, 360-409`) as a transition system whose steps are the accesses to
shared state: the creation itself (after reading `all_successful`), `latch.count_down()`, `all_successful.fetch_and`,
and the caller's `latch.wait()` followed by reading `all_successful`. Jobs may be interleaved in any way (the pool
allows fewer schedules when it has fewer workers than jobs; `Props.Creation` uses one job for the counterexamples,
which needs one worker).
-/

namespace AZ.Creation

/-- Progress of a job; the flag is its success.
Models `src/streaming/sink.creator.cpp:258-308` and 319-408. -/
inductive Job where
  | fresh
  | tried (ok : Bool)
  | counted (ok : Bool)
  | ended (ok : Bool)
  deriving Repr, DecidableEq

/-- `touches` says whether a successful job also executes `fetch_and` after `count_down`: true in `make_files_`,
false in `make_dirs_` (a failing job always does). `outcomes` says which creations would succeed. `late` counts
accesses of jobs to the caller's variables after the caller has returned.
Models `src/streaming/sink.creator.cpp:258-308` and 319-408. -/
structure State where
  touches : Bool
  outcomes : List Bool
  jobs : List Job
  flag : Bool
  result : Option Bool
  late : Nat
  deriving Repr, DecidableEq

/-- The caller has declared the latch and the flag; no job has run.
Models `src/streaming/sink.creator.cpp:258-308` and 319-408. -/
def init (touches : Bool) (outcomes : List Bool) : State where
  touches := touches
  outcomes := outcomes
  jobs := outcomes.map fun _ => .fresh
  flag := true
  result := none
  late := 0

/-- A step of job `i`, or of the caller.
Models `src/streaming/sink.creator.cpp:258-308` and 319-408. -/
inductive Step where
  | try (i : Nat)
  | count (i : Nat)
  | mark (i : Nat)
  | ret
  deriving Repr, DecidableEq

/-- The job has executed `latch.count_down()`.
Models `src/streaming/sink.creator.cpp:258-308`. -/
def Job.hasCounted : Job → Bool
  | .counted _ | .ended _ => true
  | _ => false

/-- An access to the caller's stack frame. Models `src/streaming/sink.creator.cpp:258-308`. -/
def touch (s : State) : State := { s with late := if s.result.isSome then s.late + 1 else s.late }

/-- One step; `none`: it is not possible.
Models `src/streaming/sink.creator.cpp:258-308` and 319-408. -/
def step (s : State) : Step → Option State
  /- reads `all_successful`; attempts the creation only if it is still set (`sink.creator.cpp:279-288, 334-338,
     385-389`) -/
  | .try i =>
    match s.jobs[i]?, s.outcomes[i]? with
    | some .fresh, some ok => some { touch s with jobs := s.jobs.set i (.tried (!s.flag || ok)) }
    | _, _ => none
  /- `latch.count_down()` (`sink.creator.cpp:263-299, 344, 395`) -/
  | .count i =>
    match s.jobs[i]? with
    | some (.tried ok) => some { touch s with jobs := s.jobs.set i (.counted ok) }
    | _ => none
  /- `all_successful.fetch_and(success)` (`sink.creator.cpp:264, 276, 289, 345, 396`) -/
  | .mark i =>
    match s.jobs[i]? with
    | some (.counted ok) =>
      if s.touches || !ok then some { touch s with
        jobs := s.jobs.set i (.ended ok)
        flag := s.flag && ok }
      else some { s with jobs := s.jobs.set i (.ended ok) }
    | _ => none
  /- `latch.wait(); return (bool)all_successful;` (`sink.creator.cpp:305-308, 354-357, 405-408`) -/
  | .ret =>
    if s.result.isNone && s.jobs.all Job.hasCounted then some { s with result := some s.flag } else none

/-- A schedule: a sequence of possible steps.
Models `src/streaming/sink.creator.cpp:258-308` and 319-408. -/
def run (s : State) : List Step → Option State
  | [] => some s
  | x :: xs =>
    match step s x with
    | none => none
    | some s' => run s' xs

/-- Whether the job that opens a file reports success: the constructor of `FileSink`
(`src/streaming/file.sink.cpp:7-10`) does not check whether the file could be opened, and an `std::ofstream` does
not throw. -/
def fileOutcome (_opened : Bool) : Bool := true

end AZ.Creation
