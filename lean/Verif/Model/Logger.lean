import Verif.Model.Api

/-!
# Logging from several threads

Transition system of the threads of a program that call `Logger::log` (through `LOG_DEBUG`, ..., `EXPECT`) and
`Zarr_set_log_level`, at the granularity of single characters of the output (`src/logger/logger.hh:15-59`,
`src/logger/logger.cpp:7-18`). Not modelled: output by other code of the program to the same streams; failing output streams;
the exception that formatting an argument may throw.
-/

namespace AZ.Log

/-- What a thread does with the logger: one call of `Logger::log`, where `text` is everything after the level
(`file:line func: message`), or one successful call of `Zarr_set_log_level`.
Models `src/logger/logger.hh:15-59`, logger.cpp:7-18. -/
inductive Act where
  | log (level : LogLevel) (text : Text)
  | set (level : LogLevel)
  deriving Repr, DecidableEq

/-- A thread outside the logger; past the test of the level, in the constructor of `scoped_lock`; with the mutex, before
`get_timestamp_()`; writing: what is left to write to `std::cerr` (`toErr`) or `std::cout`.
Models `src/logger/logger.hh:15-59`. -/
inductive Phase where
  | ready
  | passed (level : LogLevel) (text : Text)
  | locked (level : LogLevel) (text : Text)
  | writing (toErr : Bool) (rest : Text)
  deriving Repr, DecidableEq

/-- A thread: where it is in the logger, and the calls it still has to make.
Models `src/logger/logger.hh:15-59`. -/
structure Thread where
  todo : List Act
  phase : Phase
  deriving Repr, DecidableEq

/-- `level` is `current_level_`, `owner` the thread that holds `log_mutex_`, `clock` the system clock, `out` and `err` what has been
written to `std::cout` and `std::cerr`. Models `src/logger/logger.hh:15-84`, logger.cpp:1-18. -/
structure State where
  threads : List Thread
  level : LogLevel
  owner : Option Nat
  clock : Nat
  out : Text
  err : Text
  deriving Repr, DecidableEq

/-- The program starts, or all threads are outside the logger: `progs` is what they will do.
Models `src/logger/logger.cpp:1-18`. -/
def start (progs : List (List Act)) (level : LogLevel) (clock : Nat) (out err : Text) : State where
  threads := progs.map fun p => ⟨p, .ready⟩
  level := level
  owner := none
  clock := clock
  out := out
  err := err

/-- The `switch` (`src/logger/logger.hh:34-48`; `default` is every other level, also `LogLevel_None`): the prefix. -/
def tag : LogLevel → Text
  | .debug => "[DEBUG] ".toList
  | .info => "[INFO] ".toList
  | .warning => "[WARNING] ".toList
  | _ => "[ERROR] ".toList

/-- The `switch` (`src/logger/logger.hh:34-48`): is the stream `std::cerr`? -/
def toErr : LogLevel → Bool
  | .debug | .info | .warning => false
  | _ => true

/-- `message` and `std::endl` (`src/logger/logger.hh:53-60`); `stamp` is `get_timestamp_` as a function of the clock. -/
def message (stamp : Nat → Text) (t : Nat) (level : LogLevel) (text : Text) : Text :=
  stamp t ++ ' ' :: (tag level ++ (text ++ ['\n']))

/-- A step of thread `t`, or the passing of time.
Models `src/logger/logger.hh:15-59`. -/
inductive Step where
  | begin (i : Nat)
  | lock (i : Nat)
  | format (i : Nat)
  | put (i : Nat)
  | unlock (i : Nat)
  | tick
  deriving Repr, DecidableEq

/-- `none`: the step is not possible. Models `src/logger/logger.hh:15-59`, logger.cpp:7-18. -/
def step (stamp : Nat → Text) (s : State) : Step → Option State
  /- `if (level < current_level_) return "";` (`src/logger/logger.hh:26-28`), or `current_level_ = level;`
  (`src/logger/logger.cpp:17`) -/
  | .begin i =>
    match s.threads[i]? with
    | some ⟨.log l t :: todo, .ready⟩ =>
      if l.num < s.level.num then some { s with threads := s.threads.set i ⟨todo, .ready⟩ }
      else some { s with threads := s.threads.set i ⟨todo, .passed l t⟩ }
    | some ⟨.set l :: todo, .ready⟩ => some { s with threads := s.threads.set i ⟨todo, .ready⟩, level := l }
    | _ => none
  /- `std::scoped_lock lock(log_mutex_);` (`src/logger/logger.hh:30`) -/
  | .lock i =>
    match s.threads[i]?, s.owner with
    | some ⟨todo, .passed l t⟩, none => some { s with threads := s.threads.set i ⟨todo, .locked l t⟩, owner := some i }
    | _, _ => none
  /- `src/logger/logger.hh:53-59` -/
  | .format i =>
    match s.threads[i]? with
    | some ⟨todo, .locked l t⟩ => some { s with threads := s.threads.set i ⟨todo, .writing (toErr l) (message stamp s.clock l t)⟩ }
    | _ => none
  /- one character of `*stream << message << std::endl;` (`src/logger/logger.hh:60`) -/
  | .put i =>
    match s.threads[i]? with
    | some ⟨todo, .writing true (c :: r)⟩ => some { s with threads := s.threads.set i ⟨todo, .writing true r⟩, err := s.err ++ [c] }
    | some ⟨todo, .writing false (c :: r)⟩ => some { s with threads := s.threads.set i ⟨todo, .writing false r⟩, out := s.out ++ [c] }
    | _ => none
  /- the end of the scope of `lock` -/
  | .unlock i =>
    match s.threads[i]? with
    | some ⟨todo, .writing _ []⟩ => some { s with threads := s.threads.set i ⟨todo, .ready⟩, owner := none }
    | _ => none
  /- time passes; the clock is not set back -/
  | .tick => some { s with clock := s.clock + 1 }

/-- A schedule: a sequence of possible steps.
Models `src/logger/logger.hh:15-59`, called by any threads. -/
def run (stamp : Nat → Text) (s : State) : List Step → Option State
  | [] => some s
  | x :: xs =>
    match step stamp s x with
    | none => none
    | some s' => run stamp s' xs

end AZ.Log
