import Verif.Model.Connections

/-!
# Waiting for a connection

`Model.Connections` lets a thread take a connection as soon as there is one. Here the condition variable of
`S3ConnectionPool` (`src/streaming/s3.connection.cpp:241-264`) is explicit: a thread that finds no connection goes to sleep
and is woken by `notify_one` of `return_connection`, by chance one of the sleeping threads, or spuriously. A woken thread
looks again; another thread may have taken the connection meanwhile, and then it goes back to sleep.

Simplifications: the sections under `connections_mutex_` are atomic; `is_accepting_connections_` is true (it changes only
in the destructor, and the sinks keep the pool alive).
-/

namespace AZ.S3

/-- Where a thread is with respect to `cv_.wait` (`s3.connection.cpp:245-247`): not in it, asleep, or woken but not yet
past the test of the condition. -/
inductive Mode
  | running | asleep | woken
  deriving Repr, DecidableEq

/-- The pool, its users, and which of them wait.
Models `src/streaming/s3.connection.cpp:241-264` and the members in s3.connection.hh. -/
structure Waiting where
  conns : Conns
  mode : List Mode
  deriving Repr, DecidableEq

/-- All threads are outside `get_connection`. Models `src/streaming/s3.connection.cpp:217-233`. -/
def Waiting.start (n : Nat) (programs : List (List Act)) : Waiting :=
  ⟨Conns.start n programs, programs.map fun _ => .running⟩

/-- A move: thread `t` goes on, where `wake` is the thread that its `notify_one` wakes (if it calls it and a thread is
asleep); or a sleeping thread wakes up spuriously.
Models `src/streaming/s3.connection.cpp:241-264`. -/
inductive Move
  | go (t : Nat) (wake : Nat)
  | spurious (t : Nat)
  deriving Repr, DecidableEq

/-- `notify_one` (`s3.connection.cpp:263`): one of the sleeping threads is woken, `wake`; nothing happens if none sleeps. -/
def notifyOne (mode : List Mode) (wake : Nat) : Option (List Mode) :=
  if .asleep ∉ mode then some mode
  else if mode[wake]? = some .asleep then some (mode.set wake .woken) else none

/-- One move; `none`: it is not possible. Models `src/streaming/s3.connection.cpp:241-264`. -/
def Waiting.step (s : Waiting) : Move → Option Waiting
  | .spurious t => if s.mode[t]? = some .asleep then some { s with mode := s.mode.set t .woken } else none
  | .go t wake =>
    if s.mode[t]? = some .asleep then none
    else
      match (s.conns.threads[t]?).bind (·.todo.head?) with
      | some .get =>
        -- `s3.connection.cpp:244-254`
        if s.conns.free = [] then some { s with mode := s.mode.set t .asleep }
        else (s.conns.step t).map fun c => ⟨c, s.mode.set t .running⟩
      | some .giveBack =>
        -- `s3.connection.cpp:258-264`
        (s.conns.step t).bind fun c => (notifyOne s.mode wake).map fun m => ⟨c, m⟩
      | _ => (s.conns.step t).map fun c => ⟨c, s.mode⟩

/-- A sequence of moves. Models `src/streaming/s3.connection.cpp:241-264`, called by any threads. -/
def Waiting.run : Waiting → List Move → Option Waiting
  | s, [] => some s
  | s, m :: ms => (s.step m).bind (Waiting.run · ms)

end AZ.S3
