import Verif.Model.S3

/-!
# The pool of S3 connections

Models `S3ConnectionPool` (`src/streaming/s3.connection.cpp:217-264`) as a transition system: the sections protected by
`connections_mutex_` are atomic, and `get_connection` blocks while there is no connection (lines 244-246). The threads
execute what the sinks do (`Act`); sending a request is a local step of the thread that holds the connection.

Not modelled: the destruction of the pool (`s3.connection.cpp:234-238`) while threads are waiting; the sinks keep the
pool alive (`std::shared_ptr`).
-/

namespace AZ.S3

/-- A thread: the connection it holds and what it still has to do.
The users of `get_connection`: `src/streaming/s3.sink.cpp:91-203` and sink.creator.cpp:412-482. -/
structure Thread where
  held : Option Nat
  todo : List Act
  deriving Repr, DecidableEq

/-- Connections are numbered; `lost` are the destroyed ones.
Models `src/streaming/s3.connection.cpp:217-264`. -/
structure Conns where
  free : List Nat
  lost : List Nat
  threads : List Thread
  deriving Repr, DecidableEq

/-- Constructor (`src/streaming/s3.connection.cpp:217-232`) with `n` valid connections, and the threads that use them. -/
def Conns.start (n : Nat) (programs : List (List Act)) : Conns :=
  ⟨List.range n, [], programs.map fun p => ⟨none, p⟩⟩

/-- The next step of thread `t`; `none`: it has finished or is blocked. `get_connection` takes the last connection
(`s3.connection.cpp:252-254`), `return_connection` appends (`s3.connection.cpp:260-263`). A thread that gives back or
destroys a connection it does not hold moves a null pointer, which is not modelled (`none`). -/
def Conns.step (c : Conns) (t : Nat) : Option Conns :=
  match c.threads[t]? with
  | none => none
  | some th =>
    match th.todo with
    | [] => none
    | .get :: rest =>
      match c.free.getLast?, th.held with
      | some x, none => some ⟨c.free.dropLast, c.lost, c.threads.set t ⟨some x, rest⟩⟩
      | _, _ => none
    | .sent _ _ :: rest => some ⟨c.free, c.lost, c.threads.set t ⟨th.held, rest⟩⟩
    | .giveBack :: rest =>
      match th.held with
      | some x => some ⟨c.free ++ [x], c.lost, c.threads.set t ⟨none, rest⟩⟩
      | none => none
    | .lose :: rest =>
      match th.held with
      | some x => some ⟨c.free, c.lost ++ [x], c.threads.set t ⟨none, rest⟩⟩
      | none => none

/-- A schedule: the threads that make the successive steps.
Models `src/streaming/s3.connection.cpp:241-264`, called by any threads. -/
def Conns.run : Conns → List Nat → Option Conns
  | c, [] => some c
  | c, t :: ts => (c.step t).bind (Conns.run · ts)

end AZ.S3
