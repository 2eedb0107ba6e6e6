import Verif.Model.Store

/-! # Specification: what a file may contain after the process dies

A `FileSink` writes through an `std::ofstream` (`src/streaming/file.sink.cpp:7-30`), which hands bytes to the operating
system in the order in which they were written, at a time of its choice but not later than `flush` or the destruction
of the stream. Bytes handed to the operating system survive the death of the process. -/

namespace Spec
open AZ

/-- A file as seen by the operating system (`none`: does not exist) and the writes that may still be in the buffer of
the stream, oldest first. -/
structure Disk where
  file : Option Bytes
  pending : List (Nat × Bytes)

/-- Writes reaching the operating system. -/
def emit (b : Bytes) (ws : List (Nat × Bytes)) : Bytes :=
  ws.foldl (fun b w => if w.2.isEmpty then b else pwrite b w.1 w.2) b

/-- Effect of an event on the file `p`. -/
def stepDisk (p : Text) (d : Disk) (e : Ev) : Disk :=
  if e.path = p then
    match e with
    | .opened _ => ⟨some [], []⟩
    | .wrote _ off data => ⟨d.file, d.pending ++ [(off, data)]⟩
    | .finalized _ | .dropped _ => ⟨d.file.map (emit · d.pending), []⟩
  else d

/-- File `p` after a history. -/
def disk (p : Text) (tr : List Ev) : Disk := tr.foldl (stepDisk p) ⟨none, []⟩

/-- `c` is a possible content of file `p` if the process dies after the history `tr`: the oldest `k` buffered writes and
the first `j` bytes of the next one have reached the operating system. -/
def TornImage (p : Text) (tr : List Ev) (c : Option Bytes) : Prop :=
  ∃ k j, c = (disk p tr).file.map (emit · ((disk p tr).pending.take k ++
    (((disk p tr).pending.drop k).take 1).map fun w => (w.1, w.2.take j)))

/-- The same if every write reaches the operating system as a whole or not at all. -/
def WholeImage (p : Text) (tr : List Ev) (c : Option Bytes) : Prop :=
  ∃ k, c = (disk p tr).file.map (emit · ((disk p tr).pending.take k))

/-- The worker threads may execute the events of different chunk files in another order. `tr'` is a history that differs
from `tr` at most in this way: for each file, its events and the events of the document `d` are in the same order. -/
def SameOrder (d : Text) (tr tr' : List Ev) : Prop :=
  ∀ p, tr'.filter (fun e => decide (e.path = p ∨ e.path = d)) = tr.filter fun e => decide (e.path = p ∨ e.path = d)

end Spec
