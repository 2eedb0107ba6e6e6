import Verif.Model.Logger

/-! # What should appear in the logs -/

namespace AZ.Log

/-- A line of the log: who wrote it, when, and what. -/
structure Line where
  thread : Nat
  time : Nat
  level : LogLevel
  text : Text
  deriving Repr, DecidableEq

def levelName : LogLevel → Text
  | .debug => "[DEBUG] ".toList
  | .info => "[INFO] ".toList
  | .warning => "[WARNING] ".toList
  | .error => "[ERROR] ".toList
  | .none => "[ERROR] ".toList

/-- How a line looks. -/
def Line.look (stamp : Nat → Text) (l : Line) : Text :=
  stamp l.time ++ " ".toList ++ levelName l.level ++ l.text ++ "\n".toList

/-- The lines as they look, one after the other. -/
def page (stamp : Nat → Text) (ls : List Line) : Text := (ls.map (Line.look stamp)).flatten

/-- Errors go to the standard error stream, everything else to standard output. -/
def Line.error (l : Line) : Bool := l.level == .error || l.level == .none

/-- The messages of a history of calls (thread, call), one after the other, that are at or above the level that is set at that
moment; `cur` is the level at the beginning. -/
def shown (cur : LogLevel) : List (Nat × Act) → List (Nat × LogLevel × Text)
  | [] => []
  | (_, .set l) :: h => shown l h
  | (i, .log l t) :: h => if cur.num ≤ l.num then (i, l, t) :: shown cur h else shown cur h

/-- The part of a list of tagged things that belongs to thread `i`. -/
def ofThread {α : Type} (i : Nat) (l : List (Nat × α)) : List α := (l.filter fun x => x.1 == i).map (·.2)

/-- Who said what. -/
def Line.key (l : Line) : Nat × LogLevel × Text := (l.thread, l.level, l.text)

/-- The messages of a thread's program that are at or above level `cur`. -/
def visible (cur : LogLevel) : List Act → List (LogLevel × Text)
  | [] => []
  | .set _ :: p => visible cur p
  | .log l t :: p => if cur.num ≤ l.num then (l, t) :: visible cur p else visible cur p

/-- `text`, written after `before`, consists of these lines, the last one perhaps not complete. -/
def Written (stamp : Nat → Text) (before text : Text) (ls : List Line) : Prop :=
  before ++ page stamp ls.dropLast <+: text ∧ text <+: before ++ page stamp ls

/-- Every thread is done with all it had to do. -/
def Done (s : State) : Prop := ∀ t ∈ s.threads, t = ⟨[], .ready⟩

/-- A thread's next action reads the level, or a thread's next action sets it. -/
def ReadsLevel (s : State) (i : Nat) : Prop := ∃ l t todo, s.threads[i]? = some ⟨.log l t :: todo, .ready⟩
def SetsLevel (s : State) (i : Nat) : Prop := ∃ l todo, s.threads[i]? = some ⟨.set l :: todo, .ready⟩

/-- The level may be written by one thread while another reads or writes it; it is no atomic variable. -/
def LevelRace (s : State) : Prop := ∃ i j, i ≠ j ∧ SetsLevel s i ∧ (ReadsLevel s j ∨ SetsLevel s j)

end AZ.Log
