import Verif.Model.Reporting

/-! # Which thread may access what next -/

namespace AZ.Reporting

inductive Thread where
  | caller
  | worker (w : Nat)
  deriving DecidableEq

/-- The thread's next action may access chunk buffer `b`: the caller accesses any buffer while it is inside append outside
the batches, and the buffers of the job it is about to push; a worker those of the job it runs, until it counts down. -/
def MayTouch (s : State) : Thread → Nat → Prop
  | .caller, b =>
    match s.caller with
    | .outside => False
    | .inside _ => True
    | .pushing (j :: _) _ => b ∈ j.owns
    | .pushing [] _ => False
  | .worker w, b => ∃ j, s.workers[w]? = some (.running j) ∧ b ∈ j.owns

/-- Two threads may access the same chunk buffer at the same time. -/
def BufferRace (s : State) : Prop := ∃ t t' b, t ≠ t' ∧ MayTouch s t b ∧ MayTouch s t' b

/-- The caller's next action may be to read the stream's error message (a call of append). -/
def ReadsError (s : State) : Prop := s.caller = .outside ∧ s.calls ≠ []

/-- The next action of worker `w` is to assign the stream's error message. -/
def WritesError (s : State) (w : Nat) : Prop := ∃ j m, s.workers[w]? = some (.counted j) ∧ j.fails = some m

/-- The error message may be written by one thread while another reads or writes it. -/
def ErrorRace (s : State) : Prop :=
  (ReadsError s ∧ ∃ w, WritesError s w) ∨ ∃ w w', w ≠ w' ∧ WritesError s w ∧ WritesError s w'

/-- No two jobs of a batch access the same buffer. -/
def Separate (b : List Job) : Prop := b.Pairwise fun j j' => ∀ x, x ∈ j.owns → x ∉ j'.owns

/-- No job fails with an empty message. -/
def Speaking (calls : List (List (List Job))) : Prop := ∀ c ∈ calls, ∀ b ∈ c, ∀ j ∈ b, j.fails ≠ some []

/-- No job between `count_down` and the end of its error handler. -/
def Quiet (s : State) : Prop := ∀ w ∈ s.workers, w = .idle

end AZ.Reporting
