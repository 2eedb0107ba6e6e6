import Verif.Model.Store

/-! # Specification: a finished object is left alone -/

namespace Spec
open AZ

/-- In the history `tr`, no event after `finalized p` concerns object `p`: it is not opened again, written, closed or dropped. -/
def ClosedForGood (tr : List Ev) : Prop :=
  ∀ pre p post, tr = pre ++ Ev.finalized p :: post → ∀ e ∈ post, e.path ≠ p

/-- Whether object `p` is open after the events, if it was open before them or not (`b`). -/
def openAfter (p : Text) : Bool → List Ev → Bool
  | b, [] => b
  | b, .opened q :: es => openAfter p (b || decide (q = p)) es
  | b, .wrote _ _ _ :: es => openAfter p b es
  | b, .finalized q :: es => openAfter p (b && !decide (q = p)) es
  | b, .dropped q :: es => openAfter p (b && !decide (q = p)) es

/-- No object is open at the end of the history. -/
def NothingOpen (tr : List Ev) : Prop := ∀ p, openAfter p false tr = false

end Spec
