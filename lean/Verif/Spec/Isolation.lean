import Verif.Model.Store
import Verif.Spec.Interleaving

/-! # Several streams acting on one file system -/

namespace Spec
open AZ

/-- One action on the file system: the removal of everything below a directory, or an event of a sink. -/
inductive DiskAct where
  | cleared (dir : Text)
  | event (e : Ev)

/-- Effect of one action on the file named `p` (`none`: no such file). -/
def stepAct (p : Text) (cur : Option Bytes) : DiskAct → Option Bytes
  | .cleared dir => if (dir ++ ['/']).isPrefixOf p then none else cur
  | .event e => stepFile p cur e

/-- Contents of the file `p` after a history of actions, `before` being its contents at the beginning. -/
def diskAfter (p : Text) (before : Option Bytes) (acts : List DiskAct) : Option Bytes := acts.foldl (stepAct p) before

/-- No file lies below both directories, as texts (symbolic links and different spellings of one directory are not considered). -/
def Apart (a b : Text) : Prop := ∀ p q, a ++ '/' :: p ≠ b ++ '/' :: q

end Spec
