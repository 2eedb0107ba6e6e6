import Verif.Model.Store

/-! # Observations on a history of storage events -/

namespace Spec
open AZ

/-- Effect of an event on "the document most recently handed to the object `p`". -/
def stepDoc (p : Text) (cur : Option Bytes) (e : Ev) : Option Bytes :=
  if e.path = p then
    match e with
    | .opened _ => some []
    | .wrote _ _ d => some d
    | .finalized _ | .dropped _ => cur
  else cur

/-- The document most recently handed to the object `p` in the history `tr` (empty if the object was only
created, `none` if it does not exist). -/
def lastDocument (p : Text) (tr : List Ev) : Option Bytes := tr.foldl (stepDoc p) none

end Spec
