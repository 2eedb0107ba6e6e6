import Verif.Model.S3

/-! # Specification: what an S3 server stores

An object appears when a `put` or a `complete` is confirmed. A multipart object consists of the data of the listed parts,
as last uploaded to that upload. Requests that were not confirmed have no effect. -/

namespace Spec
open AZ AZ.S3

/-- The requests of a sink with their replies. -/
def exchange (log : List Act) : List (Req × Reply) := log.filterMap fun
  | .sent q a => some (q, a)
  | _ => none

/-- Data that one exchange gives to part `n` of upload `id`. -/
def partOf (id : Text) (n : Nat) : Req × Reply → Option Bytes
  | (.part i m data, .confirmed _) => if i = id ∧ m = n then some data else none
  | _ => none

/-- Data of part `n` of upload `id`: as last uploaded. -/
def partData (id : Text) (n : Nat) : List (Req × Reply) → Option Bytes
  | [] => none
  | e :: es => (partData id n es).or (partOf id n e)

/-- The object created by one exchange, after the exchanges `before`. -/
def objectOf (before : List (Req × Reply)) : Req × Reply → Option Bytes
  | (.put data, .confirmed _) => some data
  | (.complete id parts, .confirmed _) => some (parts.flatMap fun p => (partData id p.1 before).getD [])
  | _ => none

/-- The object after the exchanges `before`, then `es`, if one of `es` created it: the last one. -/
def objectFrom (before : List (Req × Reply)) : List (Req × Reply) → Option Bytes
  | [] => none
  | e :: es => (objectFrom (before ++ [e]) es).or (objectOf before e)

/-- The object after the exchange; `none`: there is none. -/
def object (es : List (Req × Reply)) : Option Bytes := objectFrom [] es

/-- Sizes of the uploaded parts, with their numbers, in order of upload. -/
def partSizes (es : List (Req × Reply)) : List (Nat × Nat) := es.filterMap fun
  | (.part _ n data, _) => some (n, data.length)
  | _ => none

/-- Every request is confirmed with a nonempty name. -/
def Healthy (r : Nat → Reply) : Prop := ∀ n, ∃ t, t ≠ [] ∧ r n = .confirmed t

end Spec
