import Verif.Model.Python
import Verif.Model.Exceptions

/-!
# A Python stream object under a program that goes on after exceptions
-/

namespace AZ.Py
open AZ.Exc

/-- What a program can do with a `ZarrStream` object (`python/acquire-zarr-py.cpp:697-700`). Each call meets some state of the storage.
(Auxiliary: the calls made by the user.) -/
inductive Stmt where
  | append (env : Env) (m : Array)
  | isActive

/-- What the program sees: `append` returns or raises `RuntimeError`, `is_active` answers.
Auxiliary: the outcomes of `python/acquire-zarr-py.cpp:371-394`. -/
inductive Seen where
  | returned
  | raised
  | answered (b : Bool)
  deriving Repr, DecidableEq

/-- `PyZarrStream::is_active` (`python/acquire-zarr-py.cpp:394`): whether the member `stream_` holds a stream. -/
def isActive (o : Option XStream) : Bool := o.isSome

/-- One statement. `append` (`python/acquire-zarr-py.cpp:371-392`) asks `is_active`, calls `ZarrStream_append` and raises if the status is
not success; it never changes the member `stream_`. `none`: undefined behaviour or a call that does not return. -/
def stmt (o : Option XStream) : Stmt → Option (Option XStream × Seen)
  | .isActive => some (o, .answered (isActive o))
  | .append env m =>
    if !isActive o then some (o, .raised) else
    match o with
    | none => some (o, .raised)
    | some st =>
      match appendX env (appendBytes m) st with
      | none => none
      | some .ub => none
      | some (.throw s) => some (some s, .raised)
      | some (.ok _ s) => some (some s, .returned)

/-- A program that catches the exceptions and goes on.
Models `python/acquire-zarr-py.cpp:371-394`, called by the user. -/
def program (o : Option XStream) : List Stmt → Option (Option XStream × List Seen)
  | [] => some (o, [])
  | x :: xs =>
    match stmt o x with
    | none => none
    | some (o', y) => (program o' xs).map fun r => (r.1, y :: r.2)

end AZ.Py
