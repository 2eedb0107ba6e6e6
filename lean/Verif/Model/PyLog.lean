import Verif.Model.Api
import Verif.Model.PyKeywords

/-!
# The log level in Python

Models `import acquire_zarr`, `set_log_level` and `get_log_level` (`python/acquire-zarr-py.cpp:94-109, 467-472, 702-726`). An enumeration
class of pybind11 can be called with any unsigned number (`LogLevel(17)`); the result is an object of the class that is none of the named
members.
-/

namespace AZ.Py

/-- `log_level_to_str` (`python/acquire-zarr-py.cpp:93-110`): the names of the members of `LogLevel` (`:467-472`). -/
def logLevelStr : Nat → Text
  | 0 => "DEBUG".toList
  | 1 => "INFO".toList
  | 2 => "WARNING".toList
  | 3 => "ERROR".toList
  | 4 => "NONE".toList
  | _ => "UNKNOWN".toList

/-- How a statement ends: with a value, with pybind11's `TypeError`, or with `RuntimeError` and its text
(`python/acquire-zarr-py.cpp:702-719`). -/
inductive Ends where
  | value (v : Val)
  | typeError
  | runtimeError (text : Text)

/-- `import acquire_zarr`, the first time (`python/acquire-zarr-py.cpp:720-725`); `cur` is the level before. -/
def importModule (cur : LogLevel) : LogLevel := (setLogLevel cur 1).1

/-- `set_log_level(v)` (`python/acquire-zarr-py.cpp:702-714`). -/
def pySetLogLevel (cur : LogLevel) (v : Val) : LogLevel × Ends :=
  match asEnum .logLevel v with
  | .none => (cur, .typeError)
  | some n =>
    let r := setLogLevel cur n
    if r.2 = statusSuccess then (r.1, .value .none)
    else (r.1, .runtimeError ("Failed to set log level: ".toList ++ (statusMessage r.2).toList))

/-- `get_log_level()` (`python/acquire-zarr-py.cpp:716-719`). -/
def pyGetLogLevel (cur : LogLevel) : Val := .enum .logLevel (getLogLevel cur).toNat

/-- A statement about the log level. Models the calls of `python/acquire-zarr-py.cpp:702-719`. -/
inductive LogStmt where
  | set (v : Val)
  | get

/-- A program: exceptions are caught, the program goes on. Models calls of `python/acquire-zarr-py.cpp:702-719` by the user. -/
def runLog : LogLevel → List LogStmt → LogLevel × List Ends
  | cur, [] => (cur, [])
  | cur, .set v :: l =>
    let r := pySetLogLevel cur v
    let s := runLog r.1 l
    (s.1, r.2 :: s.2)
  | cur, .get :: l =>
    let s := runLog cur l
    (s.1, .value (pyGetLogLevel cur) :: s.2)

end AZ.Py
