import Verif.Model.Stream

/-!
# The C API around the stream

Models `src/streaming/acquire.zarr.cpp`, `src/logger/logger.cpp` and `src/logger/logger.hh`.
-/

namespace AZ

/-! ### Status codes -/

/-- Codes returned by the API (`include/zarr.types.h:11-24`). -/
def statusSuccess : Nat := 0
/-- `ZarrStatusCode_InvalidArgument`.
Models `include/zarr.types.h:11-24`. -/
def statusInvalidArgument : Nat := 1
/-- `ZarrStatusCode_InternalError`.
Models `include/zarr.types.h:11-24`. -/
def statusInternalError : Nat := 5
/-- `ZarrStatusCode_OutOfMemory`.
Models `include/zarr.types.h:11-24`. -/
def statusOutOfMemory : Nat := 6

/-- `Zarr_get_status_message` (`src/streaming/acquire.zarr.cpp:68-95`). A C enumerator is an integer. -/
def statusMessage (code : Int) : String :=
  match code with
  | 0 => "Success"
  | 1 => "Invalid argument"
  | 2 => "Buffer overflow"
  | 3 => "Invalid index"
  | 4 => "Not yet implemented"
  | 5 => "Internal error"
  | 6 => "Out of memory"
  | 7 => "I/O error"
  | 8 => "Compression error"
  | 9 => "Invalid settings"
  | _ => "Unknown error"

/-! ### Logger -/

/-- `LogLevel` (`src/logger/logger.types.h:3-9`). -/
inductive LogLevel where
  | debug | info | warning | error | none
  deriving Repr, DecidableEq

/-- The numeric value of a level.
Models `src/logger/logger.types.h:1-9`. -/
def LogLevel.num : LogLevel → Nat
  | .debug => 0 | .info => 1 | .warning => 2 | .error => 3 | .none => 4

/-- `Logger::current_level_` (`src/logger/logger.cpp:7`): the initial level. -/
def logInit : LogLevel := .info

/-- The switch of `Zarr_set_log_level` (`src/streaming/acquire.zarr.cpp:16-35`). -/
def LogLevel.ofC (level : Int) : Option LogLevel :=
  match level with
  | 0 => some .debug | 1 => some .info | 2 => some .warning | 3 => some .error | 4 => some .none
  | _ => Option.none

/-- `Zarr_set_log_level` (`src/streaming/acquire.zarr.cpp:14-44`; the range check of
`Logger::set_log_level`, `logger.cpp:10-18`, cannot fail here): new level and status. -/
def setLogLevel (cur : LogLevel) (level : Int) : LogLevel × Nat :=
  match LogLevel.ofC level with
  | Option.none => (cur, statusInvalidArgument)
  | some l => (l, statusSuccess)

/-- `Zarr_get_log_level` (`src/streaming/acquire.zarr.cpp:46-66`). -/
def getLogLevel (cur : LogLevel) : Int :=
  match cur with
  | .debug => 0 | .info => 1 | .warning => 2 | .error => 3 | .none => 4

/-- `Logger::log` (`src/logger/logger.hh:15-59`): what is printed (stream, text) and the returned string.
The time stamp and position are part of `text`. -/
def logMessage (cur : LogLevel) (level : LogLevel) (text : Text) : Option (Bool × Text) × Text :=
  if level.num < cur.num then (none, [])
  else (some (decide (level.num ≥ 3), text), text)

/-- The message of the exception thrown by `EXPECT` (`src/streaming/macros.hh:5-12`): what `LOG_ERROR`
returned. -/
def expectMessage (cur : LogLevel) (text : Text) : Text := (logMessage cur .error text).2

/-- Error strings of jobs whose exception came from `CHECK`/`EXPECT` (`array.writer.cpp:380-383`,
`zarrv2.array.writer.cpp:103-106`, `zarrv3.array.writer.cpp:134-136`, `sink.creator.cpp:290,343,394`):
a fixed prefix followed by the message of the exception. -/
def jobError (cur : LogLevel) (pre text : Text) : Text := pre ++ expectMessage cur text

/-! ### Dimension arrays -/

/-- The part of `ZarrStreamSettings` concerned, and the allocations of `new[]`: `live` are the arrays not yet
deleted, `next` a fresh address, `freed` the addresses passed to `delete[]`, in order.
Models `src/streaming/acquire.zarr.cpp:97-132`. -/
structure DimHeap where
  dimensions : Option Nat
  count : Nat
  next : Nat
  live : List (Nat × Nat)
  freed : List Nat
  deriving Repr, DecidableEq

/-- A zeroed settings struct. Models `src/streaming/acquire.zarr.cpp:97-132`. -/
def DimHeap.init : DimHeap := ⟨none, 0, 0, [], []⟩

/-- `delete[]`. Models `src/streaming/acquire.zarr.cpp:121-132`. -/
def DimHeap.free (h : DimHeap) (p : Nat) : DimHeap :=
  { h with live := h.live.filter (·.1 ≠ p), freed := h.freed ++ [p] }

/-- `ZarrStreamSettings_destroy_dimension_array` (`src/streaming/acquire.zarr.cpp:120-132`) for a non-NULL
settings pointer. -/
def destroyDims (h : DimHeap) : DimHeap :=
  let h1 := match h.dimensions with
    | some p => { h.free p with dimensions := none }
    | none => h
  { h1 with count := 0 }

/-- `ZarrStreamSettings_create_dimension_array` (`src/streaming/acquire.zarr.cpp:97-118`); `allocOk` says
whether `new[]` succeeds. -/
def createDims (h : DimHeap) (n : Nat) (allocOk : Bool) : DimHeap × Nat :=
  if n < 3 then (h, statusInvalidArgument)
  else if !allocOk then (h, statusOutOfMemory)
  else
    let p := h.next
    let h1 := { h with next := p + 1, live := (p, n) :: h.live }
    let h2 := destroyDims h1
    ({ h2 with dimensions := some p, count := n }, statusSuccess)

/-- One call on the settings struct. Models `src/streaming/acquire.zarr.cpp:97-132`. -/
inductive DimOp where
  | create (n : Nat) (allocOk : Bool)
  | destroy
  deriving Repr, DecidableEq

/-- One call of `ZarrStreamSettings_create_dimension_array` or `_destroy_dimension_array`.
Models `src/streaming/acquire.zarr.cpp:97-132`. -/
def stepDims (h : DimHeap) : DimOp → DimHeap
  | .create n ok => (createDims h n ok).1
  | .destroy => destroyDims h

/-! ### Streams -/

/-- Result of `ZarrStream_append`: the status, the value of `*bytes_out` afterwards, and the stream
afterwards, unless the call threw (the state an exception leaves behind is not modelled) or has undefined
behaviour. Models `src/streaming/acquire.zarr.cpp:158-176`. -/
structure AppendResult where
  status : Nat
  bytesOut : Option Nat
  stream : Option SState
  deriving Repr, DecidableEq

/-- `ZarrStream_append` (`src/streaming/acquire.zarr.cpp:158-176`): NULL pointers are `none`, `out` is the
object `bytes_out` points to. -/
def apiAppend (env : Env) (stream : Option SState) (data : Option Bytes) (out : Option Nat) : Res AppendResult :=
  match stream, data, out with
  | none, _, _ => .ok ⟨statusInvalidArgument, out, none⟩
  | some st, none, _ => .ok ⟨statusInvalidArgument, out, some st⟩
  | some st, some _, none => .ok ⟨statusInvalidArgument, none, some st⟩
  | some st, some d, some o =>
    match append env (appendFuel d) d st with
    | none => .ub
    | some .ub => .ub
    | some .throw => .ok ⟨statusInternalError, some o, none⟩
    | some (.ok (st', n)) => .ok ⟨statusSuccess, some n, some st'⟩

/-- `ZarrStream_destroy` with `finalize_stream` (`src/streaming/acquire.zarr.cpp:149-156`,
`zarr.stream.cpp:961-1000`): the storage events of the call. -/
def apiDestroy (env : Env) (stream : Option SState) : Res (List Ev) :=
  match stream with
  | none => .ok []
  | some st =>
    match destroyStream env st with
    | .ok tr => .ok (tr.drop st.trace.length)
    | .throw => .throw
    | .ub => .ub

/-- `ZarrStream_create` (`src/streaming/acquire.zarr.cpp:134-147`) with a record of whether
`create_store_`, the first statement that touches storage, was reached (`zarr.stream.cpp:376-417`). -/
def apiCreate (w : World) (env : Env) (fuel : Nat) (s : Option Settings) : Bool × Option (Res SState) :=
  match validateSettings w s, s with
  | .ok true, some s' =>
    match commitSettings s' with
    | .ok _ => (true, createStream w env fuel s)
    | _ => (false, createStream w env fuel s)
  | _, _ => (false, createStream w env fuel s)

end AZ
