import Verif.Model.Store

/-!
# Objects in an S3 bucket

Models `zarr::S3Sink` (`src/streaming/s3.sink.hh`, `s3.sink.cpp:13-203`) and the request methods of `S3Connection`
(`src/streaming/s3.connection.cpp:54-215`) as far as the sink sees them.

The part size `P` is a parameter (`max_part_size_ = 5 << 20`, `s3.sink.hh:31`). What the server answers is an arbitrary
function of the number of the request. Not modelled: the bucket and key arguments (every sink has its own object), the
log messages, the type of the exceptions.
-/

namespace AZ.S3

/-- `max_part_size_` (`src/streaming/s3.sink.hh:31`). -/
def partSize : Nat := 5 * 2 ^ 20

/-- Requests of a sink: `put_object`, `create_multipart_object`, `upload_multipart_object_part`,
`complete_multipart_object` (`src/streaming/s3.connection.hh:39-91`). A part of a completed upload is its number and the
tag the server gave it. -/
inductive Req where
  | put (data : Bytes)
  | create
  | part (id : Text) (number : Nat) (data : Bytes)
  | complete (id : Text) (parts : List (Nat × Text))
  deriving Repr, DecidableEq

/-- What comes back: the server confirms and names the object, part or upload; it reports an error; the client library
throws. Models `src/streaming/s3.connection.cpp:1-216`. -/
inductive Reply where
  | confirmed (tag : Text)
  | refused
  | threw
  deriving Repr, DecidableEq

/-- What a sink does to the outside: takes a connection from the pool, sends a request over it, gives the connection
back, or destroys it (`std::unique_ptr` going out of scope during an exception).
Models `src/streaming/s3.sink.cpp:91-203`. -/
inductive Act where
  | get
  | sent (r : Req) (a : Reply)
  | giveBack
  | lose
  deriving Repr, DecidableEq

/-- `MultiPartUpload` (`src/streaming/s3.sink.hh:25-29`). -/
structure Upload where
  id : Text
  parts : List (Nat × Text)
  deriving Repr, DecidableEq

/-- Members of `S3Sink` (`src/streaming/s3.sink.hh:31-41`) and what it has done so far (`requests`: number of requests
sent). -/
structure Sink where
  buffer : Bytes
  buffered : Nat
  flushed : Nat
  upload : Option Upload
  requests : Nat
  log : List Act
  deriving Repr, DecidableEq

/-- A new sink (`src/streaming/s3.sink.cpp:10-20`). The part buffer is not initialized. -/
def Sink.new (junk : Bytes) : Sink := ⟨junk, 0, 0, none, 0, []⟩

/-- How a method of the sink ended: it returned, it threw, or it wrote outside the part buffer (undefined behaviour).
Models `src/streaming/s3.sink.cpp:10-203`. -/
inductive Out where
  | returned (b : Bool) (s : Sink)
  | threw (s : Sink)
  | ub
  deriving Repr, DecidableEq

/-- Sends a request over a connection of the pool. `keep` decides from the reply whether the connection is given back;
it is not when an exception leaves the function between `get_connection` and `return_connection`.
Models `src/streaming/s3.sink.cpp:91-203`. -/
def request (r : Nat → Reply) (q : Req) (keep : Reply → Bool) (s : Sink) : Reply × Sink :=
  (r s.requests, { s with
    requests := s.requests + 1
    log := s.log ++ [.get, .sent q (r s.requests), if keep (r s.requests) then .giveBack else .lose] })

/-- `put_object` returned a nonempty tag (`src/streaming/s3.connection.cpp:54-84`); likewise for parts. -/
def Reply.good : Reply → Bool
  | .confirmed t => !t.isEmpty
  | _ => false

/-- The name in a reply, empty if there is none.
Models `src/streaming/s3.connection.cpp:1-216`. -/
def Reply.tag : Reply → Text
  | .confirmed t => t
  | _ => []

/-- `S3Sink::put_object_` (`src/streaming/s3.sink.cpp:91-120`): exceptions are caught, the connection is given back. -/
def putObject (r : Nat → Reply) (s : Sink) : Bool × Sink :=
  if s.buffered = 0 then (false, s) else
  let (a, s') := request r (.put (s.buffer.take s.buffered)) (fun _ => true) s
  if a.good then (true, { s' with
    flushed := s.buffered
    buffered := 0 })
  else (false, s')

/-- `S3Sink::create_multipart_upload_` (`src/streaming/s3.sink.cpp:128-138`). `create_multipart_object`
(`s3.connection.cpp:112-137`) throws when the upload id is empty, as it is after an error response; `multipart_upload_`
is then already set and the connection is destroyed. -/
def createUpload (r : Nat → Reply) (s : Sink) : Out :=
  let s := { s with upload := some ⟨[], []⟩ }
  let (a, s) := request r .create Reply.good s
  if a.good then .returned true { s with upload := some ⟨a.tag, []⟩ } else .threw s

/-- The part of `flush_part_` after the upload exists (`src/streaming/s3.sink.cpp:151-187`). The counters advance also
when the part could not be uploaded. The number of the part is computed in `unsigned int`. -/
def uploadPart (r : Nat → Reply) (u : Upload) (s : Sink) : Bool × Sink :=
  let n := u32 (u32 u.parts.length + 1)
  let (a, s') := request r (.part u.id n (s.buffer.take s.buffered)) (fun _ => true) s
  (a.good, { s' with
    upload := some (if a.good then { u with parts := u.parts ++ [(n, a.tag)] } else u)
    flushed := s.flushed + s.buffered
    buffered := 0 })

/-- `S3Sink::flush_part_` (`src/streaming/s3.sink.cpp:140-187`). -/
def flushPart (r : Nat → Reply) (s : Sink) : Out :=
  if s.buffered = 0 then .returned false s else
  match s.upload with
  | some u => let (b, s) := uploadPart r u s; .returned b s
  | none =>
    match createUpload r s with
    | .returned _ s => let (b, s) := uploadPart r (s.upload.getD ⟨[], []⟩) s; .returned b s
    | o => o

/-- The loop of `S3Sink::write` (`src/streaming/s3.sink.cpp:67-86`); `none`: more than `fuel` rounds. `P - buffered` is
computed in `size_t`: if `buffered` exceeds the part size the copy leaves the buffer. -/
def writeLoop (P : Nat) (r : Nat → Reply) : Nat → Bytes → Sink → Option Out
  | _, [], s => some (.returned true s)
  | 0, _ :: _, _ => none
  | fuel + 1, data, s =>
    if P < s.buffered then some .ub else
    let n := min data.length (P - s.buffered)
    let s := { s with
      buffer := pwrite s.buffer s.buffered (data.take n)
      buffered := s.buffered + n }
    if s.buffered = P then
      match flushPart r s with
      | .returned true s => writeLoop P r fuel (data.drop n) s
      | o => some o
    else writeLoop P r fuel (data.drop n) s

/-- `S3Sink::write` (`src/streaming/s3.sink.cpp:52-89`). -/
def write (P : Nat) (r : Nat → Reply) (fuel off : Nat) (data : Bytes) (s : Sink) : Option Out :=
  if data.isEmpty then some (.returned true s) else
  if off < s.flushed then some (.returned false s) else
  writeLoop P r fuel data { s with buffered := off - s.flushed }

/-- `S3Sink::finalize_multipart_upload_` (`src/streaming/s3.sink.cpp:189-203`) with `complete_multipart_object`
(`s3.connection.cpp:180-215`), which throws before sending anything when the upload id or the list of parts is empty. The
connection is then destroyed. -/
def completeUpload (r : Nat → Reply) (u : Upload) (s : Sink) : Out :=
  if u.id.isEmpty || u.parts.isEmpty then .threw { s with log := s.log ++ [.get, .lose] } else
  let (a, s) := request r (.complete u.id u.parts) (· != .threw) s
  match a with
  | .confirmed _ => .returned true s
  | .refused => .returned false s
  | .threw => .threw s

/-- `S3Sink::flush_` (`src/streaming/s3.sink.cpp:22-50`). -/
def flush (r : Nat → Reply) (s : Sink) : Out :=
  match s.upload with
  | some u =>
    let o := if s.buffered = 0 then Out.returned true s else flushPart r s
    match o with
    | .returned true s =>
      match completeUpload r (s.upload.getD u) s with
      | .returned true s => .returned true { s with buffered := 0 }
      | o => o
    | o => o
  | none =>
    if s.buffered = 0 then .returned true s else
    match putObject r s with
    | (true, s) => .returned true { s with buffered := 0 }
    | (false, s) => .returned false s

/-- Enough rounds for one `write`. Auxiliary: the loop of `src/streaming/s3.sink.cpp:52-89`. -/
def fuelFor (data : Bytes) : Nat := data.length + 1

/-- A sequence of `write` calls up to the first one that does not return true.
Models `src/streaming/s3.sink.cpp:52-89`, called repeatedly. -/
def writes (P : Nat) (r : Nat → Reply) : List (Nat × Bytes) → Sink → Option Out
  | [], s => some (.returned true s)
  | (off, data) :: ws, s =>
    match write P r (fuelFor data) off data s with
    | some (.returned true s) => writes P r ws s
    | o => o

/-- The life of a sink: the writes and `finalize_sink` (`src/streaming/sink.cpp:4-18`). -/
def session (P : Nat) (r : Nat → Reply) (junk : Bytes) (ws : List (Nat × Bytes)) : Option Out :=
  match writes P r ws (Sink.new junk) with
  | some (.returned true s) => some (flush r s)
  | o => o

/-- Calls a sink receives from the library: `write` (jobs, metadata) and `flush_` (through `finalize_sink`).
Models `src/streaming/s3.sink.cpp:22-89`. -/
inductive Op where
  | write (off : Nat) (data : Bytes)
  | flush
  deriving Repr, DecidableEq

/-- What a call does to the sink.
Models `src/streaming/s3.sink.cpp:22-89`. -/
def Op.apply (P : Nat) (r : Nat → Reply) (s : Sink) : Op → Option Out
  | .write off data => S3.write P r (fuelFor data) off data s
  | .flush => some (S3.flush r s)

/-- Any calls, continued after failures (the jobs and `close_sinks_` report a failure and go on to the next call). The
result is the sink and how many of the calls threw; `none`: undefined behaviour.
Models `src/streaming/s3.sink.cpp:10-89`. -/
def life (P : Nat) (r : Nat → Reply) : List Op → Sink → Option (Sink × Nat)
  | [], s => some (s, 0)
  | op :: ops, s =>
    match op.apply P r s with
    | some (.returned _ s) => life P r ops s
    | some (.threw s) => (life P r ops s).map fun x => (x.1, x.2 + 1)
    | _ => none

end AZ.S3
