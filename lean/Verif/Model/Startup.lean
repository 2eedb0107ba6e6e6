/-!
# Starting a stream: threads and connections

`ZarrStream_create` (`src/streaming/acquire.zarr.cpp:136-150`) with what the other models take for granted: a pool of worker threads, and for
S3 a pool of connections. The system decides whether a thread can be started, whether the server answers, and what the rest of the
constructor returns (`Model.Api`, `Model.Creation`); the worker threads themselves are `Model.Pool`.

Simplifications: settings and the rest of the constructor are results given by the environment; a failing allocation counts as an exception where it
happens.
-/

namespace AZ.Startup

/-- How a step of the constructor ends.
Auxiliary: how a step of `src/streaming/zarr.stream.cpp:376-417` ends. -/
inductive Ends where
  | ok
  /-- `EXPECT` of a step that returned false -/
  | refused
  /-- the step throws -/
  | throws
deriving DecidableEq

/-- What the system does.
Models `std::thread`, `operator new` and the network under `src/streaming/thread.pool.cpp:5-14`
and s3.connection.cpp:217-233. -/
structure Env where
  /-- `std::thread::hardware_concurrency()`; 0 if it is not known (C++20, [thread.thread.static]) -/
  cores : Nat
  /-- whether `emplace_back` starts the thread with this number; it throws if not -/
  spawns : Nat → Bool
  /-- whether the settings validate and can be copied -/
  settings : Ends
  /-- whether the pool object can be made -/
  poolObject : Ends
  /-- whether the frame buffer can be allocated -/
  frameBuffer : Ends
  /-- whether the stream stores to S3 -/
  s3 : Bool
  /-- what making the connection with this number and testing it (`is_connection_valid`) gives; `refused`: not valid -/
  connects : Nat → Ends
  /-- whether making the connection that is kept, after a valid test, throws -/
  keeps : Nat → Bool
  /-- what the test of a connection out of the pool gives (`src/streaming/zarr.stream.cpp:560-565`) -/
  tested : Ends
  /-- the rest of the constructor -/
  rest : Ends

/-- The result of a call, as its caller sees it. Models `src/streaming/acquire.zarr.cpp:134-147`. -/
inductive Result where
  /-- the process has been terminated -/
  | terminated
  /-- NULL; worker threads still running -/
  | null (running : Nat)
  /-- a stream; its worker threads and connections -/
  | stream (workers connections : Nat)
deriving DecidableEq

/-- `std::clamp(n, 1, max(hardware_concurrency, 1))` (`src/streaming/thread.pool.cpp:8-9`). -/
def clampThreads (cores n : Nat) : Nat := if n < 1 then 1 else if max cores 1 < n then max cores 1 else n

/-- The loop of the constructor of the thread pool (`thread.pool.cpp:11-13`): `todo` threads to start, `running` are. `.error`: an exception, with the
number of threads in the vector that it destroys. -/
def startThreads (e : Env) : (todo running : Nat) → Except Nat Nat
  | 0, running => .ok running
  | todo + 1, running => if e.spawns running then startThreads e todo (running + 1) else .error running

/-- Destroying a vector of joinable threads terminates the process ([thread.thread.destr]); an exception in the constructor destroys the members, and the
destructor of the pool, which would join them, does not run ([except.ctor]).
Models `src/streaming/thread.pool.cpp:5-14` and the member `threads_` in thread.pool.hh. -/
def unwindThreads (running : Nat) : Result := if running = 0 then .null 0 else .terminated

/-- The destructor of a complete pool, `ThreadPool::~ThreadPool` (`thread.pool.cpp:16-26`): stops and joins (`Model.Pool`: the workers end). -/
def joinThreads (_running : Nat) : Result := .null 0

/-- The loop of the constructor of the connection pool (`src/streaming/s3.connection.cpp:217-232`): connections that test valid are replaced
by new ones and kept. `.error`: an exception. -/
def connectLoop (e : Env) : (todo i kept : Nat) → Except Unit Nat
  | 0, _, kept => .ok kept
  | todo + 1, i, kept =>
    match e.connects i with
    | .ok => if e.keeps i then connectLoop e todo (i + 1) (kept + 1) else .error ()
    | .refused => connectLoop e todo (i + 1) kept
    | .throws => .error ()

/-- `create_store_` for S3 (`src/streaming/zarr.stream.cpp:546-566`): the number of connections, or failure (`CHECK(!connections_.empty())`,
caught; a connection that tests invalid). -/
def openS3 (e : Env) : Except Unit Nat :=
  match connectLoop e e.cores 0 0 with
  | .error () => .error ()
  | .ok 0 => .error ()
  | .ok (n + 1) =>
    match e.tested with
    | .ok => .ok (n + 1)
    | _ => .error ()

/-- `ZarrStream_create` and the constructor (`acquire.zarr.cpp:136-150`, `zarr.stream.cpp:376-416`). -/
def create (e : Env) : Result :=
  if e.settings ≠ .ok then .null 0
  else if e.poolObject ≠ .ok then .null 0
  else
    match startThreads e (clampThreads e.cores e.cores) 0 with
    | .error n => unwindThreads n
    | .ok workers =>
      if e.frameBuffer ≠ .ok then joinThreads workers
      else if e.s3 then
        match openS3 e with
        | .error () => joinThreads workers
        | .ok conns => if e.rest ≠ .ok then joinThreads workers else .stream workers conns
      else if e.rest ≠ .ok then joinThreads workers
      else .stream workers 0

end AZ.Startup
