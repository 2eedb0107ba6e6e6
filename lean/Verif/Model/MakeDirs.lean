import Verif.Model.Paths

/-!
# Parallel creation of directories, system call by system call

Models the jobs of `SinkCreator::make_dirs_` (`src/streaming/sink.creator.cpp:251-309`) on one file system, and the batches of
names for which they run (`src/streaming/sink.creator.cpp:139-249`). Each job asks whether its directory is there and, if not,
calls `fs::create_directories`, which asks again, climbs to the nearest ancestor that is there and makes the missing directories
one by one from there. It returns whether the last `mkdir` made a directory, and the job fails if not. All jobs share the file
system and `all_successful`, and may be interleaved in any way.

Simplifications: the system calls do not fail for other reasons (permissions, space, a file at that name), and nobody else makes
or removes directories meanwhile; names with `.`, `..`, repeated separators or links are different if their texts are.
`Model.Creation` models what the jobs and the caller do with the latch.
-/

namespace AZ.MakeDirs

/-- The components of a path, as `fs::create_directories` sees them.
Models `src/streaming/sink.creator.cpp:290`. -/
def split : Text → List Text
  | [] => [[]]
  | c :: t =>
    if c = '/' then [] :: split t
    else match split t with
      | w :: ws => (c :: w) :: ws
      | [] => [[c]]

/-- A directory, by its components, the last one first: its parent is the tail.
Models the argument of `src/streaming/sink.creator.cpp:266-290`. -/
abbrev Dir := List Text

/-- The directory named by a text.
Models `src/streaming/sink.creator.cpp:263-266`. -/
def dirOf (p : Text) : Dir := (split p).reverse

/-- Progress of a job: before `is_directory`; before reading `all_successful`; in `create_directories`, looking whether the
ancestor `k` levels up is there; in `create_directories`, `k` directories to make; ended, with what it returned.
Models `src/streaming/sink.creator.cpp:266-302`. -/
inductive Pc where
  | look
  | flag
  | climb (k : Nat)
  | make (k : Nat)
  | ended (ok : Bool)
  deriving Repr, DecidableEq

/-- The directories that are there, `all_successful`, and the jobs.
Models `src/streaming/sink.creator.cpp:258-302`. -/
structure State where
  dirs : List Dir
  ok : Bool
  jobs : List Pc
  deriving Repr, DecidableEq

/-- The directory is there; the directory without a name (the root, or where the process is) always is.
Models `src/streaming/sink.creator.cpp:274`. -/
def State.has (s : State) (d : Dir) : Bool := d.isEmpty || s.dirs.contains d

/-- One job per path, none of which has begun.
Models `src/streaming/sink.creator.cpp:258-266`. -/
def init (dirs : List Dir) (paths : List Dir) : State := ⟨dirs, true, paths.map fun _ => .look⟩

/-- What a job at `d` does next: the new directory it makes, its new progress.
Models `src/streaming/sink.creator.cpp:268-301`. -/
def next (s : State) (d : Dir) : Pc → Option (Option Dir × Pc)
  /- `dirname.empty()`, `fs::is_directory(dirname)` -/
  | .look => if d = [] then some (none, .ended false) else if s.has d then some (none, .ended true) else some (none, .flag)
  /- `if (all_successful)` -/
  | .flag => if s.ok then some (none, .climb 0) else some (none, .ended true)
  /- `create_directories`: it returns false if `d` itself is there, otherwise it climbs -/
  | .climb k =>
    if s.has (d.drop k) then (if k = 0 then some (none, .ended false) else some (none, .make k))
    else some (none, .climb (k + 1))
  /- `create_directories`: `mkdir`, which fails if the parent is not there, and makes nothing if the directory is -/
  | .make 0 => none
  | .make (k + 1) =>
    if s.has (d.drop (k + 1)) then
      let new := if s.has (d.drop k) then none else some (d.drop k)
      some (new, if k = 0 then .ended new.isSome else .make k)
    else some (none, .ended false)
  | .ended _ => none

/-- A step of job `i`, if it has one. A job that returns false also clears `all_successful`.
Models `src/streaming/sink.creator.cpp:266-302`. -/
def step (paths : List Dir) (s : State) (i : Nat) : Option State :=
  match paths[i]?, s.jobs[i]? with
  | some d, some pc =>
    match next s d pc with
    | some (new, pc') =>
      some { dirs := new.toList ++ s.dirs, ok := s.ok && pc' != .ended false, jobs := s.jobs.set i pc' }
    | none => none
  | _, _ => none

/-- The jobs move in the given order.
Models `src/streaming/sink.creator.cpp:262-308`. -/
def run (paths : List Dir) : State → List Nat → Option State
  | s, [] => some s
  | s, i :: is => (step paths s i).bind fun s' => run paths s' is

/-- The later calls of `make_dirs_` in `make_data_sink_paths_`, one for each dimension but the width.
Models `src/streaming/sink.creator.cpp:153-183`. -/
def laterBatches (v : Version) : List Dim → List Text → List (List Text)
  | d :: e :: ds, paths =>
    extendPaths paths (partsAlong v d) :: laterBatches v (e :: ds) (extendPaths paths (partsAlong v d))
  | _, _ => []

/-- The calls of `make_dirs_` for the data of one append chunk or shard, in order.
Models `src/streaming/sink.creator.cpp:139-183`. -/
def dataBatches (v : Version) (ds : List Dim) (root : Text) : List (List Text) := [root] :: laterBatches v ds [root]

/-- The calls of `make_dirs_` for the metadata of the store.
Models `src/streaming/sink.creator.cpp:222-246`. -/
def metadataBatches (v : Version) (base : Text) : List (List Text) :=
  match v with
  | .v2 => [[base], [base ++ "/0".toList]]
  | .v3 => [[base], [base ++ "/meta".toList]]

end AZ.MakeDirs
