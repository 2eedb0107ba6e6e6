import Verif.Spec.S3

/-!
# A bucket seen through the sinks

The counterpart of `Model.Store` for S3 streams: what the events of a stream do to one object of the bucket, when the
sinks are `S3Sink`s (`src/streaming/s3.sink.cpp:10-203`) instead of `FileSink`s.

Simplifications: the requests of the sinks of one object are answered by one function of the request number (every
object of a stream has exactly one sink, `Props.Names`). Uploads that are never completed leave no object.
-/

namespace AZ.S3

/-- The sink that is currently open for the object, the object itself, and whether all calls of the sinks succeeded
(returned true). Models `src/streaming/s3.sink.cpp:10-203`, sink.creator.cpp:49-62. -/
structure Obj where
  sink : Option Sink
  object : Option Bytes
  ok : Bool
  deriving Repr, DecidableEq

/-- Effect of one event on the object `p`. `opened` constructs a sink (`src/streaming/sink.creator.cpp:424-481`,
`s3.sink.cpp:10-20`), `wrote` is `S3Sink::write`, `finalized` is `finalize_sink` (`sink.cpp:4-18`): `flush_` and
destruction if it returned true, otherwise the sink stays as it is; `dropped` destroys the sink, whose destructor sends nothing (`s3.sink.hh:11-24` declares none, and
`sink.hh:11` is defaulted). -/
def stepObj (P : Nat) (r : Nat → Reply) (junk : Bytes) (p : Text) (b : Obj) (e : Ev) : Obj :=
  if e.path ≠ p then b else
  match e with
  | .opened _ => { b with sink := some (Sink.new junk) }
  | .wrote _ off data =>
    match b.sink with
    | none => { b with ok := false }
    | some s =>
      match write P r (fuelFor data) off data s with
      | some (.returned true s') =>
        { b with
          sink := some s'
          object := (Spec.object (Spec.exchange s'.log)).or b.object }
      | some (.returned false s') | some (.threw s') =>
        { sink := some s', object := (Spec.object (Spec.exchange s'.log)).or b.object, ok := false }
      | _ => { b with ok := false }
  | .finalized _ =>
    match b.sink with
    | none => { b with ok := false }
    | some s =>
      match flush r s with
      | .returned true s' =>
        { b with
          sink := none
          object := (Spec.object (Spec.exchange s'.log)).or b.object }
      | .returned false s' | .threw s' =>
        { sink := some s', object := (Spec.object (Spec.exchange s'.log)).or b.object, ok := false }
      | .ub => { b with ok := false }
  | .dropped _ => { b with sink := none }

/-- The object `p` after a history of events; `old` is the object before. Creating an S3 stream removes nothing
(`src/streaming/zarr.stream.cpp:543-566`). -/
def objAfter (P : Nat) (r : Nat → Reply) (junk : Bytes) (old : Option Bytes) (p : Text) (tr : List Ev) : Obj :=
  tr.foldl (stepObj P r junk p) ⟨none, old, true⟩

end AZ.S3
