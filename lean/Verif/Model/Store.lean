import Verif.Model.Writer

/-!
# The filesystem seen through the sinks

`FileSink` (`src/streaming/file.sink.cpp:7-30`) opens an `std::ofstream` in binary mode, which creates
or truncates the file, and writes with `seekp` + `write`. Nothing in the library deletes files after
the store directory was created.
-/

namespace AZ

/-- The object an event is about. Models `src/streaming/sink.creator.cpp:23-62`. -/
def Ev.path : Ev → Text
  | .opened p | .wrote p _ _ | .finalized p | .dropped p => p

/-- Effect of one event on the file named `p` (`none`: the file does not exist). Opening truncates
(`src/streaming/file.sink.cpp:7-10`), writing is positional and an empty write returns early
(`file.sink.cpp:12-23`), finalizing and destroying only flush (`file.sink.cpp:25-30`). -/
def stepFile (p : Text) (cur : Option Bytes) (e : Ev) : Option Bytes :=
  if e.path ≠ p then cur else
  match e with
  | .opened _ => some []
  | .wrote _ off data => cur.map fun b => if data.isEmpty then b else pwrite b off data
  | .finalized _ | .dropped _ => cur

/-- Contents of the file `p` after a history of events, starting from an empty store.
Models `src/streaming/file.sink.cpp:1-30`, vectorized.file.writer.cpp. -/
def fileAfter (p : Text) (tr : List Ev) : Option Bytes := tr.foldl (stepFile p) none

end AZ
