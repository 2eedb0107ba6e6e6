import Verif.Model.Stream
import Verif.Model.Store

/-!
# The working directory

The other models name files by the text that is handed to the operating system. Here these texts are resolved: a path that does not begin
with a slash is looked up in the working directory that the process has at that moment.
-/

namespace AZ

/-- The file that the operating system finds for the path `p` in the working directory `c`, when it is opened. Auxiliary: what
`std::ofstream` of `src/streaming/file.sink.cpp:7-10` does with its argument; the code never makes a path absolute. -/
def absoluteIn (c p : Text) : Text := if p.head? = some '/' then p else c ++ '/' :: p

/-- The event, on another file. Auxiliary to `locate`, `src/streaming/file.sink.cpp:7-30`. -/
def Ev.on (q : Text) : Ev → Ev
  | .opened _ => .opened q
  | .wrote _ off data => .wrote q off data
  | .finalized _ => .finalized q
  | .dropped _ => .dropped q

/-- Where the events of a stream take effect. Each event comes with the working directory at that moment. A path is resolved when the file
is opened (`FileSink::FileSink`, `src/streaming/file.sink.cpp:7-10`); later events go to the file that was opened
(`src/streaming/file.sink.cpp:12-30`). `files` are the files open so far. -/
def locate (files : Text → Text) : List (Text × Ev) → List Ev
  | [] => []
  | (c, .opened p) :: es =>
    .opened (absoluteIn c p) :: locate (fun q => if q = p then absoluteIn c p else files q) es
  | (_, e) :: es => e.on (files e.path) :: locate files es

/-- The events of a stream that is created in the working directory `c0`. (A stream opens every file before it writes to it, so the initial
`files` of `locate` are not used.) Models `src/streaming/file.sink.cpp:7-30`. -/
def located (c0 : Text) (es : List (Text × Ev)) : List Ev := locate (absoluteIn c0) es

end AZ
