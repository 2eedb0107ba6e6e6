import Verif.Model.Settings

/-!
# Store paths on the file system

`Model.Settings` leaves open what the validation finds out about the parent of the store path. Here the path is taken apart as
`std::filesystem` and POSIX do. Symbolic links, `..` and Windows paths are not modelled.
-/

namespace AZ

/-- The texts between the slashes. Auxiliary: the elements of the `fs::path` of `src/streaming/zarr.stream.cpp:62`. -/
def splitSlash : Text → List Text
  | [] => [[]]
  | c :: cs =>
    if c = '/' then [] :: splitSlash cs
    else match splitSlash cs with
      | [] => [[c]]
      | x :: xs => (c :: x) :: xs

/-- A place in the file system: starting from the root or from the working directory, through the named directories.
Auxiliary: what the operating system finds for the paths of `src/streaming/zarr.stream.cpp:69`. -/
structure Place where
  absolute : Bool
  names : List Text
  deriving Repr, DecidableEq

/-- POSIX path resolution: repeated and trailing slashes and `.` do not count.
Auxiliary: what the operating system does with the paths of `src/streaming/zarr.stream.cpp:69`. -/
def placeOf (p : Text) : Place :=
  ⟨p.head? = some '/', (splitSlash p).filter fun x => !(x = [] || x = ['.'])⟩

/-- The longest prefix that ends with a slash. Auxiliary: `fs::path::remove_filename` inside `parent_path`,
`src/streaming/zarr.stream.cpp:63`. -/
def dirPart (p : Text) : Text := (p.reverse.dropWhile (· ≠ '/')).reverse

/-- `fs::path::parent_path` for POSIX paths, called at `src/streaming/zarr.stream.cpp:63`: what precedes the last slash, without the
slashes at its end; the root directory is its own parent. -/
def parentPath (p : Text) : Text :=
  let t := ((dirPart p).reverse.dropWhile (· = '/')).reverse
  if t = [] && dirPart p ≠ [] then ['/'] else t

/-- The directory that `validate_filesystem_store_path` looks at (`src/streaming/zarr.stream.cpp:62-66`). -/
def checkedParent (p : Text) : Text := if parentPath p = [] then ['.'] else parentPath p

/-- What exists in the file system. Auxiliary: the answers to the questions of `src/streaming/zarr.stream.cpp:69-81`. -/
structure FileSystem where
  exist : Place → Bool
  isDir : Place → Bool
  writable : Place → Bool

/-- The world with the given file system: the questions of `validate_filesystem_store_path`
(`src/streaming/zarr.stream.cpp:68-88`). -/
def World.on (w : World) (fs : FileSystem) : World :=
  { w with
    parentExists := fun p => fs.exist (placeOf (checkedParent p))
    parentIsDir := fun p => fs.isDir (placeOf (checkedParent p))
    parentWritable := fun p => fs.writable (placeOf (checkedParent p)) }

end AZ
