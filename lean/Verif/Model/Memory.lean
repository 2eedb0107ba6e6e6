import Verif.Model.Dimension

/-!
# Memory that runs out

Where the buffers of a stream are allocated, and what becomes of the exception if an allocation fails: `ZarrStream_create` and `ZarrStream_append` catch it
(`src/streaming/acquire.zarr.cpp:141-147, 170-175`), but `ArrayWriter::make_buffers_` is `noexcept` (`src/streaming/array.writer.cpp:230`, `array.writer.hh:87`), and an exception that
leaves a `noexcept` function terminates the process ([except.terminate]).

Modelled: the frame buffer, the chunk buffers and the frames of the pyramid. Not modelled: small allocations (names, documents, queue entries); the buffers of compression and
their jobs, which catch exceptions (`Model.Jobs`). After a flush the chunk buffers get their size again without an allocation (`array.writer.cpp:235, 240`): a
compressed buffer has the capacity of `tmp`, which is larger than a chunk (`array.writer.cpp:358-376`).
-/

namespace AZ.Memory

/-- What the memory is for.
The allocations of `src/streaming/array.writer.cpp:229-243` and 354-387, zarr.stream.cpp:310-313
and 392-393. -/
inductive Site where
  | frameBuffer
  | chunkBuffer
  | scaledFrame
deriving DecidableEq

/-- Whether an allocation works: by purpose, size and how many allocations there were before.
Auxiliary: `operator new` under `src/streaming/array.writer.cpp:229-243`. -/
abbrev Env := Site → (bytes before : Nat) → Bool

/-- How a function ends; `n` allocations have been made.
Auxiliary: how a function of `src/streaming/array.writer.cpp` or zarr.stream.cpp ends. -/
inductive Ends (α : Type) where
  | ret (a : α) (n : Nat)
  | threw (n : Nat)
  | terminated

/-- A statement, given what the allocations do.
Auxiliary: statements of `src/streaming/array.writer.cpp` and zarr.stream.cpp. -/
def M (α : Type) := Nat → Ends α

instance : Monad M where
  pure a := fun n => .ret a n
  bind m f := fun n =>
    match m n with
    | .ret a n' => f a n'
    | .threw n' => .threw n'
    | .terminated => .terminated

/-- `new` and `resize`: a failure throws `std::bad_alloc` or `std::length_error`.
Models `src/streaming/array.writer.cpp:229-243`, zarr.stream.cpp:310-313. -/
def alloc (e : Env) (s : Site) (bytes : Nat) : M Unit := fun n => if e s bytes n then .ret () (n + 1) else .threw n

/-- A `noexcept` function. Models `src/streaming/array.writer.cpp:229-230`, array.writer.hh:87. -/
def noexcept {α : Type} (m : M α) : M α := fun n =>
  match m n with
  | .threw _ => .terminated
  | r => r

/-- `catch (const std::exception&)`: `none`. Models `src/streaming/acquire.zarr.cpp:134-147`. -/
def catching {α : Type} (m : M α) : M (Option α) := fun n =>
  match m n with
  | .ret a n' => .ret (some a) n'
  | .threw n' => .ret none n'
  | .terminated => .terminated

/-- The loop over the chunk buffers. Models `src/streaming/array.writer.cpp:233-242`. -/
def allocBuffers (e : Env) (bytes : Nat) : Nat → M Unit
  | 0 => pure ()
  | k + 1 => do
    alloc e .chunkBuffer bytes
    allocBuffers e bytes k

/-- `ArrayWriter::make_buffers_` (`src/streaming/array.writer.cpp:229-243`) when there are no buffers yet. -/
def makeBuffers (e : Env) (D : ArrayDims) : M Unit := noexcept (allocBuffers e D.bytesPerChunk D.numberOfChunksInMemory)

/-- A level: its dimensions, whether its buffers exist, and whether a frame waits for its partner.
Models `src/streaming/array.writer.hh`, zarr.stream.hh: `chunk_buffers_` and `scaled_frames_`. -/
structure Level where
  dims : ArrayDims
  buffers : Bool
  saved : Bool

/-- `ArrayWriter::write_frame` (`array.writer.cpp:99-133`). -/
def writeFrame (e : Env) (l : Level) : M Level := do
  if l.buffers then return l
  makeBuffers e l.dims
  return { l with buffers := true }

/-- Size of a frame of the pyramid, as it is allocated: `new T[size_downscaled]` with the number of bytes as the number of elements
(`src/streaming/zarr.stream.cpp:310-313`). -/
def scaledBytes (t : DType) (w h : Nat) : Nat := (w + w % 2) * (h + h % 2) / 4 * t.bytes * t.bytes

/-- `write_multiscale_frames_` (`zarr.stream.cpp:928-958`): the levels below the first. -/
def writePyramid (e : Env) (t : DType) : List Level → (w h : Nat) → M (List Level)
  | [], _, _ => pure []
  | l :: ls, w, h => do
    alloc e .scaledFrame (scaledBytes t w h)
    if l.saved then
      let l ← writeFrame e l
      let ls ← writePyramid e t ls ((w + w % 2) / 2) ((h + h % 2) / 2)
      return { l with saved := false } :: ls
    else return { l with saved := true } :: ls

/-- `ZarrStream::append` of one frame (`zarr.stream.cpp:463-473`). -/
def appendFrame (e : Env) : List Level → M (List Level)
  | [] => pure []
  | l :: ls => do
    let l ← writeFrame e l
    let ls ← writePyramid e l.dims.dtype ls l.dims.width.arraySize l.dims.height.arraySize
    return l :: ls

/-- `ZarrStream::append` of several frames. Models `src/streaming/zarr.stream.cpp:419-476`. -/
def appendFrames (e : Env) : Nat → List Level → M (List Level)
  | 0, ls => pure ls
  | k + 1, ls => do
    let ls ← appendFrame e ls
    appendFrames e k ls

/-- What the caller sees of a call. Models `src/streaming/acquire.zarr.cpp:134-147` and 158-176. -/
inductive Result where
  | success
  | error
  | terminated
deriving DecidableEq

/-- `ZarrStream_append` of `k` frames (`src/streaming/acquire.zarr.cpp:161-177`). -/
def append (e : Env) (k : Nat) (ls : List Level) : Result :=
  match catching (appendFrames e k ls) 0 with
  | .ret (some _) _ => .success
  | .ret none _ => .error
  | .threw _ => .terminated
  | .terminated => .terminated

/-- `ZarrStream_create` (`acquire.zarr.cpp:136-150`, `zarr.stream.cpp:392-393`): a stream (`success`) or NULL (`error`). -/
def create (e : Env) (D : ArrayDims) : Result :=
  match catching (alloc e .frameBuffer (bytesOfFrame D)) 0 with
  | .ret (some _) _ => .success
  | .ret none _ => .error
  | .threw _ => .terminated
  | .terminated => .terminated

end AZ.Memory
