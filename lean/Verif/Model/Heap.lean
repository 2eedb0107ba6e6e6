import Verif.Model.Stream

/-!
# Frame buffers of the pyramid

The allocations and deallocations of `ZarrStream_s::write_multiscale_frames_` (`src/streaming/zarr.stream.cpp:869-959`) and of
the end of `finalize_stream` (`zarr.stream.cpp:993-997`). `Model.Stream.pyramidLoop` computes with the contents of the frames;
here only the buffers matter. Not modelled: exceptions between allocation and release (they leak `dst`, too), allocations
elsewhere (owned by containers).
-/

namespace AZ.Heap

/-- Addresses are numbers; `live` are the buffers allocated and not released.
Models `scaled_frames_` and the buffers of `src/streaming/zarr.stream.cpp:869-959`. -/
structure Mem where
  next : Nat
  live : List Nat
  deriving Repr, DecidableEq

/-- `new T[...]` in `scale_image` (`src/streaming/zarr.stream.cpp:313`). -/
def Mem.alloc (m : Mem) : Mem × Nat := (⟨m.next + 1, m.next :: m.live⟩, m.next)

/-- `delete[] p`; `none`: undefined behaviour.
Used at `src/streaming/zarr.stream.cpp:869-959` and 993-997. -/
def Mem.free (m : Mem) (p : Nat) : Option Mem := if p ∈ m.live then some ⟨m.next, m.live.erase p⟩ else none

/-- The level loop for one frame (`src/streaming/zarr.stream.cpp:930-958`). The list holds `scaled_frames_[i]` for the levels
`i` still to come. -/
def loop : List (Option Nat) → Mem → Option (List (Option Nat) × Mem)
  | [], m => some ([], m)
  | slot :: rest, m =>
    let (m, dst) := m.alloc
    match slot with
    | none => some (some dst :: rest, m)
    | some old =>
      match m.free old with
      | none => none
      | some m =>
        -- `i + 1 < writers_.size()`: `data = dst`, otherwise `delete[] dst`
        if rest.isEmpty then
          match m.free dst with
          | none => none
          | some m => some ([none], m)
        else
          match loop rest m with
          | none => none
          | some (rest, m) => some (none :: rest, m)

/-- `n` frames on a stream with `k` levels below the first (`create_scaled_frames_`, `src/streaming/zarr.stream.cpp:652-658`, then
one call of `write_multiscale_frames_` per frame). -/
def frames (k : Nat) : Nat → Option (List (Option Nat) × Mem)
  | 0 => some (List.replicate k none, ⟨0, []⟩)
  | n + 1 =>
    match frames k n with
    | none => none
    | some (slots, m) => loop slots m

/-- `for (auto& [_, frame] : stream->scaled_frames_) if (frame) delete[] *frame;` (`src/streaming/zarr.stream.cpp:993-997`). -/
def release : List (Option Nat) → Mem → Option Mem
  | [], m => some m
  | none :: rest, m => release rest m
  | some p :: rest, m =>
    match m.free p with
    | none => none
    | some m => release rest m

/-- A stream with `k` levels below the first that receives `n` frames and is destroyed: the buffers still allocated.
Models `src/streaming/zarr.stream.cpp:419-476`, 869-959 and 993-997. -/
def session (k n : Nat) : Option (List Nat) :=
  match frames k n with
  | none => none
  | some (slots, m) => (release slots m).map (·.live)

end AZ.Heap
