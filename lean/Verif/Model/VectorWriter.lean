import Verif.Model.Machine

/-!
# The vectorized file writer

Models `src/streaming/vectorized.file.writer.cpp`, for POSIX and for Windows. The mutex makes a call atomic.
-/

namespace AZ.Vec

/-- Bitwise complement of a `size_t`.
The `~` of `src/streaming/vectorized.file.writer.cpp:216-219`. -/
def not64 (n : Nat) : Nat := 2 ^ 64 - 1 - n

/-- `align_to_page_` (`src/streaming/vectorized.file.writer.cpp:216-219`), in `size_t` arithmetic. -/
def alignTo (page size : Nat) : Nat := u64 (size + page - 1) &&& not64 (page - 1)

/-- `static_cast<int>` of a `size_t` (two's complement).
Models `src/streaming/vectorized.file.writer.cpp:176-203`. -/
def toInt32 (n : Nat) : Int := if n % 2 ^ 32 < 2 ^ 31 then (n % 2 ^ 32 : Nat) else (n % 2 ^ 32 : Nat) - (2 ^ 32 : Int)

/-- Largest number of buffers `pwritev` accepts (`IOV_MAX` on Linux and macOS).
Called at `src/streaming/vectorized.file.writer.cpp:191`. -/
def iovMax : Nat := 1024

/-- `pwritev(2)`: an error (-1) for a negative offset or a buffer count outside `0..IOV_MAX`; otherwise the
operating system writes the first `n` bytes of the concatenation at the offset and returns `n`, or fails
(`io = none`). How much it writes is up to it.
Called at `src/streaming/vectorized.file.writer.cpp:191`. -/
def pwritev (io : Option Nat) (buffers : List Bytes) (count off : Int) (file : Bytes) : Int × Bytes :=
  if off < 0 ∨ count < 0 ∨ (iovMax : Int) < count then (-1, file) else
  match io with
  | none => (-1, file)
  | some n =>
    let data := buffers.flatten.take n
    ((data.length : Int), if data.isEmpty then file else pwrite file off.toNat data)

/-- `write_vectors` on POSIX systems (`src/streaming/vectorized.file.writer.cpp:170-201`). -/
def writeVectors (io : Option Nat) (buffers : List Bytes) (offset : Nat) (file : Bytes) : Bool × Bytes :=
  let r := pwritev io buffers (toInt32 buffers.length) (toInt32 offset) file
  (decide (r.1 = (buffers.flatten.length : Int)), r.2)

/-- `write_vectors` on Windows (`src/streaming/vectorized.file.writer.cpp:120-169`): the buffers are copied into
an uninitialised block of memory (`junk`) of page- and sector-aligned size, and the whole block is written
(`io` tells whether that succeeds). `none`: `CHECK` failed. -/
def writeVectorsWin (page sector : Nat) (io : Bool) (junk : Nat → UInt8) (buffers : List Bytes) (offset : Nat)
    (file : Bytes) : Option (Bool × Bytes) :=
  let total := buffers.flatten.length
  let n := alignTo sector (alignTo page total)
  if n < total then none else
  if !io then some (false, file) else
  let block := buffers.flatten ++ (List.range (n - total)).map fun k => junk (total + k)
  some (true, if block.isEmpty then file else pwrite file offset block)

end AZ.Vec
