import Verif.Model.Writer

/-!
# The call of Blosc

Models the use of `blosc_compress_ctx` in `ArrayWriter::compress_buffers_` (`src/streaming/array.writer.cpp:351-386`): the
library is an arbitrary pair of a return code and the destination buffer after the call.
-/

namespace AZ

/-- `blosc_compress_ctx(clevel, shuffle, typesize, nbytes, src, dest, destsize, compressor, 0, 1)`: the `int` it returns and
the contents of `dest` afterwards. Called at `src/streaming/array.writer.cpp:363-373`. -/
structure Blosc where
  ret : BloscParams → Nat → Bytes → Int
  dest : BloscParams → Nat → Bytes → Bytes

/-- `std::vector::resize`: truncates, or pads with zeros.
Used at `src/streaming/array.writer.cpp:359-377`. -/
def resize (b : Bytes) (n : Nat) : Bytes := b.take n ++ List.replicate (n - b.length) 0

/-- The body of the compression job (`src/streaming/array.writer.cpp:356-374`): `tmp.resize(nb)` converts the `int` to
`size_t`; a negative value becomes larger than `max_size()` and `resize` throws `std::length_error` (`none`). The return code
is not examined otherwise. -/
def Blosc.job (B : Blosc) (p : BloscParams) (bpp : Nat) (buf : Bytes) : Option Bytes :=
  if B.ret p bpp buf < 0 then none else some (resize (B.dest p bpp buf) (B.ret p bpp buf).toNat)

/-- The environment in which Blosc is the given library.
Models `src/streaming/array.writer.cpp:363-373`. -/
def Env.withBlosc (env : Env) (B : Blosc) : Env := { env with compress := B.job }

end AZ
