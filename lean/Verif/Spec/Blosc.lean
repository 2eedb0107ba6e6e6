import Verif.Model.Blosc

/-! # What `blosc.h` documents about `blosc_compress_ctx` -/

namespace Spec
open AZ

/-- `BLOSC_MAX_BUFFERSIZE` = `INT_MAX - BLOSC_MAX_OVERHEAD`. -/
def bloscMaxBuffer : Nat := 2 ^ 31 - 1 - 16

/-- The documented return values: never more than the destination size (`nbytes + BLOSC_MAX_OVERHEAD`), zero for buffers that
are too large. -/
structure BloscContract (B : Blosc) : Prop where
  small : ∀ p n b, B.ret p n b ≤ b.length + 16
  dest : ∀ p n b, (B.dest p n b).length = b.length + 16
  tooLarge : ∀ p n b, bloscMaxBuffer < b.length → B.ret p n b = 0

end Spec
