/-!
# What `ZarrStream_append` does with a call, in terms of sizes only

`F` is the frame size in bytes, `o` the number of bytes of an incomplete frame kept from earlier calls and
`L` the size of the caller's buffer. -/

namespace Spec

/-- The call completes a frame begun by an earlier call. -/
def Completes (F o L : Nat) : Prop := 0 < o ∧ 0 < L ∧ F ≤ o + L

instance (F o L : Nat) : Decidable (Completes F o L) := inferInstanceAs (Decidable (_ ∧ _))

/-- The call completes a frame but its own buffer is smaller than a frame. -/
def Overreads (F o L : Nat) : Prop := Completes F o L ∧ L < F

instance (F o L : Nat) : Decidable (Overreads F o L) := inferInstanceAs (Decidable (_ ∧ _))

/-- `bytes_out` of a successful call. -/
def bytesOut (F o L : Nat) : Nat := if Completes F o L then max L (2 * (F - o)) else L

/-- Bytes kept after a successful call. -/
def nextPending (F o L : Nat) : Nat :=
  if o = 0 then L % F else if Completes F o L then (L - 2 * (F - o)) % F else o + L

/-- Bytes kept after a sequence of successful calls. -/
def pending (F : Nat) (lengths : List Nat) : Nat := lengths.foldl (nextPending F) 0

/-! ### The frames a call stores, and the frames a session stores -/

/-- The whole frames at the beginning of `d`. -/
def wholeFrames (F : Nat) (d : List UInt8) : List (List UInt8) :=
  (List.range (d.length / F)).map fun i => (d.drop (i * F)).take F

/-- The frames a call with the buffer `d` stores. At a frame boundary: the whole frames of `d`. When `d` completes a
frame begun earlier with `o` bytes: first the beginning of `d` (not the frame begun earlier), then the whole frames of
what lies between the first and the last `F - o` bytes of `d`. Otherwise none. -/
def callFrames (F o : Nat) (d : List UInt8) : List (List UInt8) :=
  if o = 0 then wholeFrames F d
  else if Completes F o d.length then
    d.take F :: wholeFrames F ((d.drop (F - o)).take (d.length - 2 * (F - o)))
  else []

/-- The frames each call of a session stores, when `o` bytes are pending before the first one. -/
def sessionFrames (F : Nat) : Nat → List (List UInt8) → List (List (List UInt8))
  | _, [] => []
  | o, d :: ds => callFrames F o d :: sessionFrames F (nextPending F o d.length) ds

/-- The frames a call hands to the pyramid of a multiscale stream: those of `callFrames`, but not the one that takes the
place of a frame begun earlier. -/
def callPyramid (F o : Nat) (d : List UInt8) : List (List UInt8) :=
  if o = 0 then wholeFrames F d
  else if Completes F o d.length then wholeFrames F ((d.drop (F - o)).take (d.length - 2 * (F - o)))
  else []

/-- The frames each call of a session hands to the pyramid. -/
def sessionPyramid (F : Nat) : Nat → List (List UInt8) → List (List (List UInt8))
  | _, [] => []
  | o, d :: ds => callPyramid F o d :: sessionPyramid F (nextPending F o d.length) ds

/-- What each successful call of a session reports as written. -/
def sessionBytesOut (F : Nat) : Nat → List (List UInt8) → List Nat
  | _, [] => []
  | o, d :: ds => bytesOut F o d.length :: sessionBytesOut F (nextPending F o d.length) ds

/-- No call of the session reads past the end of its buffer. -/
def StaysInside (F : Nat) : Nat → List (List UInt8) → Prop
  | _, [] => True
  | o, d :: ds => ¬ Overreads F o d.length ∧ StaysInside F (nextPending F o d.length) ds

instance decStaysInside (F : Nat) : ∀ (o : Nat) (ds : List (List UInt8)), Decidable (StaysInside F o ds)
  | _, [] => inferInstanceAs (Decidable True)
  | o, d :: ds =>
    have := decStaysInside F (nextPending F o d.length) ds
    inferInstanceAs (Decidable (_ ∧ _))

end Spec
