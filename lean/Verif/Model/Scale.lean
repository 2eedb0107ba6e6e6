import Verif.Model.Dimension

/-!
# Image downscaling

Models `scale_image<T>` (`src/streaming/zarr.stream.cpp:288-348`) and `average_two_frames<T>`
(`zarr.stream.cpp:350-371`) as instantiated in `write_multiscale_frames_` (`zarr.stream.cpp:876-922`).

Both functions compute with `double`s whose values are multiples of 1/8 not exceeding 255, so the model
uses exact numerators: a scaled pixel is represented by `k` with value `k / 4`.
-/

namespace AZ

/-- Little-endian bytes of an unsigned integer of `n` bytes.
Auxiliary: the memory of a `T` in `src/streaming/zarr.stream.cpp:288-371`. -/
def leBytes : Nat → Nat → Bytes
  | 0, _ => []
  | n + 1, v => UInt8.ofNat (v % 256) :: leBytes n (v / 256)

/-- IEEE-754 bits of the positive dyadic number `k / 2^s` (`mant` mantissa bits, exponent bias `bias`),
for values exactly representable and in the normal range; 0 for `k = 0`.
Auxiliary: the memory of a `float` or `double` in `src/streaming/zarr.stream.cpp:288-371`. -/
def ieeeBits (mant bias k s : Nat) : Nat :=
  if k = 0 then 0 else
  let e := Nat.log2 k
  (e + bias - s) * 2 ^ mant + (k * 2 ^ (mant - e) - 2 ^ mant)

/-- Bytes of the value `k / 2^s` converted to the pixel type: truncation for integers.
Models `src/streaming/zarr.stream.cpp:288-371`. -/
def encodePixel (t : DType) (k s : Nat) : Bytes :=
  match t with
  | .f32 => leBytes 4 (ieeeBits 23 127 k s)
  | .f64 => leBytes 8 (ieeeBits 52 1023 k s)
  | t => leBytes t.bytes (k / 2 ^ s)

/-- Source byte `src[idx]` as a number: the source is indexed as `std::byte`, whatever the pixel type
(`src/streaming/zarr.stream.cpp:289, 326-335`). -/
def srcByte (src : Bytes) (idx : Nat) : Nat := (src.getD idx 0).toNat

/-- The numerator `here + right + down + diag` at row `row`, column `col` of the source
(`src/streaming/zarr.stream.cpp:316-336`). -/
def quadSum (src : Bytes) (w h row col : Nat) : Nat :=
  let padH := row = h - 1 ∧ h % 2 = 1
  let padW := col = w - 1 ∧ w % 2 = 1
  let idx := row * w + col
  let dx := if padW then 0 else 1
  let dy := if padH then 0 else w
  srcByte src idx + srcByte src (idx + dx) + srcByte src (idx + dy) + srcByte src (idx + dy + dx)

/-- Result of `scale_image`: the numerators of the pixels (value `k / 4`), and the new width and height.
Models `src/streaming/zarr.stream.cpp:288-348`. -/
structure Scaled where
  px : List Nat
  w : Nat
  h : Nat
  deriving Repr, DecidableEq

/-- `scale_image<T>` (`src/streaming/zarr.stream.cpp:288-348`). `static_cast<uint32_t>` of a `double`
that does not fit, the conversion of a value above 127 to `int8_t`, and the overflow of the `int` loop counters (`auto row = 0`,
`row += 2`, lines 322 and 325; `auto i = 0` in `average_two_frames`, line 368, which runs over as many pixels as are produced here)
are undefined behaviour.
Reading beyond the source is excluded by the `EXPECT` (a pixel has at least one byte). -/
def scaleImage (t : DType) (src : Bytes) (w h : Nat) : Res Scaled := do
  check (decide (src.length ≥ u64 (u64 (w * h) * t.bytes)))
  let w' := (w + w % 2) / 2
  let h' := (h + h % 2) / 2
  let px := (List.range h').flatMap fun i => (List.range w').map fun j => quadSum src w h (2 * i) (2 * j)
  if w' * h' * t.bytes ≥ 2 ^ 32 ∨ w ≥ 2 ^ 31 - 1 ∨ h ≥ 2 ^ 31 - 1 ∨ w' * h' ≥ 2 ^ 31 then .ub
  else if t = .i8 && px.any (fun k => decide (k / 4 > 127)) then .ub
  else pure ⟨px, w', h'⟩

/-- One pixel of `average_two_frames<T>` (`src/streaming/zarr.stream.cpp:367-370`) on two scaled pixels:
integers were truncated by `scale_image` already, floats are exact. -/
def averagePixel (t : DType) (k1 k2 : Nat) : Bytes :=
  match t with
  | .f32 | .f64 => encodePixel t (k1 + k2) 3
  | t => encodePixel t (k1 / 4 + k2 / 4) 1

/-- `average_two_frames<T>` (`src/streaming/zarr.stream.cpp:350-371`): the bytes of the averaged frame. -/
def averageFrames (t : DType) (a b : List Nat) : Bytes :=
  (a.zip b).flatMap fun (k1, k2) => averagePixel t k1 k2

end AZ
