import Verif.Props.PyramidWide
import Verif.Spec.Numbers
import Mathlib.Tactic.FieldSimp
import Mathlib.Tactic.Ring
import Mathlib.Tactic.Linarith

set_option linter.unusedSimpArgs false

/-!
# C20 for floating point and signed pixels

For `float32` and `float64` the code also averages single bytes of the frame above; the result is converted to a floating point
number exactly. So what is stored below level 0 is never negative and at most 255.
-/

namespace AZ
open Spec

theorem ieeeBits_split {mant bias k : Nat} (hk : 0 < k) (hm : k < 2 ^ mant) :
    ∃ F, F < 2 ^ mant ∧ ieeeBits mant bias k 3 = (Nat.log2 k + bias - 3) * 2 ^ mant + F ∧
      2 ^ mant + F = k * 2 ^ (mant - Nat.log2 k) ∧ Nat.log2 k ≤ mant := by
  have h1 : 2 ^ Nat.log2 k ≤ k := Nat.log2_self_le (by omega)
  have h2 : k < 2 ^ (Nat.log2 k + 1) := Nat.lt_log2_self
  have h3 : Nat.log2 k ≤ mant := by
    by_contra hc
    have : 2 ^ mant ≤ 2 ^ Nat.log2 k := Nat.pow_le_pow_right (by omega) (by omega)
    omega
  have e1 : 2 ^ mant = 2 ^ Nat.log2 k * 2 ^ (mant - Nat.log2 k) := by
    rw [← Nat.pow_add]; congr 1; omega
  have e2 : 2 ^ mant ≤ k * 2 ^ (mant - Nat.log2 k) := by
    rw [e1]; exact Nat.mul_le_mul_right _ h1
  have e3 : k * 2 ^ (mant - Nat.log2 k) < 2 * 2 ^ mant := by
    rw [e1, ← Nat.mul_assoc, ← Nat.pow_succ']
    exact Nat.mul_lt_mul_of_pos_right h2 (Nat.pow_pos (by omega))
  refine ⟨k * 2 ^ (mant - Nat.log2 k) - 2 ^ mant, by omega, ?_, by omega, h3⟩
  unfold ieeeBits
  rw [if_neg (by omega)]

theorem ieeeBits_number {expBits mant k : Nat} (hb : 4 ≤ 2 ^ (expBits - 1) - 1) (hk : k < 2 ^ mant) (he : 0 < expBits)
    (hs : mant + (2 ^ (expBits - 1) - 1) < 2 ^ expBits + 1) :
    ieeeBits mant (2 ^ (expBits - 1) - 1) k 3 < 2 ^ (expBits + mant) ∧
    ieeeNumber expBits mant (ieeeBits mant (2 ^ (expBits - 1) - 1) k 3) = some ((k : Rat) / 8) := by
  generalize hbias : 2 ^ (expBits - 1) - 1 = bias at *
  have hp : 0 < 2 ^ mant := Nat.pow_pos (by omega)
  have hpe : 2 ^ expBits = 2 * (bias + 1) := by
    rw [← hbias, show expBits = (expBits - 1) + 1 by omega, Nat.pow_succ]
    simp only [Nat.add_sub_cancel]
    omega
  rcases Nat.eq_zero_or_pos k with rfl | hpos
  · have : ieeeBits mant bias 0 3 = 0 := rfl
    rw [this]
    refine ⟨Nat.pow_pos (by omega), ?_⟩
    unfold ieeeNumber
    simp only [Nat.zero_div, Nat.zero_mod]
    rw [if_neg (by omega)]
    simp
  · obtain ⟨F, f1, f2, f3, f4⟩ := ieeeBits_split (bias := bias) hpos hk
    generalize Nat.log2 k = e at *
    have hE : e + bias - 3 < 2 ^ expBits - 1 := by omega
    have d1 : ieeeBits mant bias k 3 / 2 ^ mant = e + bias - 3 := by
      rw [f2, Nat.add_comm, Nat.add_mul_div_right _ _ hp, Nat.div_eq_of_lt f1, Nat.zero_add]
    have d2 : ieeeBits mant bias k 3 % 2 ^ mant = F := by
      rw [f2, Nat.add_comm, Nat.add_mul_mod_self_right, Nat.mod_eq_of_lt f1]
    have d3 : ieeeBits mant bias k 3 < 2 ^ (expBits + mant) := by
      rw [Nat.pow_add, f2]
      calc (e + bias - 3) * 2 ^ mant + F < (e + bias - 3) * 2 ^ mant + 2 ^ mant := by omega
        _ = (e + bias - 3 + 1) * 2 ^ mant := by rw [Nat.succ_mul]
        _ ≤ 2 ^ expBits * 2 ^ mant := Nat.mul_le_mul_right _ (by omega)
    refine ⟨d3, ?_⟩
    unfold ieeeNumber
    simp only [hbias]
    rw [d1, d2, Nat.mod_eq_of_lt (show e + bias - 3 < 2 ^ expBits by omega), Nat.div_eq_of_lt d3, if_neg (by omega)]
    rw [if_neg (show ¬ e + bias - 3 = 0 by omega), f3]
    simp only [Nat.zero_mod]
    rw [if_neg (by decide)]
    congr 1
    have e1 : ((k * 2 ^ (mant - e) : Nat) : Rat) = (k : Rat) * 2 ^ (mant - e) := by push_cast; rfl
    rw [e1, one_mul, mul_assoc, ← pow_add]
    have e2 : bias + mant = (mant - e + (e + bias - 3)) + 3 := by omega
    rw [e2, pow_add _ _ 3]
    have : (2 : Rat) ^ (mant - e + (e + bias - 3)) ≠ 0 := pow_ne_zero _ (by norm_num)
    field_simp
    norm_num

/-- Sum of the four (not necessarily different) bytes of a block. -/
theorem quadSum_sum (src : Bytes) {w h r c : Nat} (hr : 2 * r < h) (hc : 2 * c < w) :
    ((quadSum src w h (2 * r) (2 * c) : Nat) : Rat) / 4 = blockMeanQ (fun r c => ((src.getD (r * w + c) 0).toNat : Rat)) w h r c := by
  unfold quadSum blockMeanQ srcByte
  have ec : min (2 * c + 1) (w - 1) = 2 * c + (if 2 * c = w - 1 ∧ w % 2 = 1 then 0 else 1) := by
    split <;> omega
  have er : min (2 * r + 1) (h - 1) = 2 * r + (if 2 * r = h - 1 ∧ h % 2 = 1 then 0 else 1) := by
    split <;> omega
  dsimp only
  rw [ec, er]
  have e1 : ∀ dx, (2 * r + (if 2 * r = h - 1 ∧ h % 2 = 1 then 0 else 1)) * w + dx =
      2 * r * w + (if 2 * r = h - 1 ∧ h % 2 = 1 then 0 else w) + dx := by
    intro dx
    split <;> ring
  rw [e1, e1]
  push_cast
  simp only [Nat.add_assoc, Nat.add_left_comm, Nat.add_comm]

theorem quad_le4 (src : Bytes) (w h r c : Nat) : quadSum src w h r c ≤ 1020 := by
  have := quad_le src w h r c
  unfold quadSum srcByte
  have hb : ∀ i, (src.getD i 0).toNat ≤ 255 := fun i => by
    have := (src.getD i 0).toNat_lt; omega
  dsimp only
  have h1 := hb (r * w + c)
  have h2 := hb (r * w + c + if c = w - 1 ∧ w % 2 = 1 then 0 else 1)
  have h3 := hb (r * w + c + if r = h - 1 ∧ h % 2 = 1 then 0 else w)
  have h4 := hb ((r * w + c + if r = h - 1 ∧ h % 2 = 1 then 0 else w) + if c = w - 1 ∧ w % 2 = 1 then 0 else 1)
  omega

theorem averagePixel_float {k : Nat} (ht : k = 8 ∨ k = 9) {k1 k2 : Nat} (h1 : k1 ≤ 1020) (h2 : k2 ≤ 1020) :
    (averagePixel (DType.fromC k) k1 k2).length = (DType.fromC k).bytes ∧
    numberOf k (averagePixel (DType.fromC k) k1 k2) = some (((k1 + k2 : Nat) : Rat) / 8) := by
  rcases ht with rfl | rfl
  · have e : averagePixel (DType.fromC 8) k1 k2 = leBytes 4 (ieeeBits 23 127 (k1 + k2) 3) := rfl
    have hb := ieeeBits_number (expBits := 8) (mant := 23) (k := k1 + k2) (by decide) (by omega) (by decide) (by decide)
    rw [show 2 ^ (8 - 1) - 1 = 127 by decide] at hb
    rw [e]
    refine ⟨leBytes_length .., ?_⟩
    unfold numberOf
    rw [show kindOf 8 = .float by decide]
    dsimp only
    rw [if_pos (leBytes_length ..), leNat_leBytes, Nat.mod_eq_of_lt (by
      calc _ < _ := hb.1
        _ ≤ _ := by norm_num)]
    exact hb.2
  · have e : averagePixel (DType.fromC 9) k1 k2 = leBytes 8 (ieeeBits 52 1023 (k1 + k2) 3) := rfl
    have hb := ieeeBits_number (expBits := 11) (mant := 52) (k := k1 + k2) (by decide) (by omega) (by decide) (by decide)
    rw [show 2 ^ (11 - 1) - 1 = 1023 by decide] at hb
    rw [e]
    refine ⟨leBytes_length .., ?_⟩
    unfold numberOf
    rw [show kindOf 9 = .float by decide]
    dsimp only
    rw [leBytes_length, if_neg (by decide), if_pos rfl, leNat_leBytes, Nat.mod_eq_of_lt (by
      calc _ < _ := hb.1
        _ ≤ _ := by norm_num)]
    exact hb.2

theorem average_float {k : Nat} (ht : k = 8 ∨ k = 9) {a b : Bytes} {w h r c : Nat} (hr : r < ceilDiv h 2) (hc : c < ceilDiv w 2) :
    numberOf k (pixelOf (averageFrames (DType.fromC k) (scaledPx b w h) (scaledPx a w h)) (ceilDiv w 2) (DType.fromC k).bytes r c) =
      some (meanOfTwoQ (fun r c => ((a.getD (r * w + c) 0).toNat : Rat)) (fun r c => ((b.getD (r * w + c) 0).toNat : Rat)) w h r c) := by
  have e1 := scaledPx_getElem? b (r := r) (c := c) (w := w) (h := h) (by rw [half_eq]; exact hr) (by rw [half_eq]; exact hc)
  have e2 := scaledPx_getElem? a (r := r) (c := c) (w := w) (h := h) (by rw [half_eq]; exact hr) (by rw [half_eq]; exact hc)
  rw [half_eq] at e1 e2
  have hr' : 2 * r < h := by unfold ceilDiv at hr; omega
  have hc' : 2 * c < w := by unfold ceilDiv at hc; omega
  have ez : ((scaledPx b w h).zip (scaledPx a w h))[r * ceilDiv w 2 + c]? =
      some (quadSum b w h (2 * r) (2 * c), quadSum a w h (2 * r) (2 * c)) := by
    rw [List.getElem?_zip_eq_some]
    exact ⟨e1, e2⟩
  have hmem : ∀ p ∈ (scaledPx b w h).zip (scaledPx a w h), p.1 ≤ 1020 ∧ p.2 ≤ 1020 := by
    have hs : ∀ (f : Bytes), ∀ q ∈ scaledPx f w h, q ≤ 1020 := by
      intro f q hq
      unfold scaledPx at hq
      simp only [List.mem_flatMap, List.mem_map] at hq
      obtain ⟨i, _, j, _, rfl⟩ := hq
      exact quad_le4 ..
    rintro ⟨p, q⟩ hp
    have := List.of_mem_zip hp
    exact ⟨hs b p this.1, hs a q this.2⟩
  unfold pixelOf averageFrames
  rw [slice_flatMap_const (m := (DType.fromC k).bytes) (v := (quadSum b w h (2 * r) (2 * c), quadSum a w h (2 * r) (2 * c))) _ _ (by
    rintro ⟨k1, k2⟩ hk
    have := hmem _ hk
    exact (averagePixel_float ht this.1 this.2).1) ez]
  dsimp only
  rw [(averagePixel_float ht (quad_le4 ..) (quad_le4 ..)).2]
  unfold meanOfTwoQ
  rw [← quadSum_sum a hr' hc', ← quadSum_sum b hr' hc']
  congr 1
  push_cast
  ring

theorem meanOfTwoQ_neg {p q : Nat → Nat → Rat} {w h : Nat} (hp : ∀ r c, r < h → c < w → p r c < 0)
    (hq : ∀ r c, r < h → c < w → q r c < 0) {r c : Nat} (hr : 2 * r < h) (hc : 2 * c < w) :
    meanOfTwoQ p q w h r c < 0 := by
  unfold meanOfTwoQ blockMeanQ
  have e1 : min (2 * r + 1) (h - 1) < h := by omega
  have e2 : min (2 * c + 1) (w - 1) < w := by omega
  have h1 := hp _ _ hr hc
  have h2 := hp _ _ hr e2
  have h3 := hp _ _ e1 hc
  have h4 := hp _ _ e1 e2
  have k1 := hq _ _ hr hc
  have k2 := hq _ _ hr e2
  have k3 := hq _ _ e1 hc
  have k4 := hq _ _ e1 e2
  dsimp only
  linarith

theorem meanOfTwoQ_range {p q : Nat → Nat → Rat} {w h : Nat} {m : Rat} (hp : ∀ r c, 0 ≤ p r c ∧ p r c ≤ m)
    (hq : ∀ r c, 0 ≤ q r c ∧ q r c ≤ m) (r c : Nat) :
    0 ≤ meanOfTwoQ p q w h r c ∧ meanOfTwoQ p q w h r c ≤ m := by
  unfold meanOfTwoQ blockMeanQ
  have h1 := hp (2 * r) (2 * c)
  have h2 := hp (2 * r) (min (2 * c + 1) (w - 1))
  have h3 := hp (min (2 * r + 1) (h - 1)) (2 * c)
  have h4 := hp (min (2 * r + 1) (h - 1)) (min (2 * c + 1) (w - 1))
  have k1 := hq (2 * r) (2 * c)
  have k2 := hq (2 * r) (min (2 * c + 1) (w - 1))
  have k3 := hq (min (2 * r + 1) (h - 1)) (2 * c)
  have k4 := hq (min (2 * r + 1) (h - 1)) (min (2 * c + 1) (w - 1))
  dsimp only
  constructor <;> linarith [h1.1, h1.2, h2.1, h2.2, h3.1, h3.2, h4.1, h4.2, k1.1, k1.2, k2.1, k2.2, k3.1, k3.2, k4.1, k4.2]

theorem byte_range (f : Bytes) (i : Nat) : 0 ≤ ((f.getD i 0).toNat : Rat) ∧ ((f.getD i 0).toNat : Rat) ≤ 255 := by
  have := (f.getD i 0).toNat_lt
  exact ⟨by positivity, by exact_mod_cast (by omega : (f.getD i 0).toNat ≤ 255)⟩

/-- A small number in a wide signed pixel is what it looks like. -/
theorem numberOf_small {k : Nat} (hk : k = 5 ∨ k = 6 ∨ k = 7) {v : Bytes} (hl : v.length = itemSize k) (hv : leNat v ≤ 255) :
    numberOf k v = some (leNat v : Rat) := by
  unfold numberOf
  have e : kindOf k = .signed := by rcases hk with rfl | rfl | rfl <;> decide
  rw [e]
  dsimp only
  rw [if_pos]
  rw [hl]
  have : 512 ≤ 256 ^ itemSize k := by rcases hk with rfl | rfl | rfl <;> decide
  omega

section
variable {w : World} {env : Env} {fuel : Nat} {s : Settings} {cfg : WConfig} {cfgs : List WConfig}
  {a y x : DimProps} {inner : List DimProps} {root : Text} {calls : List (List Bytes)}

/-- **C20, what is stored for floating point pixels.** V2, filesystem, `float32` and `float64`: there are frame sequences
`L 0, L 1, ..` with `L 0` the appended frames, such that reading level `i` gives `L i` (zero beyond its frames) and every pixel of
frame `j` of level `i + 1`, as a number, is exactly the local mean of two arrays of *bytes*: the first bytes of the frames
`2j` and `2j + 1` of level `i`, laid out as if a pixel were one byte. -/
theorem pyramid_floats_exact (h : Setup w fuel s cfg cfgs) (hz : SizesInRange s) (hE : StorageOk env s)
    (hV : s.version = 2) (hu : s.dataType = 8 ∨ s.dataType = 9)
    (hd : s.dimensions = some (a :: (inner ++ [y, x]))) (hr : StoredAt s root) (hfr : Fresh w s root)
    {decode : Bytes → Option Bytes} (hdec : Decodes env s decode)
    (hn : calls.flatten.length < 2 ^ 32)
    (hf : ∀ c ∈ calls, ∀ f ∈ c, f.length = y.arraySize * x.arraySize * itemSize s.dataType) :
    ∃ st tr, runStream w env fuel s (calls.map List.flatten) =
        some (.ok (st, calls.map (fun c => c.flatten.length), tr)) ∧ st.error = [] ∧
    ∃ L : Nat → List Bytes, L 0 = calls.flatten ∧ ∀ lv, lv < cfgs.length →
      (L lv).length = calls.flatten.length / 2 ^ lv ∧
      (∀ (t : Nat) (i : List Nat) (py px : Nat), InBounds (sizesAt lv inner) i →
        py < levelSize false y.arraySize lv → px < levelSize false x.arraySize lv →
        readV2 (fun p => fileInStore w cfg p tr) (levelDir root lv) decode
          (chunksAt lv (a :: (inner ++ [y, x]))) (itemSize s.dataType) (t :: (i ++ [py, px])) =
        some (match (L lv)[t * prod (sizesAt lv inner) + ravel (sizesAt lv inner) i]? with
          | some f => pixelOf f (levelSize false x.arraySize lv) (itemSize s.dataType) py px
          | none => List.replicate (itemSize s.dataType) 0)) ∧
      (lv + 1 < cfgs.length → ∀ j f f0 f1, (L (lv + 1))[j]? = some f → (L lv)[2 * j]? = some f0 →
        (L lv)[2 * j + 1]? = some f1 → ∀ r c, r < levelSize false y.arraySize (lv + 1) →
        c < levelSize false x.arraySize (lv + 1) →
        numberOf s.dataType (pixelOf f (levelSize false x.arraySize (lv + 1)) (itemSize s.dataType) r c) =
          some (meanOfTwoQ (fun r c => ((f0.getD (r * levelSize false x.arraySize lv + c) 0).toNat : Rat))
            (fun r c => ((f1.getD (r * levelSize false x.arraySize lv + c) 0).toNat : Rat))
            (levelSize false x.arraySize lv) (levelSize false y.arraySize lv) r c)) := by
  have hD := dimsOf h.valid h.commit hd
  have hfb : cfg.dims.frameBytes = y.arraySize * x.arraySize * itemSize s.dataType := hD.frame
  rw [← hfb] at hf
  obtain ⟨st, tr, h1, h2, h3⟩ := session_v2 h hE hV hn hf
  refine ⟨st, tr, h1, h2, fun i => framesOfLevel cfg i calls.flatten, rfl, ?_⟩
  intro lv hlv
  have hc : cfgs[lv]? = some cfgs[lv] := List.getElem?_eq_getElem hlv
  generalize cfgs[lv] = c at hc
  obtain ⟨ds, hds, hda⟩ := (validateSettings_ok h.valid).dims
  rw [hd] at hds
  cases hds
  have hyx : ∀ d ∈ [y, x], d.isChannel = false := by
    intro d hdm
    have := hda.yx d (by
      rw [show (a :: (inner ++ [y, x])).length - 2 = (a :: inner).length by simp,
        show a :: (inner ++ [y, x]) = (a :: inner) ++ [y, x] by simp, List.drop_left]
      exact hdm)
    simp [DimProps.isChannel, this]
  have hy := hyx y (by simp)
  have hx := hyx x (by simp)
  refine ⟨framesOfLevel_length .., ?_, ?_⟩
  · intro t i py px hi hpy hpx
    have := v2_level_read h hz hE hV hd hr hfr hdec h3 hc (t := t) hi (by rw [hy]; exact hpy) (by rw [hx]; exact hpx)
    rw [hx] at this
    rw [this]
    rfl
  · intro hlv1 j f f0 f1 hj h0 h1' r c' hrr hcc
    have hw : cfg.dims.width.arraySize = x.arraySize := hD.width
    have hh : cfg.dims.height.arraySize = y.arraySize := hD.height
    have e1 : framesOfLevel cfg (lv + 1) calls.flatten = nextFrames cfg.dims.dtype (ceilDiv x.arraySize (2 ^ lv))
        (ceilDiv y.arraySize (2 ^ lv)) (framesOfLevel cfg lv calls.flatten) := by
      unfold framesOfLevel
      rw [levelFrames_succ, hw, hh]
    dsimp only at hj h0 h1'
    rw [e1, nextFrames_getElem?, h0, h1'] at hj
    dsimp only at hj
    cases hj
    have hdt : cfg.dims.dtype = DType.fromC s.dataType := by
      obtain ⟨cfg', k1, k2⟩ := commit_dims hd
      rw [h.commit] at k1
      cases k1
      rw [k2]
    rw [hdt]
    have es : ∀ n : Nat, levelSize false n (lv + 1) = ceilDiv (ceilDiv n (2 ^ lv)) 2 := by
      intro n
      simp only [levelSize, Bool.false_eq_true, if_false]
      exact ceilDiv_pow_succ ..
    have es0 : ∀ n : Nat, levelSize false n lv = ceilDiv n (2 ^ lv) := fun n => rfl
    rw [es] at hrr hcc ⊢
    rw [es0, es0]
    have hit : itemSize s.dataType = (DType.fromC s.dataType).bytes := by
      rw [← hdt]; exact hD.item.symm
    rw [hit]
    exact average_float hu hrr hcc

/-- **C20 is violated by every negative stream.** V2, filesystem, data types `int16`, `int32`, `int64`, `float32` and `float64`:
if all pixels of the appended frames `2j` and `2j + 1` are negative numbers, then so is their local mean at every position, but
every pixel read from frame `j` of level 1 is a number between 0 and 255. -/
theorem negative_mean_missed (h : Setup w fuel s cfg cfgs) (hz : SizesInRange s) (hE : StorageOk env s)
    (hV : s.version = 2) (hu : s.dataType = 5 ∨ s.dataType = 6 ∨ s.dataType = 7 ∨ s.dataType = 8 ∨ s.dataType = 9)
    (hl : 1 < cfgs.length)
    (hd : s.dimensions = some (a :: (inner ++ [y, x]))) (hr : StoredAt s root) (hfr : Fresh w s root)
    {decode : Bytes → Option Bytes} (hdec : Decodes env s decode)
    (hn : calls.flatten.length < 2 ^ 32)
    (hf : ∀ c ∈ calls, ∀ f ∈ c, f.length = y.arraySize * x.arraySize * itemSize s.dataType) {j : Nat} {f0 f1 : Bytes}
    (h0 : calls.flatten[2 * j]? = some f0) (h1 : calls.flatten[2 * j + 1]? = some f1) {px0 px1 : Nat → Nat → Rat}
    (hb0 : ∀ r c, r < y.arraySize → c < x.arraySize →
      numberOf s.dataType (pixelOf f0 x.arraySize (itemSize s.dataType) r c) = some (px0 r c) ∧ px0 r c < 0)
    (hb1 : ∀ r c, r < y.arraySize → c < x.arraySize →
      numberOf s.dataType (pixelOf f1 x.arraySize (itemSize s.dataType) r c) = some (px1 r c) ∧ px1 r c < 0) :
    ∃ st tr, runStream w env fuel s (calls.map List.flatten) =
        some (.ok (st, calls.map (fun c => c.flatten.length), tr)) ∧ st.error = [] ∧
      ∀ (t : Nat) (i : List Nat) (py px : Nat), InBounds (sizesAt 1 inner) i →
        t * prod (sizesAt 1 inner) + ravel (sizesAt 1 inner) i = j →
        py < ceilDiv y.arraySize 2 → px < ceilDiv x.arraySize 2 →
        meanOfTwoQ px0 px1 x.arraySize y.arraySize py px < 0 ∧
        ∃ v num, readV2 (fun p => fileInStore w cfg p tr) (levelDir root 1) decode
          (chunksAt 1 (a :: (inner ++ [y, x]))) (itemSize s.dataType) (t :: (i ++ [py, px])) = some v ∧
          numberOf s.dataType v = some num ∧ 0 ≤ num ∧ num ≤ 255 := by
  have hneg : ∀ py px, py < ceilDiv y.arraySize 2 → px < ceilDiv x.arraySize 2 →
      meanOfTwoQ px0 px1 x.arraySize y.arraySize py px < 0 := by
    intro py px hpy hpx
    exact meanOfTwoQ_neg (fun r c hr hc => (hb0 r c hr hc).2) (fun r c hr hc => (hb1 r c hr hc).2)
      (by unfold ceilDiv at hpy; omega) (by unfold ceilDiv at hpx; omega)
  have hy1 : levelSize false y.arraySize 1 = ceilDiv y.arraySize 2 := rfl
  have hx1 : levelSize false x.arraySize 1 = ceilDiv x.arraySize 2 := rfl
  have hjl : 2 * j + 1 < calls.flatten.length := (List.getElem?_eq_some_iff.1 h1).1
  by_cases hk : s.dataType < 8
  · obtain ⟨st, tr, e1, e2, L, l0, l1⟩ := pyramid_integers_exact (calls := calls) h hz hE hV hk hd hr hfr hdec hn hf
    refine ⟨st, tr, e1, e2, ?_⟩
    intro t i py px hi hj hpy hpx
    refine ⟨hneg py px hpy hpx, ?_⟩
    have hread := (l1 1 hl).2.1 t i py px hi (by rw [hy1]; exact hpy) (by rw [hx1]; exact hpx)
    rw [hj] at hread
    have hlen := (l1 1 hl).1
    have hj1 : j < (L 1).length := by rw [hlen]; omega
    rw [List.getElem?_eq_getElem hj1] at hread
    dsimp only at hread
    have hm := (l1 0 (by omega)).2.2 (by omega) j _ f0 f1 (List.getElem?_eq_getElem hj1) (by rw [l0]; exact h0)
      (by rw [l0]; exact h1) py px (by rw [Nat.zero_add, hy1]; exact hpy) (by rw [Nat.zero_add, hx1]; exact hpx)
    rw [Nat.zero_add] at hm
    have hle : leNat (pixelOf (L 1)[j] (levelSize false x.arraySize 1) (itemSize s.dataType) py px) ≤ 255 := by
      rw [hm.2]
      exact meanOfTwo_le (fun r c => by have := (f0.getD (r * levelSize false x.arraySize 0 + c) 0).toNat_lt; omega)
        (fun r c => by have := (f1.getD (r * levelSize false x.arraySize 0 + c) 0).toNat_lt; omega) ..
    refine ⟨_, (leNat (pixelOf (L 1)[j] (levelSize false x.arraySize 1) (itemSize s.dataType) py px) : Rat), hread,
      numberOf_small (by omega) hm.1 hle, by positivity, by exact_mod_cast hle⟩
  · obtain ⟨st, tr, e1, e2, L, l0, l1⟩ := pyramid_floats_exact (calls := calls) h hz hE hV (by omega) hd hr hfr hdec hn hf
    refine ⟨st, tr, e1, e2, ?_⟩
    intro t i py px hi hj hpy hpx
    refine ⟨hneg py px hpy hpx, ?_⟩
    have hread := (l1 1 hl).2.1 t i py px hi (by rw [hy1]; exact hpy) (by rw [hx1]; exact hpx)
    rw [hj] at hread
    have hlen := (l1 1 hl).1
    have hj1 : j < (L 1).length := by rw [hlen]; omega
    rw [List.getElem?_eq_getElem hj1] at hread
    dsimp only at hread
    have hm := (l1 0 (by omega)).2.2 (by omega) j _ f0 f1 (List.getElem?_eq_getElem hj1) (by rw [l0]; exact h0)
      (by rw [l0]; exact h1) py px (by rw [Nat.zero_add, hy1]; exact hpy) (by rw [Nat.zero_add, hx1]; exact hpx)
    rw [Nat.zero_add] at hm
    have hrg := meanOfTwoQ_range (w := levelSize false x.arraySize 0) (h := levelSize false y.arraySize 0)
      (fun r c => byte_range f0 (r * levelSize false x.arraySize 0 + c))
      (fun r c => byte_range f1 (r * levelSize false x.arraySize 0 + c)) py px
    exact ⟨_, _, hread, hm, hrg⟩

end

/-- The sample settings with `float32` pixels: level 1 of two frames of -1.0 reads as numbers that are not negative. -/
def Sample.floatSettings : Settings := { Sample.settings with dataType := 8 }

/-- A frame of the sample (7 by 5 pixels of 32 bits), all of value -1.0. -/
def Sample.minusOne : Bytes := (List.replicate 35 [0, 0, 0x80, 0xbf]).flatten

theorem Sample.minusOne_pixel {r c : Nat} (hr : r < 5) (hc : c < 7) :
    numberOf 8 (pixelOf Sample.minusOne 7 4 r c) = some (-1) ∧ (-1 : Rat) < 0 := by
  have e : pixelOf Sample.minusOne 7 4 r c = [0, 0, 0x80, 0xbf] := by
    have := slice_flatMap_const (List.replicate 35 ()) (fun _ => [0, 0, 0x80, 0xbf]) (m := 4) (k := r * 7 + c) (v := ())
      (by simp) (by rw [List.getElem?_replicate, if_pos (by omega)])
    rw [← this]
    unfold pixelOf Sample.minusOne
    rw [← List.flatMap_id, List.flatMap_replicate, List.flatMap_replicate]
    rfl
  rw [e]
  refine ⟨?_, by norm_num⟩
  simp [numberOf, kindOf, leNat]
  rw [ieeeNumber]
  norm_num

def Sample.floatCfg : WConfig := { Sample.cfg with dims := { Sample.dims with dtype := .f32 } }

theorem Sample.floatSetup : ∃ cfgs, Setup Sample.world 9 Sample.floatSettings Sample.floatCfg cfgs ∧ cfgs.length = 3 :=
  ⟨_, ⟨rfl, rfl, rfl, rfl, by decide, fun _ => by decide⟩, rfl⟩

theorem Sample.minusOne_length : Sample.minusOne.length = 140 := by
  unfold Sample.minusOne
  rw [List.length_flatten, List.map_replicate, List.sum_replicate]
  rfl

/-- Five frames of -1.0: the hypotheses of `negative_mean_missed` (and of `pyramid_floats_exact`) are met. -/
example : ∃ st ns tr,
    runStream Sample.world Sample.env 9 Sample.floatSettings ([(List.replicate 5 Sample.minusOne : List Bytes)].map List.flatten) =
      some (.ok (st, ns, tr)) ∧
    meanOfTwoQ (fun _ _ => -1) (fun _ _ => -1) 7 5 2 3 < 0 ∧
    ∃ v num, readV2 (fun p => fileInStore Sample.world Sample.floatCfg p tr) (levelDir "/tmp/a.zarr".toList 1) some
      (chunksAt 1 [Sample.dimT, Sample.dimC, Sample.dimY, Sample.dimX]) 4 [0, 1, 2, 3] = some v ∧
      numberOf 8 v = some num ∧ 0 ≤ num := by
  obtain ⟨cfgs, h, hl⟩ := Sample.floatSetup
  have hm : ∀ c ∈ [(List.replicate 5 Sample.minusOne : List Bytes)], ∀ f ∈ c, f = Sample.minusOne := by
    intro c hc f hf
    simp only [List.mem_singleton] at hc
    subst hc
    exact List.eq_of_mem_replicate hf
  obtain ⟨st, tr, h1, _, h3⟩ := negative_mean_missed (calls := [(List.replicate 5 Sample.minusOne : List Bytes)]) (decode := some)
    (j := 1) (f0 := Sample.minusOne) (f1 := Sample.minusOne) (px0 := fun _ _ => -1) (px1 := fun _ _ => -1) h
    Sample.sizesInRange Sample.storageOk rfl (by simp [Sample.floatSettings]) (by omega)
    (a := Sample.dimT) (inner := [Sample.dimC]) (y := Sample.dimY) (x := Sample.dimX) rfl Sample.storedAt Sample.fresh
    (by intro b; rfl) (by decide) (by
      intro c hc f hf
      rw [hm c hc f hf]
      exact Sample.minusOne_length) rfl rfl
    (fun r c hr hc => Sample.minusOne_pixel hr hc) (fun r c hr hc => Sample.minusOne_pixel hr hc)
  obtain ⟨k1, v, num, hv, hn, h0, _⟩ := h3 0 [1] 2 3 (by decide) (by decide) (by decide) (by decide)
  exact ⟨st, _, tr, h1, k1, v, num, hv, hn, h0⟩

end AZ
