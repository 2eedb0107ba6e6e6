import Verif.Props.Pyramid
import Verif.Spec.ZarrV3
import Verif.Spec.MeanPyramid

set_option linter.unusedSimpArgs false

/-!
# C20 for integer pixels of more than one byte

What the code stores below level 0 when pixels are wider than a byte: the mean of single bytes of the frame above, at the
positions the pixels would have if they were one byte wide. So no value below level 0 exceeds 255, and the local mean is missed
wherever the pixels of level 0 are 256 or more.
-/

namespace AZ
open Spec

theorem slice_flatMap_const {α : Type} (l : List α) (f : α → Bytes) {m k : Nat} {v : α} (hm : ∀ v ∈ l, (f v).length = m)
    (hk : l[k]? = some v) : slice (l.flatMap f) (k * m) m = f v := by
  induction l generalizing k with
  | nil => simp at hk
  | cons u us ih =>
    have hu := hm u (by simp)
    rw [List.flatMap_cons]
    cases k with
    | zero =>
      simp only [List.length_cons, Nat.zero_lt_succ, List.getElem?_eq_getElem, List.getElem_cons_zero, Option.some.injEq] at hk
      subst hk
      unfold slice
      rw [Nat.zero_mul, List.drop_zero, ← hu, List.take_left]
    | succ k =>
      rw [List.getElem?_cons_succ] at hk
      have := ih (fun v hv => hm v (by simp [hv])) hk
      unfold slice at this ⊢
      rw [Nat.succ_mul, Nat.add_comm, ← List.drop_drop, show List.drop m (f u ++ us.flatMap f) = us.flatMap f by
        rw [← hu, List.drop_left]]
      exact this

theorem leNat_leBytes (n v : Nat) : leNat (leBytes n v) = v % 256 ^ n := by
  induction n generalizing v with
  | zero => simp [leBytes, leNat, Nat.mod_one]
  | succ n ih =>
    simp only [leBytes, leNat]
    have e : v % 256 ^ (n + 1) = v % 256 + 256 * (v / 256 % 256 ^ n) := by
      rw [Nat.pow_succ, Nat.mul_comm (256 ^ n) 256, Nat.mod_mul]
    rw [ih, e, UInt8.toNat_ofNat']
    omega

/-- The integer pixel types. -/
def IsInteger (t : DType) : Prop := t ≠ .f32 ∧ t ≠ .f64

theorem averagePixel_int {t : DType} (ht : IsInteger t) (k1 k2 : Nat) :
    averagePixel t k1 k2 = leBytes t.bytes ((k1 / 4 + k2 / 4) / 2) := by
  obtain ⟨h1, h2⟩ := ht
  cases t <;> first | exact absurd rfl h1 | exact absurd rfl h2 | rfl

theorem average_int {t : DType} (ht : IsInteger t) {a b : Bytes} {w h r c : Nat} (hr : r < ceilDiv h 2) (hc : c < ceilDiv w 2) :
    (pixelOf (averageFrames t (scaledPx b w h) (scaledPx a w h)) (ceilDiv w 2) t.bytes r c).length = t.bytes ∧
    leNat (pixelOf (averageFrames t (scaledPx b w h) (scaledPx a w h)) (ceilDiv w 2) t.bytes r c) =
      meanOfTwo (fun r c => (a.getD (r * w + c) 0).toNat) (fun r c => (b.getD (r * w + c) 0).toNat) w h r c := by
  have e1 := scaledPx_getElem? b (r := r) (c := c) (w := w) (h := h) (by rw [half_eq]; exact hr) (by rw [half_eq]; exact hc)
  have e2 := scaledPx_getElem? a (r := r) (c := c) (w := w) (h := h) (by rw [half_eq]; exact hr) (by rw [half_eq]; exact hc)
  rw [half_eq] at e1 e2
  have hr' : 2 * r < h := by unfold ceilDiv at hr; omega
  have hc' : 2 * c < w := by unfold ceilDiv at hc; omega
  have ez : ((scaledPx b w h).zip (scaledPx a w h))[r * ceilDiv w 2 + c]? =
      some (quadSum b w h (2 * r) (2 * c), quadSum a w h (2 * r) (2 * c)) := by
    rw [List.getElem?_zip_eq_some]
    exact ⟨e1, e2⟩
  unfold pixelOf averageFrames
  rw [slice_flatMap_const (m := t.bytes) (v := (quadSum b w h (2 * r) (2 * c), quadSum a w h (2 * r) (2 * c))) _ _ (by
    rintro ⟨k1, k2⟩ _
    dsimp only
    rw [averagePixel_int ht, leBytes_length]) ez]
  dsimp only
  refine ⟨by rw [averagePixel_int ht, leBytes_length], ?_⟩
  rw [averagePixel_int ht, leNat_leBytes]
  have q1 := quad_le b w h (2 * r) (2 * c)
  have q2 := quad_le a w h (2 * r) (2 * c)
  unfold meanOfTwo
  rw [← quadSum_block a hr' hc', ← quadSum_block b hr' hc']
  generalize quadSum b w h (2 * r) (2 * c) / 4 = k1 at *
  generalize quadSum a w h (2 * r) (2 * c) / 4 = k2 at *
  have hp : 256 ≤ 256 ^ t.bytes := by cases t <;> decide
  rw [Nat.mod_eq_of_lt (by omega)]
  omega

theorem meanOfTwo_le {p q : Nat → Nat → Nat} {m : Nat} (hp : ∀ r c, p r c ≤ m) (hq : ∀ r c, q r c ≤ m) (w h r c : Nat) :
    meanOfTwo p q w h r c ≤ m := by
  unfold meanOfTwo blockMean
  have h1 := hp (2 * r) (2 * c)
  have h2 := hp (2 * r) (min (2 * c + 1) (w - 1))
  have h3 := hp (min (2 * r + 1) (h - 1)) (2 * c)
  have h4 := hp (min (2 * r + 1) (h - 1)) (min (2 * c + 1) (w - 1))
  have k1 := hq (2 * r) (2 * c)
  have k2 := hq (2 * r) (min (2 * c + 1) (w - 1))
  have k3 := hq (min (2 * r + 1) (h - 1)) (2 * c)
  have k4 := hq (min (2 * r + 1) (h - 1)) (min (2 * c + 1) (w - 1))
  dsimp only
  omega

theorem le_meanOfTwo {p q : Nat → Nat → Nat} {w h m : Nat} (hp : ∀ r c, r < h → c < w → m ≤ p r c)
    (hq : ∀ r c, r < h → c < w → m ≤ q r c) {r c : Nat} (hr : 2 * r < h) (hc : 2 * c < w) :
    m ≤ meanOfTwo p q w h r c := by
  unfold meanOfTwo blockMean
  have e1 : min (2 * r + 1) (h - 1) < h := by omega
  have e2 : min (2 * c + 1) (w - 1) < w := by omega
  have h1 := hp _ _ hr hc
  have h2 := hp _ _ hr e2
  have h3 := hp _ _ e1 hc
  have h4 := hp _ _ e1 e2
  have k1 := hq _ _ hr hc
  have k2 := hq _ _ hr e2
  have k3 := hq _ _ e1 hc
  have k4 := hq _ _ e1 e2
  dsimp only
  omega

section
variable {w : World} {env : Env} {fuel : Nat} {s : Settings} {cfg : WConfig} {cfgs : List WConfig}
  {a y x : DimProps} {inner : List DimProps} {root : Text} {calls : List (List Bytes)}

/-- Numbers of the integer data types of the C API. -/
theorem fromC_integer {k : Nat} (h : k < 8) : IsInteger (DType.fromC k) := by
  unfold IsInteger
  have : k = 0 ∨ k = 1 ∨ k = 2 ∨ k = 3 ∨ k = 4 ∨ k = 5 ∨ k = 6 ∨ k = 7 := by omega
  rcases this with rfl | rfl | rfl | rfl | rfl | rfl | rfl | rfl <;> decide

/-- The frames of the levels are the means of the level before. -/
theorem levels_meanPyramid (h : Setup0 w fuel s cfg cfgs) (hd : s.dimensions = some (a :: (inner ++ [y, x]))) (hu : s.dataType < 8)
    (frames : List Bytes) :
    MeanPyramid (itemSize s.dataType) y.arraySize x.arraySize cfgs.length fun i => framesOfLevel cfg i frames := by
  have hD := dimsOf h.valid h.commit hd
  intro lv hlv1 j f f0 f1 hj h0 h1' r c' hrr hcc
  have hw : cfg.dims.width.arraySize = x.arraySize := hD.width
  have hh : cfg.dims.height.arraySize = y.arraySize := hD.height
  have e1 : framesOfLevel cfg (lv + 1) frames = nextFrames cfg.dims.dtype (ceilDiv x.arraySize (2 ^ lv))
      (ceilDiv y.arraySize (2 ^ lv)) (framesOfLevel cfg lv frames) := by
    unfold framesOfLevel
    rw [levelFrames_succ, hw, hh]
  dsimp only at hj h0 h1'
  rw [e1, nextFrames_getElem?, h0, h1'] at hj
  dsimp only at hj
  cases hj
  have hdt : cfg.dims.dtype = DType.fromC s.dataType := by
    obtain ⟨cfg', k1, k2⟩ := commit_dims hd
    rw [h.commit] at k1
    cases k1
    rw [k2]
  rw [hdt]
  have es : ∀ n : Nat, levelSize false n (lv + 1) = ceilDiv (ceilDiv n (2 ^ lv)) 2 := by
    intro n
    simp only [levelSize, Bool.false_eq_true, if_false]
    exact ceilDiv_pow_succ ..
  have es0 : ∀ n : Nat, levelSize false n lv = ceilDiv n (2 ^ lv) := fun n => rfl
  rw [es] at hrr hcc ⊢
  rw [es0, es0]
  have hit : itemSize s.dataType = (DType.fromC s.dataType).bytes := by
    rw [← hdt]; exact hD.item.symm
  rw [hit]
  exact average_int (fromC_integer hu) hrr hcc

/-- **C20, what is stored for integer pixels of any width.** V2, filesystem, the data types 0 to 7: there are frame sequences
`L 0, L 1, ..` with `L 0` the appended frames, such that reading level `i` gives `L i` (zero beyond its frames) and every pixel of
frame `j` of level `i + 1`, as a number, is the local mean of two arrays of *bytes*: the first bytes of the frames
`2j` and `2j + 1` of level `i`, laid out as if a pixel were one byte. For one-byte pixels this is C20; for wider ones it is not
(`wide_mean_missed`). `AllScale` always holds unless the stream is a multiscale one of `int8` pixels. -/
theorem pyramid_integers_exact0 (h : Setup0 w fuel s cfg cfgs) (hz : SizesInRange s) (hE : StorageOk env s)
    (hV : s.version = 2) (hu : s.dataType < 8)
    (hd : s.dimensions = some (a :: (inner ++ [y, x]))) (hr : StoredAt s root) (hfr : Fresh w s root)
    {decode : Bytes → Option Bytes} (hdec : Decodes env s decode)
    (hsc : AllScale s.multiscale cfg calls.flatten) (hn : calls.flatten.length < 2 ^ 32)
    (hf : ∀ c ∈ calls, ∀ f ∈ c, f.length = y.arraySize * x.arraySize * itemSize s.dataType) :
    ∃ st tr, runStream w env fuel s (calls.map List.flatten) =
        some (.ok (st, calls.map (fun c => c.flatten.length), tr)) ∧ st.error = [] ∧
    ∃ L : Nat → List Bytes, L 0 = calls.flatten ∧ ∀ lv, lv < cfgs.length →
      (L lv).length = calls.flatten.length / 2 ^ lv ∧
      (∀ (t : Nat) (i : List Nat) (py px : Nat), InBounds (sizesAt lv inner) i →
        py < levelSize false y.arraySize lv → px < levelSize false x.arraySize lv →
        readV2 (fun p => fileInStore w cfg p tr) (levelDir root lv) decode
          (chunksAt lv (a :: (inner ++ [y, x]))) (itemSize s.dataType) (t :: (i ++ [py, px])) =
        some (match (L lv)[t * prod (sizesAt lv inner) + ravel (sizesAt lv inner) i]? with
          | some f => pixelOf f (levelSize false x.arraySize lv) (itemSize s.dataType) py px
          | none => List.replicate (itemSize s.dataType) 0)) ∧
      (lv + 1 < cfgs.length → ∀ j f f0 f1, (L (lv + 1))[j]? = some f → (L lv)[2 * j]? = some f0 →
        (L lv)[2 * j + 1]? = some f1 → ∀ r c, r < levelSize false y.arraySize (lv + 1) →
        c < levelSize false x.arraySize (lv + 1) →
        (pixelOf f (levelSize false x.arraySize (lv + 1)) (itemSize s.dataType) r c).length = itemSize s.dataType ∧
        leNat (pixelOf f (levelSize false x.arraySize (lv + 1)) (itemSize s.dataType) r c) =
          meanOfTwo (fun r c => (f0.getD (r * levelSize false x.arraySize lv + c) 0).toNat)
            (fun r c => (f1.getD (r * levelSize false x.arraySize lv + c) 0).toNat)
            (levelSize false x.arraySize lv) (levelSize false y.arraySize lv) r c) := by
  have hD := dimsOf h.valid h.commit hd
  have hfb : cfg.dims.frameBytes = y.arraySize * x.arraySize * itemSize s.dataType := hD.frame
  rw [← hfb] at hf
  obtain ⟨st, tr, h1, h2, h3⟩ := session_v2_0 h hE hV hsc hn hf
  refine ⟨st, tr, h1, h2, fun i => framesOfLevel cfg i calls.flatten, rfl, ?_⟩
  intro lv hlv
  have hc : cfgs[lv]? = some cfgs[lv] := List.getElem?_eq_getElem hlv
  generalize cfgs[lv] = c at hc
  obtain ⟨ds, hds, hda⟩ := (validateSettings_ok h.valid).dims
  rw [hd] at hds
  cases hds
  have hyx : ∀ d ∈ [y, x], d.isChannel = false := by
    intro d hdm
    have := hda.yx d (by
      rw [show (a :: (inner ++ [y, x])).length - 2 = (a :: inner).length by simp,
        show a :: (inner ++ [y, x]) = (a :: inner) ++ [y, x] by simp, List.drop_left]
      exact hdm)
    simp [DimProps.isChannel, this]
  have hy := hyx y (by simp)
  have hx := hyx x (by simp)
  refine ⟨framesOfLevel_length .., ?_, ?_⟩
  · intro t i py px hi hpy hpx
    have := v2_level_read0 h hz hE hV hd hr hfr hdec h3 hc (t := t) hi (by rw [hy]; exact hpy) (by rw [hx]; exact hpx)
    rw [hx] at this
    rw [this]
    rfl
  · intro hlv1
    exact levels_meanPyramid h hd hu calls.flatten lv hlv1

/-- The same, for data sets where `AllScale` holds whatever the frames are. -/
theorem pyramid_integers_exact (h : Setup w fuel s cfg cfgs) (hz : SizesInRange s) (hE : StorageOk env s)
    (hV : s.version = 2) (hu : s.dataType < 8)
    (hd : s.dimensions = some (a :: (inner ++ [y, x]))) (hr : StoredAt s root) (hfr : Fresh w s root)
    {decode : Bytes → Option Bytes} (hdec : Decodes env s decode)
    (hn : calls.flatten.length < 2 ^ 32)
    (hf : ∀ c ∈ calls, ∀ f ∈ c, f.length = y.arraySize * x.arraySize * itemSize s.dataType) :
    ∃ st tr, runStream w env fuel s (calls.map List.flatten) =
        some (.ok (st, calls.map (fun c => c.flatten.length), tr)) ∧ st.error = [] ∧
    ∃ L : Nat → List Bytes, L 0 = calls.flatten ∧ ∀ lv, lv < cfgs.length →
      (L lv).length = calls.flatten.length / 2 ^ lv ∧
      (∀ (t : Nat) (i : List Nat) (py px : Nat), InBounds (sizesAt lv inner) i →
        py < levelSize false y.arraySize lv → px < levelSize false x.arraySize lv →
        readV2 (fun p => fileInStore w cfg p tr) (levelDir root lv) decode
          (chunksAt lv (a :: (inner ++ [y, x]))) (itemSize s.dataType) (t :: (i ++ [py, px])) =
        some (match (L lv)[t * prod (sizesAt lv inner) + ravel (sizesAt lv inner) i]? with
          | some f => pixelOf f (levelSize false x.arraySize lv) (itemSize s.dataType) py px
          | none => List.replicate (itemSize s.dataType) 0)) ∧
      (lv + 1 < cfgs.length → ∀ j f f0 f1, (L (lv + 1))[j]? = some f → (L lv)[2 * j]? = some f0 →
        (L lv)[2 * j + 1]? = some f1 → ∀ r c, r < levelSize false y.arraySize (lv + 1) →
        c < levelSize false x.arraySize (lv + 1) →
        (pixelOf f (levelSize false x.arraySize (lv + 1)) (itemSize s.dataType) r c).length = itemSize s.dataType ∧
        leNat (pixelOf f (levelSize false x.arraySize (lv + 1)) (itemSize s.dataType) r c) =
          meanOfTwo (fun r c => (f0.getD (r * levelSize false x.arraySize lv + c) 0).toNat)
            (fun r c => (f1.getD (r * levelSize false x.arraySize lv + c) 0).toNat)
            (levelSize false x.arraySize lv) (levelSize false y.arraySize lv) r c) :=
  pyramid_integers_exact0 h.base hz hE hV hu hd hr hfr hdec (h.allScale _) hn hf

/-- **C20 is violated by every bright stream of wide pixels.** V2, filesystem, data types `uint16`, `uint32` and `uint64`: if all
pixels of the appended frames `2j` and `2j + 1` are 256 or more, then so is their local mean at every position, but every
pixel read from frame `j` of level 1 is at most 255. -/
theorem wide_mean_missed (h : Setup w fuel s cfg cfgs) (hz : SizesInRange s) (hE : StorageOk env s)
    (hV : s.version = 2) (hu : s.dataType = 1 ∨ s.dataType = 2 ∨ s.dataType = 3) (hl : 1 < cfgs.length)
    (hd : s.dimensions = some (a :: (inner ++ [y, x]))) (hr : StoredAt s root) (hfr : Fresh w s root)
    {decode : Bytes → Option Bytes} (hdec : Decodes env s decode)
    (hn : calls.flatten.length < 2 ^ 32)
    (hf : ∀ c ∈ calls, ∀ f ∈ c, f.length = y.arraySize * x.arraySize * itemSize s.dataType) {j : Nat} {f0 f1 : Bytes}
    (h0 : calls.flatten[2 * j]? = some f0) (h1 : calls.flatten[2 * j + 1]? = some f1)
    (hb0 : ∀ r c, r < y.arraySize → c < x.arraySize → 256 ≤ leNat (pixelOf f0 x.arraySize (itemSize s.dataType) r c))
    (hb1 : ∀ r c, r < y.arraySize → c < x.arraySize → 256 ≤ leNat (pixelOf f1 x.arraySize (itemSize s.dataType) r c)) :
    ∃ st tr, runStream w env fuel s (calls.map List.flatten) =
        some (.ok (st, calls.map (fun c => c.flatten.length), tr)) ∧ st.error = [] ∧
      ∀ (t : Nat) (i : List Nat) (py px : Nat), InBounds (sizesAt 1 inner) i →
        t * prod (sizesAt 1 inner) + ravel (sizesAt 1 inner) i = j →
        py < ceilDiv y.arraySize 2 → px < ceilDiv x.arraySize 2 →
        256 ≤ meanOfTwo (fun r c => leNat (pixelOf f0 x.arraySize (itemSize s.dataType) r c))
          (fun r c => leNat (pixelOf f1 x.arraySize (itemSize s.dataType) r c)) x.arraySize y.arraySize py px ∧
        ∃ v, readV2 (fun p => fileInStore w cfg p tr) (levelDir root 1) decode
          (chunksAt 1 (a :: (inner ++ [y, x]))) (itemSize s.dataType) (t :: (i ++ [py, px])) = some v ∧ leNat v ≤ 255 := by
  obtain ⟨st, tr, e1, e2, L, l0, l1⟩ := pyramid_integers_exact (calls := calls) h hz hE hV (by omega) hd hr hfr hdec hn hf
  refine ⟨st, tr, e1, e2, ?_⟩
  intro t i py px hi hj hpy hpx
  refine ⟨le_meanOfTwo hb0 hb1 (by unfold ceilDiv at hpy; omega) (by unfold ceilDiv at hpx; omega), ?_⟩
  have hy1 : levelSize false y.arraySize 1 = ceilDiv y.arraySize 2 := rfl
  have hx1 : levelSize false x.arraySize 1 = ceilDiv x.arraySize 2 := rfl
  have hread := (l1 1 hl).2.1 t i py px hi (by rw [hy1]; exact hpy) (by rw [hx1]; exact hpx)
  refine ⟨_, hread, ?_⟩
  rw [hj]
  have hlen := (l1 1 hl).1
  have hjl : 2 * j + 1 < calls.flatten.length := (List.getElem?_eq_some_iff.1 h1).1
  have hj1 : j < (L 1).length := by rw [hlen]; omega
  rw [List.getElem?_eq_getElem hj1]
  dsimp only
  have hm := (l1 0 (by omega)).2.2 (by omega) j _ f0 f1 (List.getElem?_eq_getElem hj1) (by rw [l0]; exact h0)
    (by rw [l0]; exact h1) py px (by rw [Nat.zero_add, hy1]; exact hpy) (by rw [Nat.zero_add, hx1]; exact hpx)
  rw [Nat.zero_add] at hm
  rw [hm.2]
  exact meanOfTwo_le (fun r c => by have := (f0.getD (r * levelSize false x.arraySize 0 + c) 0).toNat_lt; omega)
    (fun r c => by have := (f1.getD (r * levelSize false x.arraySize 0 + c) 0).toNat_lt; omega) ..

end

/-- A frame of the sample (7 by 5 pixels of 16 bits), all of value 257. -/
def Sample.bright : Bytes := List.replicate 70 1

theorem Sample.bright_pixel {r c : Nat} (hr : r < 5) (hc : c < 7) : 256 ≤ leNat (pixelOf Sample.bright 7 2 r c) := by
  have e : pixelOf Sample.bright 7 2 r c = List.replicate 2 1 := by
    unfold pixelOf Sample.bright slice
    rw [List.drop_replicate, List.take_replicate]
    congr 1
    omega
  rw [e]
  decide

/-- Five bright frames appended to the sample stream (unsigned 16-bit pixels, three levels): the hypotheses of
`wide_mean_missed` are met, and the pixel read at level 1 differs from the local mean. -/
example : ∃ cfgs st ns tr,
    runStream Sample.world Sample.env 9 Sample.settings ([(List.replicate 5 Sample.bright : List Bytes)].map List.flatten) =
      some (.ok (st, ns, tr)) ∧ Setup Sample.world 9 Sample.settings Sample.cfg cfgs ∧
    ∃ v, readV2 (fun p => fileInStore Sample.world Sample.cfg p tr) (levelDir "/tmp/a.zarr".toList 1) some
      (chunksAt 1 [Sample.dimT, Sample.dimC, Sample.dimY, Sample.dimX]) 2 [0, 1, 2, 3] = some v ∧ leNat v ≤ 255 := by
  obtain ⟨cfgs, h, hl⟩ := Sample.setup
  have hm : ∀ c ∈ [(List.replicate 5 Sample.bright : List Bytes)], ∀ f ∈ c, f = Sample.bright := by
    intro c hc f hf
    simp only [List.mem_singleton] at hc
    subst hc
    exact List.eq_of_mem_replicate hf
  obtain ⟨st, tr, h1, _, h3⟩ := wide_mean_missed (calls := [(List.replicate 5 Sample.bright : List Bytes)]) (decode := some)
    (j := 1) (f0 := Sample.bright) (f1 := Sample.bright) h
    Sample.sizesInRange Sample.storageOk rfl (Or.inl rfl) (by omega)
    (a := Sample.dimT) (inner := [Sample.dimC]) (y := Sample.dimY) (x := Sample.dimX) rfl Sample.storedAt Sample.fresh
    (by intro b; rfl) (by decide) (by
      intro c hc f hf
      rw [hm c hc f hf]
      exact List.length_replicate) rfl rfl
    (fun r c hr hc => Sample.bright_pixel hr hc) (fun r c hr hc => Sample.bright_pixel hr hc)
  obtain ⟨_, v, hv, hle⟩ := h3 0 [1] 2 3 (by decide) (by decide) (by decide) (by decide)
  exact ⟨cfgs, st, _, tr, h1, h, v, hv, hle⟩

end AZ
