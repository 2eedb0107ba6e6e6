import Mathlib.Tactic.Linarith
import Verif.Spec.Numbers
import Verif.Props.Scaling
import Verif.Props.Pyramid
import Verif.Props.PyramidWide

set_option linter.unusedSimpArgs false

/-! # C67: exactly which multiscale sessions are defined -/

namespace AZ
open Spec

section
variable {w : World} {env : Env} {fuel : Nat} {s : Settings} {cfg : WConfig} {cfgs : List WConfig}
  {a y x : DimProps} {inner : List DimProps} {calls : List (List Bytes)} {root : Text}

/-- A multiscale stream has at least two levels. -/
theorem levelConfigs_tail (hl : levelConfigs fuel true cfg = some (.ok cfgs)) : ∃ c1 rest, cfgs = cfg :: c1 :: rest := by
  unfold levelConfigs at hl
  rw [if_pos rfl] at hl
  split at hl
  · simp at hl
  · simp at hl
  · simp at hl
  · rename_i rest hr
    simp only [Option.some.injEq, Res.ok.injEq] at hl
    subst hl
    cases fuel with
    | zero => simp [pyramidFrom] at hr
    | succ fuel =>
      unfold pyramidFrom at hr
      split at hr
      · simp at hr
      · simp at hr
      · split at hr
        · split at hr
          · simp at hr
          · simp at hr
          · simp at hr
          · simp only [Option.some.injEq, Res.ok.injEq] at hr
            exact ⟨_, _, by rw [← hr]⟩
        · simp only [Option.some.injEq, Res.ok.injEq] at hr
          exact ⟨_, _, by rw [← hr]⟩

/-- Calls that each pass whole frames, if one of the frames is undefined. -/
theorem appends_aligned_of_ub {F : Nat} (hF : 0 < F) (calls : List (List Bytes))
    (hf : ∀ c ∈ calls, ∀ f ∈ c, f.length = F) {st : SState} (ha : Aligned F st)
    (he : ∀ k s, foldFrames env (calls.flatten.take k) st = .ok s → s.error = [])
    (h : foldFrames env calls.flatten st = .ub) : appends env (calls.map List.flatten) st = .ub := by
  induction calls generalizing st with
  | nil => simp [foldFrames] at h
  | cons c cs ih =>
    have hc := hf c (by simp)
    have hcs := fun x hx => hf x (List.mem_cons_of_mem _ hx)
    rw [List.map_cons, appends]
    have he0 : st.error = [] := he 0 st rfl
    rw [append_aligned hF c hc (by unfold appendFuel; have := flatten_length_ge hF hc; omega) ha he0]
    rw [List.flatten_cons, foldFrames_append] at h
    cases h1 : foldFrames env c st with
    | ub => rfl
    | throw => rw [h1] at h; simp at h
    | ok s1 =>
      rw [h1, Res.bind_ok] at h
      simp only [liftRes]
      rw [ih hcs (ha.keeps (foldFrames_keeps h1)) ?_ h]
      · rfl
      · intro k s hs
        apply he (c.length + k) s
        rw [List.flatten_cons, List.take_length_add_append, foldFrames_append, h1]
        exact hs

/-- A frame that cannot be scaled. -/
theorem frameStep_ub {N : Nat} {st : SState} {fs : List Bytes} {f : Bytes} (hm : st.multiscale = true)
    (ha : Aligned (bytesOfFrame st.cfg.dims) st) (hF : 0 < bytesOfFrame st.cfg.dims)
    (hi : StreamOk env st fs) (hw : ∀ lv ∈ st.levels, WriterWorks N env lv.cfg)
    (hp : ∃ l0 l1 rest, st.levels = l0 :: l1 :: rest ∧ PyrOk st.cfg.dims.dtype ((l1 :: rest).map (·.cfg))
      st.cfg.dims.width.arraySize st.cfg.dims.height.arraySize)
    (hn : fs.length + 1 < N) (hfs : ∀ g ∈ fs, g.length = bytesOfFrame st.cfg.dims)
    (hf : f.length = bytesOfFrame st.cfg.dims) (he : st.error = [])
    (hsc : ¬Scales st.cfg.dims.dtype st.cfg.dims.width.arraySize st.cfg.dims.height.arraySize f)
    (hsz : bytesOfFrame st.cfg.dims = st.cfg.dims.width.arraySize * st.cfg.dims.height.arraySize *
      st.cfg.dims.dtype.bytes) :
    frameStep env st f = .ub := by
  obtain ⟨s1, k, h1, he1⟩ := writeLevel0_works ha hF hi hw hn hfs hf he
  have hk := writeLevel0_keeps h1
  obtain ⟨l0, l1, rest, hl, hp⟩ := hp
  obtain ⟨p1, p2, p3, p4, p5⟩ := hp
  obtain ⟨m0, ml, hml, _⟩ := (writeLevel0_ok hF ha hf h1 hi).level0
  have hcs := hk.cfgs
  rw [hml, hl] at hcs
  obtain ⟨m1, mr, rfl⟩ : ∃ m1 mr, ml = m1 :: mr := by
    cases ml with
    | nil => simp at hcs
    | cons m1 mr => exact ⟨m1, mr, rfl⟩
  unfold frameStep
  rw [h1]
  simp only [Res.bind_ok]
  unfold writeMultiscale
  rw [hk.multiscale, hm]
  simp only [Bool.not_true, Bool.false_eq_true, if_false]
  rw [hml, hk.cfg]
  dsimp only
  rw [pyramidLoop]
  have hub : scaleImage st.cfg.dims.dtype f st.cfg.dims.width.arraySize st.cfg.dims.height.arraySize = .ub := by
    have h4 := Nat.pos_of_mul_pos_right (p3 ▸ p4)
    have hh : 0 < st.cfg.dims.height.arraySize := by have := Nat.pos_of_mul_pos_left h4; omega
    have hw : 0 < st.cfg.dims.width.arraySize := by have := Nat.pos_of_mul_pos_right h4; omega
    unfold Scales at hsc
    simp only [Classical.not_imp, Classical.not_forall, Nat.not_le] at hsc
    obtain ⟨h8, i, j, hi', hj', hq⟩ := hsc
    have hwh : st.cfg.dims.width.arraySize * st.cfg.dims.height.arraySize < 2 ^ 31 - 1 :=
      Nat.lt_of_le_of_lt (Nat.le_mul_of_pos_right _ (dtype_bytes_pos _)) p1
    have hwh' := Nat.lt_of_le_of_lt (Nat.le_mul_of_pos_right _ (dtype_bytes_pos st.cfg.dims.dtype)) p2
    unfold scaleImage
    have e : u64 (u64 (st.cfg.dims.width.arraySize * st.cfg.dims.height.arraySize) * st.cfg.dims.dtype.bytes) = f.length := by
      rw [u64_of_lt (Nat.lt_trans hwh (by decide)), u64_of_lt (Nat.lt_trans p1 (by decide)), hf, hsz]
    rw [e]
    have hd : decide (f.length ≥ f.length) = true := by simp
    rw [hd]
    simp only [check_true, Res.bind_ok]
    split
    · rfl
    · rw [if_pos]
      simp only [Bool.and_eq_true, decide_eq_true_eq, List.any_eq_true, List.mem_flatMap, List.mem_map, List.mem_range]
      exact ⟨h8, _, ⟨i, by omega, j, by omega, rfl⟩, by omega⟩
  rw [hub]
  rfl

theorem first_bad {α : Type _} {P : α → Prop} : ∀ {l : List α}, (∃ z ∈ l, ¬P z) →
    ∃ pre z post, l = pre ++ z :: post ∧ (∀ u ∈ pre, P u) ∧ ¬P z
  | [], h => by obtain ⟨z, hz, _⟩ := h; simp at hz
  | u :: l, h => by
    by_cases hu : P u
    · obtain ⟨z, hz, hb⟩ := h
      have hz' : z ∈ l := by
        rcases List.mem_cons.1 hz with rfl | hz
        · exact absurd hu hb
        · exact hz
      obtain ⟨pre, z', post, e, h1, h2⟩ := first_bad ⟨z, hz', hb⟩
      refine ⟨u :: pre, z', post, by rw [e]; rfl, ?_, h2⟩
      intro v hv
      rcases List.mem_cons.1 hv with rfl | hv
      · exact hu
      · exact h1 v hv
    · exact ⟨[], u, l, rfl, by simp, hu⟩

theorem session_undefined {N : Nat} (hE : StorageWorks env) (h : Setup0 w fuel s cfg cfgs)
    (hw : LevelsWork0 N env cfg cfgs) (hn : calls.flatten.length < N)
    (hf : ∀ c ∈ calls, ∀ f ∈ c, f.length = bytesOfFrame cfg.dims) (hm : s.multiscale = true)
    (hsc : ∃ f ∈ calls.flatten, ¬Scales cfg.dims.dtype cfg.dims.width.arraySize cfg.dims.height.arraySize f) :
    runStream w env fuel s (calls.map List.flatten) = some .ub := by
  obtain ⟨st0, h0⟩ := createStream_works hE h.valid h.commit h.store h.levels
  obtain ⟨cfg', cfgs', hc⟩ := createStream_ok h0
  have e1 := hc.commit
  rw [h.commit] at e1
  cases e1
  have e2 := hc.levels
  rw [h.levels] at e2
  cases e2
  have hff : ∀ f ∈ calls.flatten, f.length = bytesOfFrame cfg.dims := by
    intro f hfm
    obtain ⟨c, hcm, hfc⟩ := List.mem_flatten.1 hfm
    exact hf c hcm f hfc
  obtain ⟨pre, f, post, he, hpre, hbad⟩ := first_bad hsc
  have hpl : ([] : List Bytes).length + pre.length < N := by
    rw [he] at hn
    simp only [List.length_append, List.length_cons, List.length_nil] at hn ⊢
    omega
  have hpf : ∀ g ∈ pre, g.length = bytesOfFrame cfg.dims := fun g hg => hff g (by rw [he]; simp [hg])
  have hfl : f.length = bytesOfFrame cfg.dims := hff f (by rw [he]; simp)
  have pref : ∀ k, k ≤ pre.length → ∃ st1, foldFrames env (pre.take k) st0 = .ok st1 ∧ st1.error = [] := by
    intro k hk
    have : ([] : List Bytes).length + (pre.take k).length < N := by
      have : (pre.take k).length ≤ pre.length := List.length_take_le' ..
      simp only [List.length_nil, Nat.zero_add] at hpl ⊢
      omega
    exact foldFrames_works0 hw (pre.take k) (gs := []) (ps := []) (ms := s.multiscale)
      (fun _ g hg => hpre g (List.mem_of_mem_take hg)) hc.scfg hc.cfgsEq hc.sms hc.aligned
      hc.streamOk hc.error this this (by simp) (fun g hg => hpf g (List.mem_of_mem_take hg))
  obtain ⟨st1, h1, he1⟩ := pref pre.length (Nat.le_refl _)
  rw [List.take_length] at h1
  have hk := foldFrames_keeps h1
  have hso := foldFrames_ok hw.pos pre (gs := []) hpf hc.aligned h1 hc.streamOk
  rw [List.nil_append] at hso
  have hcfg : st1.cfg = cfg := hk.cfg.trans hc.scfg
  have hcfgs : st1.levels.map (·.cfg) = cfgs := hk.cfgs.trans hc.cfgsEq
  have hl := h.levels
  rw [hm] at hl
  obtain ⟨c1, crest, hct⟩ := levelConfigs_tail hl
  have hstep : frameStep env st1 f = .ub := by
    apply frameStep_ub (N := N) (hk.multiscale.trans (hc.sms.trans hm)) (by rw [hcfg]; exact hc.aligned.keeps hk)
      (by rw [hcfg]; exact hw.pos) hso
    · intro lv hlv
      apply hw.works
      rw [← hcfgs]
      exact List.mem_map_of_mem hlv
    · rw [hct] at hcfgs
      obtain ⟨l0, l1, rest, hlv⟩ : ∃ l0 l1 rest, st1.levels = l0 :: l1 :: rest := by
        match hq : st1.levels with
        | [] => rw [hq] at hcfgs; simp at hcfgs
        | [_] => rw [hq] at hcfgs; simp at hcfgs
        | l0 :: l1 :: rest => exact ⟨l0, l1, rest, rfl⟩
      refine ⟨l0, l1, rest, hlv, ?_⟩
      have := hw.pyr
      rw [hct] at this
      rw [hlv, List.map_cons] at hcfgs
      rw [(List.cons.inj hcfgs).2, hcfg]
      exact this
    · simp only [List.length_nil, Nat.zero_add] at hpl
      rw [he] at hn
      simp only [List.length_append, List.length_cons] at hn
      omega
    · rw [hcfg]; exact hpf
    · rw [hcfg]; exact hfl
    · exact he1
    · rw [hcfg]; exact hbad
    · rw [hcfg]; exact hw.size
  have hfold : foldFrames env calls.flatten st0 = .ub := by
    rw [he, foldFrames_append, h1, Res.bind_ok, foldFrames, hstep]
    rfl
  have happ : appends env (calls.map List.flatten) st0 = .ub := by
    refine appends_aligned_of_ub hw.pos calls hf hc.aligned ?_ hfold
    intro k s hs
    by_cases hkl : k ≤ pre.length
    · obtain ⟨s2, h2, he2⟩ := pref k hkl
      rw [he, List.take_append_of_le_length hkl, h2] at hs
      cases hs
      exact he2
    · exfalso
      obtain ⟨j, rfl⟩ : ∃ j, k = pre.length + (j + 1) := ⟨k - pre.length - 1, by omega⟩
      rw [he, List.take_length_add_append, List.take_succ_cons, foldFrames_append, h1, Res.bind_ok, foldFrames, hstep] at hs
      simp at hs
  unfold runStream
  rw [h0]
  simp only [happ]
  rfl

theorem fromC_i8 (n : Nat) : DType.fromC n = .i8 ↔ n = 4 := by
  unfold DType.fromC
  split <;> simp_all

/-- Every 2 by 2 block of the `w` by `h` pixel frame (at the border: the block closed by repeating the last row or column) has a mean
below 128 when its bytes are read as unsigned numbers. -/
def MeansFit (w h : Nat) (f : Bytes) : Prop :=
  ∀ r c, 2 * r < h → 2 * c < w → blockMean (fun r c => (f.getD (r * w + c) 0).toNat) w h r c < 128

theorem scales_iff (h : Setup0 w fuel s cfg cfgs) (hd : s.dimensions = some (a :: (inner ++ [y, x]))) (f : Bytes) :
    Scales cfg.dims.dtype cfg.dims.width.arraySize cfg.dims.height.arraySize f ↔
      (s.dataType = 4 → MeansFit x.arraySize y.arraySize f) := by
  have hD := dimsOf h.valid h.commit hd
  have ht : cfg.dims.dtype = .i8 ↔ s.dataType = 4 := by
    have hdt : cfg.dims.dtype = DType.fromC s.dataType := by
      obtain ⟨cfg', k1, k2⟩ := commit_dims hd
      rw [h.commit] at k1
      cases k1
      rw [k2]
    rw [hdt]; exact fromC_i8 _
  unfold Scales MeansFit
  rw [ht, hD.width, hD.height]
  constructor
  · intro g h4 r c hr hc
    have := g h4 r c hr hc
    rw [quadSum_block f hr hc] at this
    omega
  · intro g h4 i j hi hj
    rw [quadSum_block f hi hj]
    have := g h4 i j hi hj
    omega

/-- **C67, exactly,** for sessions of whole frames of less than 2 GiB on working storage, both versions: a multiscale session is undefined
if and only if the pixels are `int8` and some appended frame has a 2 by 2 block whose mean, the pixels read as
unsigned, is 128 or more; all other sessions succeed. (Frames of lower levels are never the cause.) -/
theorem multiscale_defined_exact_partial (h : Setup0 w fuel s cfg cfgs) (hE : StorageOk env s) (hm : s.multiscale = true)
    (h3 : s.version = 3 → cfg.dims.FitsV3 ∧ SmallOverhead env)
    (hd : s.dimensions = some (a :: (inner ++ [y, x]))) (hn : calls.flatten.length < 2 ^ 32)
    (hf : ∀ c ∈ calls, ∀ f ∈ c, f.length = y.arraySize * x.arraySize * itemSize s.dataType) :
    ((s.dataType = 4 → ∀ f ∈ calls.flatten, MeansFit x.arraySize y.arraySize f) →
      ∃ st tr, runStream w env fuel s (calls.map List.flatten) =
        some (.ok (st, calls.map (fun c => c.flatten.length), tr)) ∧ st.error = []) ∧
    (s.dataType = 4 ∧ (∃ f ∈ calls.flatten, ¬MeansFit x.arraySize y.arraySize f) →
      runStream w env fuel s (calls.map List.flatten) = some .ub) := by
  have hD := dimsOf h.valid h.commit hd
  rw [← hD.frame] at hf
  have hv := h.dimsValid
  obtain ⟨d1, d2⟩ := h.levelDims
  have hF := ArrayDims.bytesOfFrame_eq hv h.fits
  have hsc := scales_iff (fuel := fuel) h hd
  have hw : ∀ c ∈ cfgs, WriterWorks (2 ^ 32) env c := by
    intro c hc
    rcases (validateSettings_ok h.valid).version with hV | hV
    · exact writerWorks_v2 (hE.good0 h hc) (h.versionV2 hV c hc) (d1 c hc).1 (d1 c hc).2
    · obtain ⟨f3, ho⟩ := h3 hV
      exact writerWorks_v3 (hE.good0 h hc) ho (h.versionV3 hV c hc) (d1 c hc).1 (d1 c hc).2 (h.levelFitsV3 f3 c hc)
  rw [← hF] at hf
  constructor
  · intro hall
    obtain ⟨st, tr, h1, _, h2⟩ := session_works0 hE.works h.valid h.commit h.store h.levels (h.levelsWork hw)
      (fun _ f hfm => (hsc f).2 fun h4 => hall h4 f hfm) hn hf
    exact ⟨st, tr, h1, h2⟩
  · rintro ⟨h4, f, hfm, hbad⟩
    exact session_undefined hE.works h (h.levelsWork hw) hn hf hm ⟨f, hfm, fun hs => hbad ((hsc f).1 hs h4)⟩

/-- **C01 for `int8` pyramids too.** V2, filesystem, any compression: level 0 of a multiscale stream of `int8` pixels reads back if
the frames are such that the session is defined. -/
theorem v2_pixel_reads_back_int8 (h : Setup0 w fuel s cfg cfgs) (hE : StorageOk env s) (hV : s.version = 2) (hu : s.dataType = 4)
    (hd : s.dimensions = some (a :: (inner ++ [y, x]))) (hr : StoredAt s root) (hfr : Fresh w s root)
    {decode : Bytes → Option Bytes} (hdec : Decodes env s decode)
    (hn : calls.flatten.length < 2 ^ 32)
    (hf : ∀ c ∈ calls, ∀ f ∈ c, f.length = y.arraySize * x.arraySize)
    (hm : ∀ f ∈ calls.flatten, MeansFit x.arraySize y.arraySize f) :
    ∃ st tr, runStream w env fuel s (calls.map List.flatten) =
        some (.ok (st, calls.map (fun c => c.flatten.length), tr)) ∧ st.error = [] ∧
      ∀ (t : Nat) (i : List Nat) (py px : Nat) (f : Bytes), InBounds (inner.map (·.arraySize)) i →
        py < y.arraySize → px < x.arraySize →
        calls.flatten[t * prod (inner.map (·.arraySize)) + ravel (inner.map (·.arraySize)) i]? = some f →
        readV2 (fun p => fileInStore w cfg p tr) (levelDir root 0) decode
          ((a :: (inner ++ [y, x])).map (·.chunkSize)) 1 (t :: (i ++ [py, px])) =
        some (pixelOf f x.arraySize 1 py px) := by
  have hit : itemSize s.dataType = 1 := by rw [hu]; rfl
  obtain ⟨st, tr, h1, h2, h3⟩ := v2_read0 (calls := calls) h hE hV
    (fun _ f hfm => (scales_iff h hd f).2 fun _ => hm f hfm) hd hr hfr hdec hn (by rw [hit, Nat.mul_one]; exact hf)
  refine ⟨st, tr, h1, h2, ?_⟩
  intro t i py px f hi hy hx hfm
  rw [hit] at h3
  rw [h3 t i py px hi hy hx, hfm]

/-- Pixel at row `r`, column `c` of a frame of `int8` pixels, as a number. -/
def int8At (w : Nat) (f : Bytes) (r c : Nat) : Rat := (numberOf 4 [f.getD (r * w + c) 0]).getD 0

/-- **C20, `int8`: means of negative pixels are never stored.** V2, filesystem, `int8` pixels, frames for which the session is defined
(`MeansFit`): the session succeeds, and every pixel read from frame `j` of level 1 is not negative, so wherever
the exact mean of the pixels of the frames `2j` and `2j + 1` is -1 or less, the value read is wrong by 1 or more, however means are rounded. -/
theorem signed_mean_missed (h : Setup0 w fuel s cfg cfgs) (hz : SizesInRange s) (hE : StorageOk env s)
    (hV : s.version = 2) (hu : s.dataType = 4) (hl : 1 < cfgs.length)
    (hd : s.dimensions = some (a :: (inner ++ [y, x]))) (hr : StoredAt s root) (hfr : Fresh w s root)
    {decode : Bytes → Option Bytes} (hdec : Decodes env s decode)
    (hn : calls.flatten.length < 2 ^ 32)
    (hf : ∀ c ∈ calls, ∀ f ∈ c, f.length = y.arraySize * x.arraySize)
    (hm : ∀ f ∈ calls.flatten, MeansFit x.arraySize y.arraySize f)
    {j : Nat} {f0 f1 : Bytes}
    (h0 : calls.flatten[2 * j]? = some f0) (h1 : calls.flatten[2 * j + 1]? = some f1) :
    ∃ st tr, runStream w env fuel s (calls.map List.flatten) =
        some (.ok (st, calls.map (fun c => c.flatten.length), tr)) ∧ st.error = [] ∧
      ∀ (t : Nat) (i : List Nat) (py px : Nat), InBounds (sizesAt 1 inner) i →
        t * prod (sizesAt 1 inner) + ravel (sizesAt 1 inner) i = j →
        py < ceilDiv y.arraySize 2 → px < ceilDiv x.arraySize 2 →
        ∃ v, readV2 (fun p => fileInStore w cfg p tr) (levelDir root 1) decode
          (chunksAt 1 (a :: (inner ++ [y, x]))) 1 (t :: (i ++ [py, px])) = some [v] ∧
        (∃ q, numberOf 4 [v] = some q ∧ 0 ≤ q ∧ (meanOfTwoQ (int8At x.arraySize f0) (int8At x.arraySize f1)
          x.arraySize y.arraySize py px ≤ -1 → 1 ≤ q - meanOfTwoQ (int8At x.arraySize f0) (int8At x.arraySize f1)
          x.arraySize y.arraySize py px)) ∧
        v.toNat = meanOfTwo (fun r c => (f0.getD (r * x.arraySize + c) 0).toNat)
          (fun r c => (f1.getD (r * x.arraySize + c) 0).toNat) x.arraySize y.arraySize py px := by
  have hit : itemSize s.dataType = 1 := by rw [hu]; rfl
  obtain ⟨st, tr, e1, e2, L, l0, l1⟩ := pyramid_integers_exact0 (calls := calls) h hz hE hV (by omega) hd hr hfr hdec
    (fun _ f hfm => (scales_iff h hd f).2 fun _ => hm f hfm) hn (by rw [hit, Nat.mul_one]; exact hf)
  rw [hit] at l1
  refine ⟨st, tr, e1, e2, ?_⟩
  intro t i py px hi hj hpy hpx
  have hy1 : levelSize false y.arraySize 1 = ceilDiv y.arraySize 2 := rfl
  have hx1 : levelSize false x.arraySize 1 = ceilDiv x.arraySize 2 := rfl
  have hx0 : levelSize false x.arraySize 0 = x.arraySize := by simp [levelSize, ceilDiv]
  have hy0 : levelSize false y.arraySize 0 = y.arraySize := by simp [levelSize, ceilDiv]
  have hread := (l1 1 hl).2.1 t i py px hi (by rw [hy1]; exact hpy) (by rw [hx1]; exact hpx)
  rw [hj] at hread
  have hlen := (l1 1 hl).1
  have hjl : 2 * j + 1 < calls.flatten.length := (List.getElem?_eq_some_iff.1 h1).1
  have hj1 : j < (L 1).length := by rw [hlen]; omega
  rw [List.getElem?_eq_getElem hj1] at hread
  dsimp only at hread
  have hmm := (l1 0 (by omega)).2.2 (by omega) j _ f0 f1 (List.getElem?_eq_getElem hj1) (by rw [l0]; exact h0)
    (by rw [l0]; exact h1) py px (by rw [Nat.zero_add, hy1]; exact hpy) (by rw [Nat.zero_add, hx1]; exact hpx)
  rw [Nat.zero_add, hx0, hy0] at hmm
  obtain ⟨m1, m2⟩ := hmm
  obtain ⟨v, hv⟩ := List.length_eq_one_iff.1 m1
  rw [hv] at hread m2
  have hvv : leNat [v] = v.toNat := by simp [leNat]
  rw [hvv] at m2
  refine ⟨v, hread, ?_, m2⟩
  have q0 := hm f0 (List.mem_of_getElem? h0) py px (by unfold ceilDiv at hpy; omega) (by unfold ceilDiv at hpx; omega)
  have q1 := hm f1 (List.mem_of_getElem? h1) py px (by unfold ceilDiv at hpy; omega) (by unfold ceilDiv at hpx; omega)
  have : v.toNat < 128 := by
    rw [m2]; unfold meanOfTwo; omega
  have hn : numberOf 4 [v] = some (v.toNat : Rat) := by
    simp only [numberOf, show kindOf 4 = .signed from rfl, hvv, List.length_singleton]
    rw [if_pos (by omega)]
  have hq : (0 : Rat) ≤ (v.toNat : Rat) := by exact_mod_cast Nat.zero_le _
  refine ⟨_, hn, hq, ?_⟩
  intro hle
  linarith

end

theorem Sample.setupSigned : ∃ cfg cfgs, Setup0 Sample.world 9 Sample.signed cfg cfgs :=
  ⟨_, _, ⟨rfl, rfl, rfl, rfl, by decide, fun _ => by decide⟩⟩

/-- Both cases of `multiscale_defined_exact_partial` occur for a stream of 4 by 4 frames of `int8`: a frame that is -1 in one corner and 0
elsewhere is stored; a frame of which a corner block is -1 is undefined. -/
example : (∃ st ns tr, runStream Sample.world Sample.env 9 Sample.signed [255 :: List.replicate 15 0] = some (.ok (st, ns, tr))) ∧
    runStream Sample.world Sample.env 9 Sample.signed [List.replicate 6 255 ++ List.replicate 10 0] = some .ub := by
  obtain ⟨cfg, cfgs, h⟩ := Sample.setupSigned
  have key := fun f hf => multiscale_defined_exact_partial (calls := [[f]]) h (Sample.storageOk (s := Sample.signed)) rfl
    (by intro hv; cases hv)
    (a := ⟨some "t".toList, 2, 0, 1, 1⟩) (inner := []) (y := ⟨some "y".toList, 0, 4, 2, 1⟩) (x := ⟨some "x".toList, 0, 4, 2, 1⟩)
    rfl (by simp) (by
      intro c hc g hg
      simp only [List.mem_singleton] at hc
      subst hc
      simp only [List.mem_singleton] at hg
      subst hg
      exact hf)
  constructor
  · obtain ⟨st, tr, h1, _⟩ := (key (255 :: List.replicate 15 0) (by decide)).1 (by
      intro _ f hf
      simp only [List.flatten_cons, List.flatten_nil, List.append_nil, List.mem_singleton] at hf
      subst hf
      intro r c hr hc
      have hr' : r = 0 ∨ r = 1 := by dsimp only at hr; omega
      have hc' : c = 0 ∨ c = 1 := by dsimp only at hc; omega
      rcases hr' with rfl | rfl <;> rcases hc' with rfl | rfl <;> decide)
    simp only [List.map_cons, List.map_nil, List.flatten_cons, List.flatten_nil, List.append_nil] at h1
    exact ⟨st, _, tr, h1⟩
  · have h1 := (key (List.replicate 6 255 ++ List.replicate 10 0) (by decide)).2 ⟨rfl, List.replicate 6 255 ++ List.replicate 10 0, List.mem_singleton.2 rfl, by
      intro hm
      exact absurd (hm 0 0 (by decide) (by decide)) (by decide)⟩
    simpa using h1

/-- Frames meeting the hypotheses of `signed_mean_missed` where the exact mean is -2: two frames of 4 by 4 pixels with -8 in the corner of every block. -/
def Sample.minus8 : Bytes := [248, 0, 248, 0, 0, 0, 0, 0, 248, 0, 248, 0, 0, 0, 0, 0]

theorem Sample.minus8_fits : MeansFit 4 4 Sample.minus8 ∧ meanOfTwoQ (int8At 4 Sample.minus8) (int8At 4 Sample.minus8) 4 4 0 0 = -2 := by
  constructor
  · intro r c hr hc
    have hr' : r = 0 ∨ r = 1 := by omega
    have hc' : c = 0 ∨ c = 1 := by omega
    rcases hr' with rfl | rfl <;> rcases hc' with rfl | rfl <;> decide
  · have h1 : numberOf 4 [248] = some (-8) := by
      simp [numberOf, kindOf, leNat]; norm_num
    have h2 : numberOf 4 [0] = some 0 := by
      simp [numberOf, kindOf, leNat]
    simp [meanOfTwoQ, blockMeanQ, int8At, Sample.minus8, h1, h2]
    norm_num

/-- Two such frames appended: the pixel read at level 1 is not negative although the exact mean is -2. -/
example : ∃ cfg st ns tr, runStream Sample.world Sample.env 9 Sample.signed [Sample.minus8 ++ Sample.minus8] = some (.ok (st, ns, tr)) ∧
    ∃ v q, readV2 (fun p => fileInStore Sample.world cfg p tr) (levelDir "/tmp/a".toList 1) some
      [1, 2, 2] 1 [0, 0, 0] = some [v] ∧ numberOf 4 [v] = some q ∧ 0 ≤ q := by
  obtain ⟨cfg, cfgs, h⟩ := Sample.setupSigned
  have hl : 1 < cfgs.length := by
    obtain ⟨c1, rest, e⟩ := levelConfigs_tail h.levels
    rw [e]; simp
  have hm : ∀ f ∈ [[Sample.minus8, Sample.minus8]].flatten, f = Sample.minus8 := by
    intro f hf
    simpa using hf
  obtain ⟨st, tr, h1, _, h3⟩ := signed_mean_missed (calls := [[Sample.minus8, Sample.minus8]]) (decode := some)
    (root := "/tmp/a".toList) (j := 0) (f0 := Sample.minus8) (f1 := Sample.minus8) h (by
      intro d hd
      simp only [Sample.signed, Option.getD_some, List.mem_cons, List.not_mem_nil, or_false] at hd
      rcases hd with rfl | rfl | rfl <;> decide) Sample.storageOk rfl rfl hl
    (a := ⟨some "t".toList, 2, 0, 1, 1⟩) (inner := []) (y := ⟨some "y".toList, 0, 4, 2, 1⟩) (x := ⟨some "x".toList, 0, 4, 2, 1⟩) rfl
    ⟨rfl, _, rfl, .inr (by decide)⟩ (.inl ⟨_, rfl, by decide⟩) (by intro b; rfl) (by decide) (by
      intro c hc f hf
      rw [hm f (List.mem_flatten.2 ⟨c, hc, hf⟩)]
      rfl) (fun f hf => by rw [hm f hf]; exact Sample.minus8_fits.1) rfl rfl
  obtain ⟨v, hv, ⟨q, hq, hp, _⟩, _⟩ := h3 0 [] 0 0 trivial (by decide) (by decide) (by decide)
  exact ⟨cfg, st, _, tr, h1, v, q, hv, hq, hp⟩

end AZ
