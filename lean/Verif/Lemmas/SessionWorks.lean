import Verif.Lemmas.Session

set_option linter.unusedSimpArgs false

/-! # Sessions on working storage succeed -/

namespace AZ
open Spec

/-- The array writer accepts any sequence of frames of the right size without error. -/
def WriterWorks (N : Nat) (env : Env) (c : WConfig) : Prop :=
  ∀ frames : List Bytes, frames.length < N → (∀ f ∈ frames, f.length = bytesOfFrame c.dims) →
    ∃ st, writeFrames env c frames (WState.init c) = .ok st ∧ st.errors = [] ∧
      ∃ stf, finalizeArray env c st = .ok stf

/-- Sizes along the pyramid: nothing wraps, and each level expects what the scaling produces. -/
def PyrOk (t : DType) : List WConfig → Nat → Nat → Prop
  | [], _, _ => True
  | c :: cs, w, h => w * h * t.bytes < 2 ^ 31 - 1 ∧ (w + w % 2) / 2 * ((h + h % 2) / 2) * t.bytes < 2 ^ 31 - 1 ∧
      bytesOfFrame c.dims = (w + w % 2) / 2 * ((h + h % 2) / 2) * t.bytes ∧ 0 < bytesOfFrame c.dims ∧
      PyrOk t cs ((w + w % 2) / 2) ((h + h % 2) / 2)

theorem leBytes_length (n v : Nat) : (leBytes n v).length = n := by
  induction n generalizing v with
  | zero => rfl
  | succ n ih => simp [leBytes, ih]

theorem averagePixel_length (t : DType) (a b : Nat) : (averagePixel t a b).length = t.bytes := by
  cases t <;> simp [averagePixel, encodePixel, leBytes_length, DType.bytes]

theorem scaledPx_length (src : Bytes) (w h : Nat) :
    (scaledPx src w h).length = (h + h % 2) / 2 * ((w + w % 2) / 2) := by
  unfold scaledPx
  rw [List.length_flatMap]
  simp [List.map_const']

theorem averageFrames_length (t : DType) (a b : List Nat) :
    (averageFrames t a b).length = min a.length b.length * t.bytes := by
  unfold averageFrames
  rw [List.length_flatMap]
  have : (a.zip b).map (fun x => (averagePixel t x.1 x.2).length) = (a.zip b).map fun _ => t.bytes := by
    apply List.map_congr_left
    intro x _
    exact averagePixel_length ..
  rw [this]
  simp [List.map_const']

theorem scaled_average_length (t : DType) (f g : Bytes) (w h : Nat) :
    (averageFrames t (scaledPx f w h) (scaledPx g w h)).length =
      (w + w % 2) / 2 * ((h + h % 2) / 2) * t.bytes := by
  rw [averageFrames_length, scaledPx_length, scaledPx_length, Nat.min_self]
  rw [Nat.mul_comm ((h + h % 2) / 2)]

theorem nextFrames_sizes (t : DType) (w h : Nat) (fs : List Bytes) :
    ∀ g ∈ nextFrames t w h fs, g.length = (w + w % 2) / 2 * ((h + h % 2) / 2) * t.bytes := by
  fun_induction nextFrames t w h fs with
  | case1 a b rest ih =>
    intro g hg
    rcases List.mem_cons.1 hg with rfl | hg
    · exact scaled_average_length ..
    · exact ih g hg
  | case2 fs hne => simp

theorem dtype_bytes_pos (t : DType) : 0 < t.bytes := by cases t <;> decide

/-- The scaled pixels of a frame can be converted to the pixel type: this can fail for `int8` only. -/
def Scales (t : DType) (w h : Nat) (f : Bytes) : Prop :=
  t = .i8 → ∀ i j, 2 * i < h → 2 * j < w → quadSum f w h (2 * i) (2 * j) / 4 ≤ 127

theorem scaleImage_works {t : DType} {src : Bytes} {w h : Nat} (ht : Scales t w h src) (hs : src.length = w * h * t.bytes)
    (h1 : w * h * t.bytes < 2 ^ 31 - 1) (h2 : (w + w % 2) / 2 * ((h + h % 2) / 2) * t.bytes < 2 ^ 31 - 1)
    (h3 : 0 < (w + w % 2) / 2 * ((h + h % 2) / 2) * t.bytes) :
    scaleImage t src w h = .ok ⟨scaledPx src w h, (w + w % 2) / 2, (h + h % 2) / 2⟩ := by
  have hb := dtype_bytes_pos t
  have hwh : w * h < 2 ^ 31 - 1 := Nat.lt_of_le_of_lt (Nat.le_mul_of_pos_right _ hb) h1
  have hwh' : (w + w % 2) / 2 * ((h + h % 2) / 2) < 2 ^ 31 - 1 := Nat.lt_of_le_of_lt (Nat.le_mul_of_pos_right _ hb) h2
  have h4 := Nat.pos_of_mul_pos_right h3
  have hh : 0 < h := by have := Nat.pos_of_mul_pos_left h4; omega
  have hw : 0 < w := by have := Nat.pos_of_mul_pos_right h4; omega
  have hw2 : w < 2 ^ 31 - 1 := Nat.lt_of_le_of_lt (Nat.le_mul_of_pos_right _ hh) hwh
  have hh2 : h < 2 ^ 31 - 1 := Nat.lt_of_le_of_lt (Nat.le_mul_of_pos_left _ hw) hwh
  unfold scaleImage
  rw [u64_of_lt (show w * h < 2 ^ 64 by omega), u64_of_lt (show w * h * t.bytes < 2 ^ 64 by omega), hs]
  have hd : decide (w * h * t.bytes ≥ w * h * t.bytes) = true := by simp
  rw [hd]
  simp only [check_true, Res.bind_ok]
  rw [if_neg (by omega)]
  rw [if_neg]
  · rfl
  · intro hc
    simp only [Bool.and_eq_true, decide_eq_true_eq, List.any_eq_true, List.mem_flatMap, List.mem_map, List.mem_range] at hc
    obtain ⟨h8, k, ⟨i, hi, j, hj, rfl⟩, hk⟩ := hc
    have := ht h8 i j (by omega) (by omega)
    omega

theorem scales_of {t : DType} {w h : Nat} {f : Bytes} (ht : t ≠ .i8) : Scales t w h f := fun e => absurd e ht

/-- Bytes below 128 have means below 128. -/
theorem scales_of_small {t : DType} {w h : Nat} {f : Bytes} (hf : ∀ b ∈ f, b.toNat ≤ 127) : Scales t w h f := by
  intro _ i j _ _
  have hb : ∀ n, srcByte f n ≤ 127 := by
    intro n
    unfold srcByte
    rw [List.getD_eq_getElem?_getD]
    cases hg : f[n]? with
    | none => simp
    | some b => exact hf b (List.mem_of_getElem? hg)
  unfold quadSum
  dsimp only
  have := hb (2 * i * w + 2 * j)
  have := hb (2 * i * w + 2 * j + if 2 * j = w - 1 ∧ w % 2 = 1 then 0 else 1)
  have := hb (2 * i * w + 2 * j + if 2 * i = h - 1 ∧ h % 2 = 1 then 0 else w)
  have := hb (2 * i * w + 2 * j + (if 2 * i = h - 1 ∧ h % 2 = 1 then 0 else w) + if 2 * j = w - 1 ∧ w % 2 = 1 then 0 else 1)
  omega

/-- The mean of two frames that could be scaled can be scaled again. -/
theorem scales_average {t : DType} {w h w' h' : Nat} {f g : Bytes} (hf : Scales t w h f) (hg : Scales t w h g) :
    Scales t w' h' (averageFrames t (scaledPx f w h) (scaledPx g w h)) := by
  intro h8
  refine scales_of_small (fun b hb => ?_) h8
  have hp : ∀ {f : Bytes}, Scales t w h f → ∀ k ∈ scaledPx f w h, k / 4 ≤ 127 := by
    intro f hf k hk
    unfold scaledPx at hk
    simp only [List.mem_flatMap, List.mem_map, List.mem_range] at hk
    obtain ⟨i, hi, j, hj, rfl⟩ := hk
    exact hf h8 i j (by omega) (by omega)
  unfold averageFrames at hb
  obtain ⟨⟨k1, k2⟩, hk, hb⟩ := List.mem_flatMap.1 hb
  have a1 := hp hf k1 (List.of_mem_zip hk).1
  have a2 := hp hg k2 (List.of_mem_zip hk).2
  subst h8
  simp only [averagePixel, encodePixel, DType.bytes, leBytes, List.mem_singleton, Nat.pow_one] at hb
  subst hb
  rw [UInt8.toNat_ofNat']
  omega

theorem scales_next {t : DType} {w h w' h' : Nat} {fs : List Bytes} (hs : ∀ g ∈ fs, Scales t w h g) :
    ∀ g ∈ nextFrames t w h fs, Scales t w' h' g := by
  fun_induction nextFrames t w h fs with
  | case1 a b rest ih =>
    intro g hg
    rcases List.mem_cons.1 hg with rfl | hg
    · exact scales_average (hs b (by simp)) (hs a (by simp))
    · exact ih (fun x hx => hs x (by simp [hx])) g hg
  | case2 fs hne => simp

theorem writer_step_works {N : Nat} {env : Env} {c : WConfig} (hw : WriterWorks N env c) {fs : List Bytes} {f : Bytes}
    {s : WState} (hs : writeFrames env c fs (WState.init c) = .ok s) (hF : 0 < bytesOfFrame c.dims)
    (hn : fs.length + 1 < N) (hf : ∀ g ∈ fs, g.length = bytesOfFrame c.dims)
    (hfl : f.length = bytesOfFrame c.dims) :
    ∃ s', writeFrame env c f s = .ok (s', bytesOfFrame c.dims) ∧ s.errors = [] ∧ s'.errors = [] := by
  obtain ⟨s1, a1, a2, _⟩ := hw fs (by omega) hf
  rw [hs] at a1
  cases a1
  obtain ⟨s2, b1, b2, _⟩ := hw (fs ++ [f]) (by simpa using hn) (by
    intro g hg
    rcases List.mem_append.1 hg with hg | hg
    · exact hf g hg
    · simp at hg; subst hg; exact hfl)
  rw [writeFrames_append, hs] at b1
  simp only [Res.bind_ok, writeFrames] at b1
  obtain ⟨⟨s3, n⟩, c1, c2⟩ := Res.bind_eq_ok.1 b1
  obtain ⟨_, _, c3⟩ := Res.bind_eq_ok.1 c2
  cases c3
  have := writeFrame_ret hfl.symm c1
  subst this
  exact ⟨s3, by rw [c1, hfl], a2, b2⟩

theorem pyramidLoop_works {N : Nat} {env : Env} {t : DType} {lvs : List Level} {fs : List Bytes} {f : Bytes}
    {w h : Nat} (ht : ∀ g ∈ f :: fs, Scales t w h g) (hl : LevelsOk env t lvs w h fs) (hw : ∀ lv ∈ lvs, WriterWorks N env lv.cfg)
    (hp : PyrOk t (lvs.map (·.cfg)) w h) (hn : fs.length + 1 < N)
    (hf : f.length = w * h * t.bytes) :
    ∃ lvs' evs, pyramidLoop env t lvs f w h = .ok (lvs', evs, []) := by
  induction lvs generalizing fs f w h with
  | nil => exact ⟨[], [], rfl⟩
  | cons lv rest ih =>
    obtain ⟨l1, l2, l3⟩ := hl
    obtain ⟨p1, p2, p3, p4, p5⟩ := hp
    rw [pyramidLoop, scaleImage_works (ht f (by simp)) hf p1 p2 (p3 ▸ p4)]
    simp only [Res.bind_ok]
    cases hs : lv.saved with
    | none => exact ⟨_, _, rfl⟩
    | some px =>
      dsimp only
      rw [hs] at l2
      have he : fs.length % 2 ≠ 0 := by
        intro he
        rw [if_pos he] at l2
        exact absurd l2 (by simp)
      rw [if_neg he, Option.some.injEq] at l2
      have hpx := l2
      have havg : (averageFrames t (scaledPx f w h) px).length =
          (w + w % 2) / 2 * ((h + h % 2) / 2) * t.bytes := by
        rw [hpx]; exact scaled_average_length ..
      obtain ⟨s', b1, b2, b3⟩ := writer_step_works (hw lv (by simp)) l1 p4
        (by rw [nextFrames_length]; omega)
        (by intro g hg; rw [p3]; exact nextFrames_sizes t w h fs g hg) (f := averageFrames t (scaledPx f w h) px)
        (by rw [havg, p3])
      have hstep : writerStep env { lv with saved := none } (averageFrames t (scaledPx f w h) px) =
          .ok (⟨lv.cfg, s', none⟩, bytesOfFrame lv.cfg.dims, s'.trace.drop lv.st.trace.length, []) := by
        unfold writerStep
        dsimp only
        rw [b1]
        simp [b3]
      rw [hstep]
      simp only [Res.bind_ok]
      have : (bytesOfFrame lv.cfg.dims != 0) = true := bne_iff_ne.2 (Nat.ne_of_gt p4)
      rw [this]
      simp only [check_true, Res.bind_ok]
      have hlast : Scales t w h (fs.getLastD []) := by
        cases fs with
        | nil => simp at he
        | cons x xs =>
          rw [List.getLastD_cons]
          exact ht _ (by rw [List.getLastD_eq_getLast?]; cases hx : xs.getLast? with
            | none => simp
            | some z => simp [List.mem_of_getLast? hx])
      obtain ⟨rest', e', hr⟩ := ih (by
          intro g hg
          rcases List.mem_cons.1 hg with rfl | hg
          · rw [hpx]; exact scales_average (ht f (by simp)) hlast
          · exact scales_next (fun x hx => ht x (by simp [hx])) g hg) l3 (fun l hl => hw l (by simp [hl])) p5
        (by rw [nextFrames_length]; clear havg p1 p2 p3 p4 b1; omega) havg
      rw [hr]
      exact ⟨_, _, rfl⟩

/-- Everything needed for one more frame in the first level. -/
theorem writeLevel0_works {N : Nat} {env : Env} {st : SState} {fs gs : List Bytes} {f : Bytes}
    (ha : Aligned (bytesOfFrame st.cfg.dims) st) (hF : 0 < bytesOfFrame st.cfg.dims)
    (hi : StreamOk2 env st fs gs) (hw : ∀ lv ∈ st.levels, WriterWorks N env lv.cfg)
    (hn : fs.length + 1 < N) (hfs : ∀ g ∈ fs, g.length = bytesOfFrame st.cfg.dims)
    (hf : f.length = bytesOfFrame st.cfg.dims) (he : st.error = []) :
    ∃ st' k, writeLevel0 env st f = .ok (st', k) ∧ st'.error = [] := by
  obtain ⟨l0, rest, hl, h0, hrest, hr⟩ := hi.level0
  obtain ⟨l0', rest', hl', hb⟩ := ha.level0
  rw [hl] at hl'
  cases hl'
  obtain ⟨s', b1, b2, b3⟩ := writer_step_works (hw l0 (by rw [hl]; simp)) h0 (by rw [hb]; exact hF) hn
    (by rw [hb]; exact hfs) (by rw [hb]; exact hf)
  have hstep : writerStep env l0 f =
      .ok ({ l0 with st := s' }, bytesOfFrame l0.cfg.dims, s'.trace.drop l0.st.trace.length, []) := by
    unfold writerStep
    rw [b1]
    simp [b3]
  unfold writeLevel0
  rw [hl]
  dsimp only
  rw [hstep]
  simp only [Res.bind_ok, Res.pure_eq]
  exact ⟨_, _, rfl, by simp [setErrors, he]⟩

/-- Everything needed for one more frame. -/
theorem frameStep_works2 {N : Nat} {env : Env} {st : SState} {fs gs : List Bytes} {f : Bytes}
    (hms : st.multiscale = true → ∀ g ∈ f :: gs,
      Scales st.cfg.dims.dtype st.cfg.dims.width.arraySize st.cfg.dims.height.arraySize g)
    (ha : Aligned (bytesOfFrame st.cfg.dims) st) (hF : 0 < bytesOfFrame st.cfg.dims)
    (hi : StreamOk2 env st fs gs) (hw : ∀ lv ∈ st.levels, WriterWorks N env lv.cfg)
    (hp : ∀ l0 rest, st.levels = l0 :: rest → PyrOk st.cfg.dims.dtype (rest.map (·.cfg))
      st.cfg.dims.width.arraySize st.cfg.dims.height.arraySize)
    (hsz : bytesOfFrame st.cfg.dims = st.cfg.dims.width.arraySize * st.cfg.dims.height.arraySize *
      st.cfg.dims.dtype.bytes)
    (hn : fs.length + 1 < N) (hgn : gs.length + 1 < N) (hfs : ∀ g ∈ fs, g.length = bytesOfFrame st.cfg.dims)
    (hf : f.length = bytesOfFrame st.cfg.dims) (he : st.error = []) :
    ∃ st', frameStep env st f = .ok st' ∧ st'.error = [] := by
  obtain ⟨s1, k, h1, he1⟩ := writeLevel0_works ha hF hi hw hn hfs hf he
  have hk := writeLevel0_keeps h1
  obtain ⟨l0, rest, hl, _, _, hr⟩ := (writeLevel0_ok hF ha hf h1 hi).level0
  rw [hk.cfg] at hr
  unfold frameStep
  rw [h1]
  simp only [Res.bind_ok]
  unfold writeMultiscale
  cases hm : st.multiscale with
  | false =>
    rw [hk.multiscale, hm]
    exact ⟨_, rfl, he1⟩
  | true =>
    rw [hk.multiscale, hm]
    simp only [Bool.not_true, Bool.false_eq_true, if_false]
    rw [hl, hk.cfg]
    have hlv : (l0 :: rest).map (·.cfg) = st.levels.map (·.cfg) := by rw [← hl]; exact hk.cfgs
    obtain ⟨m0, mrest, hml⟩ : ∃ m0 mrest, st.levels = m0 :: mrest := by
      obtain ⟨m0, mrest, hm, _⟩ := hi.level0
      exact ⟨m0, mrest, hm⟩
    have hpp := hp m0 mrest hml
    rw [hml, List.map_cons, List.map_cons, List.cons.injEq] at hlv
    rw [← hlv.2] at hpp
    obtain ⟨rs, evs, hr⟩ := pyramidLoop_works (hms hm) hr (fun lv hlv' => by
        have : lv.cfg ∈ mrest.map (·.cfg) := by rw [← hlv.2]; exact List.mem_map_of_mem hlv'
        obtain ⟨m, hm1, hm2⟩ := List.mem_map.1 this
        rw [← hm2]
        exact hw m (by rw [hml]; simp [hm1]))
      hpp hgn (f := f) (by rw [hf, hsz])
    dsimp only
    rw [hr]
    exact ⟨_, rfl, by simp [setErrors, he1]⟩

theorem frameStep_works {N : Nat} {env : Env} {st : SState} {fs : List Bytes} {f : Bytes}
    (hms : st.multiscale = true → ∀ g ∈ f :: fs,
      Scales st.cfg.dims.dtype st.cfg.dims.width.arraySize st.cfg.dims.height.arraySize g)
    (ha : Aligned (bytesOfFrame st.cfg.dims) st) (hF : 0 < bytesOfFrame st.cfg.dims)
    (hi : StreamOk env st fs) (hw : ∀ lv ∈ st.levels, WriterWorks N env lv.cfg)
    (hp : ∀ l0 rest, st.levels = l0 :: rest → PyrOk st.cfg.dims.dtype (rest.map (·.cfg))
      st.cfg.dims.width.arraySize st.cfg.dims.height.arraySize)
    (hsz : bytesOfFrame st.cfg.dims = st.cfg.dims.width.arraySize * st.cfg.dims.height.arraySize *
      st.cfg.dims.dtype.bytes)
    (hn : fs.length + 1 < N) (hfs : ∀ g ∈ fs, g.length = bytesOfFrame st.cfg.dims)
    (hf : f.length = bytesOfFrame st.cfg.dims) (he : st.error = []) :
    ∃ st', frameStep env st f = .ok st' ∧ st'.error = [] :=
  frameStep_works2 hms ha hF hi hw hp hsz hn hn hfs hf he

/-- Hypotheses under which every level works if the frames can be scaled. -/
structure LevelsWork0 (N : Nat) (env : Env) (cfg : WConfig) (cfgs : List WConfig) : Prop where
  works : ∀ c ∈ cfgs, WriterWorks N env c
  pos : 0 < bytesOfFrame cfg.dims
  size : bytesOfFrame cfg.dims = cfg.dims.width.arraySize * cfg.dims.height.arraySize * cfg.dims.dtype.bytes
  pyr : PyrOk cfg.dims.dtype cfgs.tail cfg.dims.width.arraySize cfg.dims.height.arraySize

/-- Hypotheses under which every level works. -/
structure LevelsWork (N : Nat) (env : Env) (ms : Bool) (cfg : WConfig) (cfgs : List WConfig) : Prop extends
    LevelsWork0 N env cfg cfgs where
  i8 : ms = true → cfg.dims.dtype ≠ .i8

/-- All of the frames can be scaled. -/
def AllScale (ms : Bool) (cfg : WConfig) (fs : List Bytes) : Prop :=
  ms = true → ∀ g ∈ fs, Scales cfg.dims.dtype cfg.dims.width.arraySize cfg.dims.height.arraySize g

theorem LevelsWork.allScale {N : Nat} {env : Env} {ms : Bool} {cfg : WConfig} {cfgs : List WConfig}
    (hw : LevelsWork N env ms cfg cfgs) (fs : List Bytes) : AllScale ms cfg fs := fun hm _ _ => scales_of (hw.i8 hm)

theorem foldFrames_works0 {N : Nat} {env : Env} {ms : Bool} {cfg : WConfig} {cfgs : List WConfig}
    (hw : LevelsWork0 N env cfg cfgs)
    (fs : List Bytes) {gs ps : List Bytes} {st : SState} (hsc : AllScale ms cfg (ps ++ fs)) (hcfg : st.cfg = cfg)
    (hcfgs : st.levels.map (·.cfg) = cfgs) (hms : st.multiscale = ms)
    (ha : Aligned (bytesOfFrame cfg.dims) st) (hi : StreamOk2 env st gs ps) (he : st.error = [])
    (hn : gs.length + fs.length < N) (hpn : ps.length + fs.length < N) (hgs : ∀ g ∈ gs, g.length = bytesOfFrame cfg.dims)
    (hfs : ∀ g ∈ fs, g.length = bytesOfFrame cfg.dims) :
    ∃ st', foldFrames env fs st = .ok st' ∧ st'.error = [] := by
  induction fs generalizing gs ps st with
  | nil => exact ⟨st, rfl, he⟩
  | cons f fs ih =>
    have hfl := hfs f (by simp)
    obtain ⟨s1, h1, h2⟩ := frameStep_works2 (f := f) (by rw [hms, hcfg]; intro hm g hg; exact hsc hm g (by
        rcases List.mem_cons.1 hg with rfl | hg
        · simp
        · simp [hg])) (by rw [hcfg]; exact ha)
      (by rw [hcfg]; exact hw.pos) hi
      (by
        intro lv hlv
        apply hw.works
        rw [← hcfgs]
        exact List.mem_map_of_mem hlv)
      (by
        intro l0 rest hl
        have := hw.pyr
        rw [← hcfgs, hl] at this
        rw [hcfg]
        exact this)
      (by rw [hcfg]; exact hw.size) (by simp at hn; omega) (by simp at hpn; omega) (by rw [hcfg]; exact hgs) (by rw [hcfg]; exact hfl) he
    have hk := frameStep_keeps h1
    obtain ⟨s2, h3, h4⟩ := ih (gs := gs ++ [f]) (ps := ps ++ [f]) (by rw [List.append_assoc]; exact hsc) (hk.cfg.trans hcfg) (hk.cfgs.trans hcfgs)
      (hk.multiscale.trans hms) (ha.keeps hk) (frameStep_ok2 hw.pos ha hfl h1 hi) h2
      (by simp at hn ⊢; omega) (by simp at hpn ⊢; omega)
      (by
        intro g hg
        rcases List.mem_append.1 hg with hg | hg
        · exact hgs g hg
        · simp at hg; subst hg; exact hfl)
      (fun x hx => hfs x (List.mem_cons_of_mem _ hx))
    exact ⟨s2, by rw [foldFrames, h1]; exact h3, h4⟩

theorem foldFrames_works2 {N : Nat} {env : Env} {ms : Bool} {cfg : WConfig} {cfgs : List WConfig}
    (hw : LevelsWork N env ms cfg cfgs)
    (fs : List Bytes) {gs ps : List Bytes} {st : SState} (hcfg : st.cfg = cfg)
    (hcfgs : st.levels.map (·.cfg) = cfgs) (hms : st.multiscale = ms)
    (ha : Aligned (bytesOfFrame cfg.dims) st) (hi : StreamOk2 env st gs ps) (he : st.error = [])
    (hn : gs.length + fs.length < N) (hpn : ps.length + fs.length < N) (hgs : ∀ g ∈ gs, g.length = bytesOfFrame cfg.dims)
    (hfs : ∀ g ∈ fs, g.length = bytesOfFrame cfg.dims) :
    ∃ st', foldFrames env fs st = .ok st' ∧ st'.error = [] :=
  foldFrames_works0 hw.toLevelsWork0 fs (hw.allScale _) hcfg hcfgs hms ha hi he hn hpn hgs hfs

theorem foldFrames_works {N : Nat} {env : Env} {ms : Bool} {cfg : WConfig} {cfgs : List WConfig}
    (hw : LevelsWork N env ms cfg cfgs)
    (fs : List Bytes) {gs : List Bytes} {st : SState} (hcfg : st.cfg = cfg)
    (hcfgs : st.levels.map (·.cfg) = cfgs) (hms : st.multiscale = ms)
    (ha : Aligned (bytesOfFrame cfg.dims) st) (hi : StreamOk env st gs) (he : st.error = [])
    (hn : gs.length + fs.length < N) (hgs : ∀ g ∈ gs, g.length = bytesOfFrame cfg.dims)
    (hfs : ∀ g ∈ fs, g.length = bytesOfFrame cfg.dims) :
    ∃ st', foldFrames env fs st = .ok st' ∧ st'.error = [] :=
  foldFrames_works2 hw fs hcfg hcfgs hms ha hi he hn hn hgs hfs

theorem finalizeLevels_works {env : Env} {lvs : List Level}
    (h : ∀ lv ∈ lvs, ∃ stf, finalizeArray env lv.cfg lv.st = .ok stf) :
    ∃ evs, finalizeLevels env lvs = .ok evs := by
  induction lvs with
  | nil => exact ⟨[], rfl⟩
  | cons lv rest ih =>
    obtain ⟨e, he⟩ := ih fun l hl => h l (by simp [hl])
    obtain ⟨s, hs⟩ := h lv (by simp)
    exact ⟨_, by rw [finalizeLevels, hs, Res.bind_ok, he]; rfl⟩

/-- The storage side of the environment works. -/
structure StorageWorks (env : Env) : Prop where
  metaSink : ∀ p, env.makeMetaSink p = true
  write : ∀ p o d, env.write p o d = .stored
  finalize : ∀ p, env.finalize p = true

theorem createStream_works {w : World} {env : Env} {fuel : Nat} {s : Settings} {cfg : WConfig}
    {cfgs : List WConfig} (hE : StorageWorks env) (hv : validateSettings w (some s) = .ok true)
    (hc : commitSettings s = .ok cfg) (hst : w.storeOk cfg.storePath = true)
    (hl : levelConfigs fuel s.multiscale cfg = some (.ok cfgs)) :
    ∃ st, createStream w env fuel (some s) = some (.ok st) := by
  unfold createStream
  rw [hv]
  dsimp only
  rw [hc]
  dsimp only
  rw [hst, hl]
  have hd : ∀ p d, writeDoc env p d = .ok [.wrote p 0 d] := by
    intro p d
    unfold writeDoc
    rw [hE.write]
  have ha : ((metaKeys cfg.version).map (metaSinkPath cfg)).all env.makeMetaSink = true := by
    rw [List.all_eq_true]
    intro p _
    exact hE.metaSink p
  simp only [Bool.not_true, Bool.false_eq_true, if_false, ha, check_true, Res.bind_ok, hd]
  cases externalDoc w s <;> exact ⟨_, rfl⟩

theorem levelFrames_length (t : DType) (i w h : Nat) (fs : List Bytes) :
    (levelFrames t i w h fs).length = fs.length / 2 ^ i := by
  induction i generalizing w h fs with
  | zero => simp [levelFrames]
  | succ i ih => rw [levelFrames, ih, nextFrames_length, Nat.div_div_eq_div_mul, Nat.pow_succ, Nat.mul_comm]

theorem levelFrames_sizes {t : DType} {cs : List WConfig} {i w h : Nat} {fs : List Bytes} {c : WConfig}
    (hp : PyrOk t cs w h) (hc : cs[i]? = some c) :
    ∀ g ∈ levelFrames t (i + 1) w h fs, g.length = bytesOfFrame c.dims := by
  induction cs generalizing i w h fs with
  | nil => simp at hc
  | cons x xs ih =>
    obtain ⟨p1, p2, p3, p4, p5⟩ := hp
    cases i with
    | zero =>
      simp at hc
      subst hc
      intro g hg
      rw [p3]
      exact nextFrames_sizes t w h fs g hg
    | succ i =>
      rw [List.getElem?_cons_succ] at hc
      rw [levelFrames]
      exact ih p5 hc

/-- Destroying the stream succeeds. -/
theorem destroy_works {N : Nat} {w : World} {env : Env} {fuel : Nat} {s : Settings} {fs gs : List Bytes}
    {cfg : WConfig} {cfgs : List WConfig} {st0 st1 : SState} (hE : StorageWorks env)
    (hl : levelConfigs fuel s.multiscale cfg = some (.ok cfgs)) (hw : LevelsWork0 N env cfg cfgs)
    (hc : Created w env fuel s cfg cfgs st0) (hk : Keeps st0 st1) (hso : StreamOk2 env st1 fs gs)
    (hn : fs.length < N) (hgn : gs.length < N) (hff : ∀ f ∈ fs, f.length = bytesOfFrame cfg.dims) :
    ∃ tr, destroyStream env st1 = .ok tr := by
  obtain ⟨e3, h3⟩ := finalizeLevels_works (env := env) (lvs := st1.levels) (by
    intro lv hlv
    obtain ⟨i, hi⟩ := List.mem_iff_getElem?.1 hlv
    have hcf : cfgs[i]? = some lv.cfg := by
      rw [← hc.cfgsEq, ← hk.cfgs, List.getElem?_map, hi]; rfl
    have hwf := hso.get hi
    rw [hk.cfg, hc.scfg] at hwf
    obtain ⟨s, a1, _, stf, a3⟩ := hw.works lv.cfg (List.mem_of_getElem? hcf)
      (levelFrames cfg.dims.dtype i cfg.dims.width.arraySize cfg.dims.height.arraySize (if i = 0 then fs else gs))
      (by
        rw [levelFrames_length]
        refine Nat.lt_of_le_of_lt (Nat.div_le_self _ _) ?_
        split
        · exact hn
        · exact hgn)
      (by
        cases i with
        | zero =>
          obtain ⟨rest, hr⟩ := levelConfigs_head hl
          rw [hr] at hcf
          simp at hcf
          rw [← hcf]
          exact hff
        | succ i =>
          obtain ⟨rest, hr⟩ := levelConfigs_head hl
          rw [hr] at hcf
          have := hw.pyr
          rw [hr] at this
          exact levelFrames_sizes this hcf)
    rw [hwf] at a1
    cases a1
    exact ⟨stf, a3⟩)
  unfold destroyStream
  have hd : ∀ p d, writeDoc env p d = .ok [.wrote p 0 d] := by
    intro p d
    unfold writeDoc
    rw [hE.write]
  have hfs : ∀ ps, finalizeSinks env ps = .ok (ps.map Ev.finalized) := by
    intro ps
    induction ps with
    | nil => rfl
    | cons p ps ih => simp [finalizeSinks, hE.finalize, ih]
  simp only [hd, hfs, h3, Res.bind_ok, Res.pure_eq]
  exact ⟨_, rfl⟩

theorem session_works0 {N : Nat} {w : World} {env : Env} {fuel : Nat} {s : Settings} {calls : List (List Bytes)}
    {cfg : WConfig} {cfgs : List WConfig} (hE : StorageWorks env)
    (hv : validateSettings w (some s) = .ok true)
    (hcm : commitSettings s = .ok cfg) (hst : w.storeOk cfg.storePath = true)
    (hl : levelConfigs fuel s.multiscale cfg = some (.ok cfgs))
    (hw : LevelsWork0 N env cfg cfgs) (hsc : AllScale s.multiscale cfg calls.flatten) (hn : calls.flatten.length < N)
    (hf : ∀ c ∈ calls, ∀ f ∈ c, f.length = bytesOfFrame cfg.dims) :
    ∃ st tr, runStream w env fuel s (calls.map List.flatten) =
      some (.ok (st, calls.map (fun c => c.flatten.length), tr)) ∧
      SessionOk env cfg cfgs calls.flatten tr ∧ st.error = [] := by
  obtain ⟨st0, h0⟩ := createStream_works hE hv hcm hst hl
  obtain ⟨cfg', cfgs', hc⟩ := createStream_ok h0
  have e1 := hc.commit
  rw [hcm] at e1
  cases e1
  have e2 := hc.levels
  rw [hl] at e2
  cases e2
  have hff : ∀ f ∈ calls.flatten, f.length = bytesOfFrame cfg.dims := by
    intro f hfm
    obtain ⟨c, hcm, hfc⟩ := List.mem_flatten.1 hfm
    exact hf c hcm f hfc
  obtain ⟨st1, h1, he1⟩ := foldFrames_works0 hw calls.flatten (gs := []) (ps := []) hsc hc.scfg hc.cfgsEq hc.sms hc.aligned
    hc.streamOk hc.error (by simpa using hn) (by simpa using hn) (by simp) hff
  have happ : appends env (calls.map List.flatten) st0 = .ok (st1, calls.map fun c => c.flatten.length) := by
    refine appends_aligned_of_ok hw.pos calls hf hc.aligned ?_ h1
    intro k s hs
    have hlt : ([] : List Bytes).length + (calls.flatten.take k).length < N := by
      have : (calls.flatten.take k).length ≤ calls.flatten.length := List.length_take_le' ..
      simp only [List.length_nil, Nat.zero_add]
      omega
    obtain ⟨s2, h2, he2⟩ := foldFrames_works0 hw (calls.flatten.take k) (gs := []) (ps := [])
      (fun hm g hg => hsc hm g (List.mem_of_mem_take hg)) hc.scfg hc.cfgsEq hc.sms hc.aligned
      hc.streamOk hc.error hlt hlt (by simp)
      (fun f hfm => hff f (List.mem_of_mem_take hfm))
    rw [hs] at h2
    cases h2
    exact he2
  have hk := foldFrames_keeps h1
  have hso := foldFrames_ok hw.pos calls.flatten (gs := []) hff hc.aligned h1 hc.streamOk
  rw [List.nil_append] at hso
  obtain ⟨tr, htr⟩ := destroy_works hE hl hw hc hk hso hn hn hff
  refine ⟨st1, tr, ?_, ?_, he1⟩
  · unfold runStream
    rw [h0]
    simp only [happ, Res.bind_ok, htr, Res.pure_eq]
  · exact destroy_session hc rfl hk hso (foldFrames_trace h1 hc.traceOk) htr

theorem session_works {N : Nat} {w : World} {env : Env} {fuel : Nat} {s : Settings} {calls : List (List Bytes)}
    {cfg : WConfig} {cfgs : List WConfig} (hE : StorageWorks env)
    (hv : validateSettings w (some s) = .ok true)
    (hcm : commitSettings s = .ok cfg) (hst : w.storeOk cfg.storePath = true)
    (hl : levelConfigs fuel s.multiscale cfg = some (.ok cfgs))
    (hw : LevelsWork N env s.multiscale cfg cfgs) (hn : calls.flatten.length < N)
    (hf : ∀ c ∈ calls, ∀ f ∈ c, f.length = bytesOfFrame cfg.dims) :
    ∃ st tr, runStream w env fuel s (calls.map List.flatten) =
      some (.ok (st, calls.map (fun c => c.flatten.length), tr)) ∧
      SessionOk env cfg cfgs calls.flatten tr ∧ st.error = [] :=
  session_works0 hE hv hcm hst hl hw.toLevelsWork0 (hw.allScale _) hn hf

end AZ
