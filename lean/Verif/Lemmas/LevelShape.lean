import Verif.Lemmas.LevelDims
import Verif.Lemmas.SessionV2
import Verif.Spec.Pyramid

set_option linter.unusedSimpArgs false

/-! # Closed form of the pyramid levels -/

namespace AZ
open Spec

def Dim.isChannel (d : Dim) : Bool := decide (d.kind = .channel)

/-- Dimension `d` at level `i`. -/
def dimAt (i : Nat) (d : Dim) : Dim :=
  { d with
    arraySize := levelSize d.isChannel d.arraySize i
    chunkSize := levelChunk d.isChannel d.arraySize d.chunkSize i
    shardSize := levelShard d.isChannel d.arraySize d.chunkSize d.shardSize i }

theorem ceilDiv_one (a : Nat) : ceilDiv a 1 = a := by simp [ceilDiv]

theorem dimAt_zero (d : Dim) : dimAt 0 d = d := by
  unfold dimAt levelSize levelChunk levelShard
  simp [ceilDiv_one]

theorem ceilDiv_pow_succ (a i : Nat) : ceilDiv a (2 ^ (i + 1)) = ceilDiv (ceilDiv a (2 ^ i)) 2 := by
  unfold ceilDiv
  have h : 0 < 2 ^ i := Nat.two_pow_pos i
  rw [Nat.pow_succ]
  generalize 2 ^ i = p at *
  rw [show a + p * 2 - 1 = (a + p - 1) + p by omega]
  rw [← Nat.div_div_eq_div_mul, Nat.add_div_right _ h]
  rfl

theorem levelSize_succ {ch : Bool} (h : ch = false) (a i : Nat) :
    levelSize ch a (i + 1) = ceilDiv (levelSize ch a i) 2 := by
  subst h
  simp [levelSize, ceilDiv_pow_succ]

theorem levelSize_pos {ch : Bool} {a : Nat} (h : 0 < a) (i : Nat) : 0 < levelSize ch a i := by
  unfold levelSize
  split
  · exact h
  · exact ceilDiv_pos h (Nat.two_pow_pos i)

theorem levelSize_le (ch : Bool) (a i : Nat) : levelSize ch a i ≤ a := by
  induction i with
  | zero => simp [levelSize, ceilDiv_one]
  | succ i ih =>
    cases ch with
    | true => exact Nat.le_refl _
    | false =>
      rw [levelSize_succ rfl, ceilDiv_two]
      omega

theorem levelSize_anti (ch : Bool) (a : Nat) {i j : Nat} (h : i ≤ j) : levelSize ch a j ≤ levelSize ch a i := by
  induction h with
  | refl => exact Nat.le_refl _
  | step h ih =>
    refine Nat.le_trans ?_ ih
    cases ch with
    | true => exact Nat.le_refl _
    | false => rw [levelSize_succ rfl, ceilDiv_two]; omega

theorem levelChunk_pos {ch : Bool} {a c : Nat} (hc : 0 < c) (i : Nat) : 0 < levelChunk ch a c i := by
  unfold levelChunk
  split
  · exact hc
  · rename_i h
    simp only [Bool.or_eq_true, decide_eq_true_eq, not_or] at h
    exact Nat.lt_min.2 ⟨hc, levelSize_pos (by omega) i⟩

theorem u32_sub_one {x y : Nat} (hx : 0 < x) (hxy : x ≤ 2 ^ 31) (hy : 0 < y) (hyx : y ≤ x) :
    u32 (u32 (x + y) + 2 ^ 32 - 1) / y = ceilDiv x y := by
  have e : u32 (u32 (x + y) + 2 ^ 32 - 1) = x + y - 1 := by
    unfold u32
    have h2 : x + y ≤ 2 ^ 32 := by omega
    have h3 : 0 < x + y := by omega
    generalize x + y = z at *
    rcases Nat.lt_or_eq_of_le h2 with h2 | h2
    · rw [Nat.mod_eq_of_lt h2, show z + 2 ^ 32 - 1 = (z - 1) + 2 ^ 32 by omega, Nat.add_mod_right,
        Nat.mod_eq_of_lt (by omega)]
    · rw [h2, Nat.mod_self]; rfl
  rw [e]
  rfl

theorem ceilDiv_self {a : Nat} (h : 0 < a) : ceilDiv a a = 1 := by
  unfold ceilDiv
  rw [show a + a - 1 = (a - 1) + a by omega, Nat.add_div_right _ h, Nat.div_eq_of_lt (by omega)]

/-- One step of `downsample` on one dimension. -/
theorem downsampleDim_at {d : Dim} (ha : d.arraySize < 2 ^ 32 - 1) (hc : 0 < d.chunkSize) (i : Nat) :
    downsampleDim (dimAt i d) = .ok (dimAt (i + 1) d) := by
  unfold downsampleDim
  by_cases hk : d.kind = .channel
  · have hch : d.isChannel = true := by simp [Dim.isChannel, hk]
    rw [if_pos (show (dimAt i d).kind = .channel from hk)]
    unfold dimAt levelSize levelChunk levelShard
    simp [hch]
  · have hch : d.isChannel = false := by simp [Dim.isChannel, hk]
    rw [if_neg (show ¬(dimAt i d).kind = .channel from hk)]
    have hA : (dimAt i d).arraySize = levelSize false d.arraySize i := by unfold dimAt; rw [hch]
    have hC : (dimAt i d).chunkSize = levelChunk false d.arraySize d.chunkSize i := by unfold dimAt; rw [hch]
    have hS : (dimAt i d).shardSize = levelShard false d.arraySize d.chunkSize d.shardSize i := by
      unfold dimAt; rw [hch]
    have hle := levelSize_le false d.arraySize i
    have hu : u32 (levelSize false d.arraySize i + levelSize false d.arraySize i % 2) / 2 =
        levelSize false d.arraySize (i + 1) := by
      rw [levelSize_succ rfl, ceilDiv_two, u32_of_lt (n := levelSize false d.arraySize i + levelSize false d.arraySize i % 2)
        (by omega)]
    by_cases h0 : d.arraySize = 0
    · have hz : ∀ j, levelSize false d.arraySize j = 0 := fun j => Nat.le_zero.1 (h0 ▸ levelSize_le false d.arraySize j)
      have hcc : ∀ j, levelChunk false d.arraySize d.chunkSize j = d.chunkSize := fun j => by
        unfold levelChunk; simp [h0]
      dsimp only
      rw [hA, hu, hC, hS, hz, hz, hcc, if_pos rfl, if_pos rfl]
      have hd : decide (d.chunkSize ≠ 0) = true := by simpa using Nat.ne_of_gt hc
      simp only [hd, check, if_true, Res.bind_ok, Res.pure_eq, Res.ok.injEq]
      unfold dimAt
      rw [hch, hz, hcc]
      have : levelShard false d.arraySize d.chunkSize d.shardSize (i + 1) = 1 := by
        unfold levelShard; simp [h0]
      rw [this, hz, hcc]
    · have hp := levelSize_pos (ch := false) (Nat.pos_of_ne_zero h0) i
      have hp' := levelSize_pos (ch := false) (Nat.pos_of_ne_zero h0) (i + 1)
      have hck : min (levelChunk false d.arraySize d.chunkSize i) (levelSize false d.arraySize (i + 1)) =
          levelChunk false d.arraySize d.chunkSize (i + 1) := by
        have hle2 := levelSize_anti false d.arraySize (Nat.le_add_right i 1)
        unfold levelChunk
        by_cases hi : i = 0
        · subst hi; simp [h0]
        · simp only [h0, hi, decide_false, Bool.or_self, Bool.or_false, Bool.false_eq_true, if_false]
          simp
          omega
      have hcp := levelChunk_pos (ch := false) (a := d.arraySize) hc (i + 1)
      have hcl : levelChunk false d.arraySize d.chunkSize (i + 1) ≤ levelSize false d.arraySize (i + 1) := by
        rw [← hck]; exact Nat.min_le_right _ _
      have h31 : levelSize false d.arraySize (i + 1) ≤ 2 ^ 31 := by
        rw [levelSize_succ rfl, ceilDiv_two]; omega
      dsimp only
      rw [hA, hu, hC, hS, if_neg (Nat.ne_of_gt hp), if_neg (Nat.ne_of_gt hp), hck]
      have hd : decide (levelChunk false d.arraySize d.chunkSize (i + 1) ≠ 0) = true := by
        simpa using Nat.ne_of_gt hcp
      rw [u32_sub_one hp' h31 hcp hcl]
      simp only [hd, check, if_true, Res.bind_ok, Res.pure_eq, Res.ok.injEq]
      unfold dimAt
      rw [hch]
      have : min (ceilDiv (levelSize false d.arraySize (i + 1)) (levelChunk false d.arraySize d.chunkSize (i + 1)))
          (levelShard false d.arraySize d.chunkSize d.shardSize i) =
          levelShard false d.arraySize d.chunkSize d.shardSize (i + 1) := by
        by_cases hi : i = 0
        · subst hi
          unfold levelShard
          simp [h0, Nat.min_comm]
        · have hN : ceilDiv (levelSize false d.arraySize (i + 1)) (levelChunk false d.arraySize d.chunkSize (i + 1)) ≤
              ceilDiv (levelSize false d.arraySize i) (levelChunk false d.arraySize d.chunkSize i) := by
            have e1 : levelChunk false d.arraySize d.chunkSize i = min d.chunkSize (levelSize false d.arraySize i) := by
              unfold levelChunk; simp [h0, hi]
            by_cases hs : d.chunkSize ≤ levelSize false d.arraySize (i + 1)
            · have hanti := levelSize_anti false d.arraySize (Nat.le_add_right i 1)
              rw [← hck, e1, Nat.min_eq_left (Nat.le_trans hs hanti), Nat.min_eq_left hs]
              exact ceilDiv_mono hanti
            · have : levelChunk false d.arraySize d.chunkSize (i + 1) = levelSize false d.arraySize (i + 1) := by
                have hanti := levelSize_anti false d.arraySize (Nat.le_add_right i 1)
                rw [← hck, e1]; omega
              rw [this]
              have h1 : ceilDiv (levelSize false d.arraySize (i + 1)) (levelSize false d.arraySize (i + 1)) = 1 := by
                exact ceilDiv_self hp'
              rw [h1]
              exact ceilDiv_pos hp (levelChunk_pos hc i)
          unfold levelShard
          simp only [h0, hi, Bool.or_false, Bool.false_or, decide_false, if_false, Bool.false_eq_true, Nat.succ_ne_zero,
            decide_eq_true_eq]
          omega
      rw [this]

theorem downsampleDims_at {ds : List Dim} (h : ∀ d ∈ ds, d.arraySize < 2 ^ 32 - 1 ∧ 0 < d.chunkSize) (i : Nat) :
    downsampleDims (ds.map (dimAt i)) = .ok (ds.map (dimAt (i + 1))) := by
  induction ds with
  | nil => rfl
  | cons d ds ih =>
    obtain ⟨h1, h2⟩ := h d (by simp)
    simp only [List.map_cons, downsampleDims]
    rw [downsampleDim_at h1 h2, Res.bind_ok, ih fun x hx => h x (by simp [hx])]
    rfl

/-- The array dimensions at level `i`. -/
def dimsAt (i : Nat) (D : ArrayDims) : ArrayDims :=
  { D with
    append := dimAt i D.append
    inner := D.inner.map (dimAt i)
    height := dimAt i D.height
    width := dimAt i D.width }

theorem dimsAt_toList (i : Nat) (D : ArrayDims) : (dimsAt i D).toList = D.toList.map (dimAt i) := by
  simp [dimsAt, ArrayDims.toList]

theorem dimsAt_zero (D : ArrayDims) : dimsAt 0 D = D := by
  have : dimAt 0 = id := by funext d; exact dimAt_zero d
  unfold dimsAt
  rw [this]
  simp

/-- The configuration of level `i`. -/
def cfgAt (i : Nat) (cfg : WConfig) : WConfig :=
  { cfg with
    dims := dimsAt i cfg.dims
    level := cfg.level + i }

/-- The configured chunks no longer fit some dimension of level `i`. -/
def shrinksAt (ds : List Dim) (i : Nat) : Bool :=
  ds.any fun d => chunkShrinks d.isChannel d.arraySize d.chunkSize i

theorem chunk_at {d : Dim} {i : Nat} (h : chunkShrinks d.isChannel d.arraySize d.chunkSize i = false) :
    (dimAt i d).chunkSize = d.chunkSize := by
  show levelChunk _ _ _ _ = _
  unfold levelChunk
  unfold chunkShrinks at h
  split
  · rfl
  · rename_i hn
    simp only [Bool.or_eq_true, decide_eq_true_eq, not_or] at hn
    simp [hn.1.1, hn.1.2] at h
    rw [Bool.eq_false_iff.2 hn.1.1]
    omega

theorem chunkShrinks_zero_iff {d : Dim} {i : Nat}
    (h : i = 0 ∨ chunkShrinks d.isChannel d.arraySize d.chunkSize i = false) :
    (dimAt i d).chunkSize = d.chunkSize := by
  rcases h with rfl | h
  · rw [dimAt_zero]
  · exact chunk_at h

theorem shrink_step {d : Dim} {i : Nat}
    (h : i = 0 ∨ chunkShrinks d.isChannel d.arraySize d.chunkSize i = false) :
    decide ((dimAt i d).chunkSize > (dimAt (i + 1) d).chunkSize) =
      chunkShrinks d.isChannel d.arraySize d.chunkSize (i + 1) := by
  rw [chunkShrinks_zero_iff h]
  cases hs : chunkShrinks d.isChannel d.arraySize d.chunkSize (i + 1) with
  | false => rw [chunk_at hs]; simp
  | true =>
    show decide (levelChunk _ _ _ _ < _) = true
    unfold chunkShrinks at hs
    simp at hs
    obtain ⟨⟨h1, h2⟩, h3⟩ := hs
    unfold levelChunk
    simp [h1, h2]
    rw [h1] at h3
    omega

theorem keepGoing_at {ds : List Dim} {i : Nat} (h : i = 0 ∨ shrinksAt ds i = false) :
    keepGoing (ds.map (dimAt i)) (ds.map (dimAt (i + 1))) = !shrinksAt ds (i + 1) := by
  induction ds with
  | nil => rfl
  | cons d ds ih =>
    have hd : i = 0 ∨ chunkShrinks d.isChannel d.arraySize d.chunkSize i = false := by
      rcases h with h | h
      · exact .inl h
      · simp only [shrinksAt, List.any_cons, Bool.or_eq_false_iff] at h; exact .inr h.1
    have hr : i = 0 ∨ shrinksAt ds i = false := by
      rcases h with h | h
      · exact .inl h
      · simp only [shrinksAt, List.any_cons, Bool.or_eq_false_iff] at h; exact .inr h.2
    simp only [List.map_cons, keepGoing]
    rw [ih hr, shrink_step hd]
    simp [shrinksAt]

/-- Sizes for which the level computation does not overflow 32 bits. -/
def SizesOk (D : ArrayDims) : Prop := ∀ d ∈ D.toList, d.arraySize < 2 ^ 32 - 1 ∧ 0 < d.chunkSize

theorem downsample_at {cfg : WConfig} (hs : SizesOk cfg.dims) {i : Nat}
    (h : i = 0 ∨ shrinksAt cfg.dims.toList i = false) :
    downsample (cfgAt i cfg) = .ok (cfgAt (i + 1) cfg, !shrinksAt cfg.dims.toList (i + 1)) := by
  unfold downsample
  have e : (cfgAt i cfg).dims.toList = cfg.dims.toList.map (dimAt i) := dimsAt_toList i _
  rw [e, downsampleDims_at hs i, Res.bind_ok, ← dimsAt_toList,
    show (cfgAt i cfg).dims.dtype = (dimsAt (i + 1) cfg.dims).dtype from rfl, ofList_toList, Res.bind_ok,
    dimsAt_toList, keepGoing_at h]
  rfl

/-- The loop from level `i`, if the first level whose chunks do not fit is `i + k + 1`. -/
theorem pyramidFrom_at {cfg : WConfig} (hs : SizesOk cfg.dims) (k : Nat) {i : Nat}
    (hno : ∀ j, (i = 0 → 0 < j) → i ≤ j → j ≤ i + k → shrinksAt cfg.dims.toList j = false)
    (hyes : shrinksAt cfg.dims.toList (i + k + 1) = true) {fuel : Nat} (hf : k < fuel) :
    pyramidFrom fuel (cfgAt i cfg) = some (.ok ((List.range (k + 1)).map fun j => cfgAt (i + 1 + j) cfg)) := by
  induction k generalizing i fuel with
  | zero =>
    cases fuel with
    | zero => omega
    | succ fuel =>
      rw [pyramidFrom, downsample_at hs (by
        by_cases hi : i = 0
        · exact .inl hi
        · exact .inr (hno i (fun h => absurd h hi) (Nat.le_refl _) (by omega)))]
      simp only [Nat.add_zero] at hyes
      simp [hyes]
  | succ k ih =>
    cases fuel with
    | zero => omega
    | succ fuel =>
      rw [pyramidFrom, downsample_at hs (by
        by_cases hi : i = 0
        · exact .inl hi
        · exact .inr (hno i (fun h => absurd h hi) (Nat.le_refl _) (by omega)))]
      have h1 := hno (i + 1) (by omega) (by omega) (by omega)
      dsimp only
      rw [h1, Bool.not_false, if_pos rfl, ih (i := i + 1) (fun j hj0 hj1 hj2 => hno j (by omega) (by omega) (by omega))
        (by rw [← hyes]; congr 1; omega) (by omega)]
      dsimp only
      rw [show List.range (k + 1 + 1) = 0 :: (List.range (k + 1)).map Nat.succ from List.range_succ_eq_map,
        List.map_cons, List.map_map]
      congr 3
      apply List.map_congr_left
      intro j _
      simp only [Function.comp]
      congr 1
      omega

/-- If no level ever stops the loop, the loop does not stop. -/
theorem pyramidFrom_never {cfg : WConfig} (hs : SizesOk cfg.dims)
    (hno : ∀ j, 0 < j → shrinksAt cfg.dims.toList j = false) (fuel i : Nat) :
    pyramidFrom fuel (cfgAt i cfg) = none := by
  induction fuel generalizing i with
  | zero => rfl
  | succ fuel ih =>
    rw [pyramidFrom, downsample_at hs (by
      by_cases hi : i = 0
      · exact .inl hi
      · exact .inr (hno i (by omega)))]
    dsimp only
    rw [hno (i + 1) (by omega), Bool.not_false, if_pos rfl, ih]

theorem cfgAt_zero (cfg : WConfig) : cfgAt 0 cfg = cfg := by
  unfold cfgAt
  rw [dimsAt_zero]
  rfl

theorem levelSize_one {a j : Nat} (ha : 0 < a) (h : a ≤ 2 ^ j) : levelSize false a j = 1 := by
  unfold levelSize
  simp only [Bool.false_eq_true, if_false]
  unfold ceilDiv
  have hp : 0 < 2 ^ j := Nat.two_pow_pos j
  rw [show a + 2 ^ j - 1 = (a - 1) + 2 ^ j by omega, Nat.add_div_right _ hp, Nat.div_eq_of_lt (by omega)]

/-- Some dimension stops the level loop iff a bounded non-channel dimension has chunks of at least 2. -/
theorem shrinks_some {ds : List Dim} (ha : ∀ d ∈ ds, d.arraySize < 2 ^ 32) {d : Dim} (hd : d ∈ ds)
    (h1 : d.kind ≠ .channel) (h2 : d.arraySize ≠ 0) (h3 : 2 ≤ d.chunkSize) : shrinksAt ds 32 = true := by
  unfold shrinksAt
  rw [List.any_eq_true]
  refine ⟨d, hd, ?_⟩
  have hch : d.isChannel = false := by simp [Dim.isChannel, h1]
  unfold chunkShrinks
  rw [hch, levelSize_one (by omega) (Nat.le_of_lt (ha d hd))]
  simp [h2]
  omega

theorem shrinks_none {ds : List Dim} (h : ∀ d ∈ ds, d.kind ≠ .channel → d.arraySize ≠ 0 → d.chunkSize < 2) (j : Nat) :
    shrinksAt ds j = false := by
  unfold shrinksAt
  rw [List.any_eq_false]
  intro d hd
  unfold chunkShrinks
  simp only [Bool.and_eq_true, Bool.not_eq_true', decide_eq_true_eq, not_and]
  intro h1
  have hk : d.kind ≠ .channel := by simpa [Dim.isChannel] using h1.1
  have h3 := h d hd hk (by simpa using h1.2)
  have := levelSize_pos (ch := d.isChannel) (a := d.arraySize) (Nat.pos_of_ne_zero (by simpa using h1.2)) j
  omega

/-- The least level at which the loop stops. -/
theorem exists_first {ds : List Dim} {m : Nat} (h : shrinksAt ds m = true) (hm : 0 < m) :
    ∃ k, k < m ∧ (∀ j, 0 < j → j ≤ k → shrinksAt ds j = false) ∧ shrinksAt ds (k + 1) = true := by
  induction m with
  | zero => omega
  | succ m ih =>
    by_cases hex : ∃ j, 0 < j ∧ j ≤ m ∧ shrinksAt ds j = true
    · by_cases hj : shrinksAt ds m = true ∧ 0 < m
      · obtain ⟨k, h1, h2, h3⟩ := ih hj.1 hj.2
        exact ⟨k, by omega, h2, h3⟩
      · -- find the least by strong induction
        obtain ⟨j, j1, j2, j3⟩ := hex
        clear ih
        induction j using Nat.strongRecOn with
        | ind j ihj =>
          by_cases hlt : ∃ i, 0 < i ∧ i < j ∧ shrinksAt ds i = true
          · obtain ⟨i, i1, i2, i3⟩ := hlt
            exact ihj i i2 i1 (by omega) i3
          · refine ⟨j - 1, by omega, ?_, by rw [show j - 1 + 1 = j by omega]; exact j3⟩
            intro i hi1 hi2
            cases hb : shrinksAt ds i with
            | false => rfl
            | true => exact absurd ⟨i, hi1, by omega, hb⟩ hlt
    · refine ⟨m, by omega, ?_, h⟩
      intro j hj1 hj2
      cases hb : shrinksAt ds j with
      | false => rfl
      | true => exact absurd ⟨j, hj1, hj2, hb⟩ hex

/-- **The level loop.** With chunk sizes of at least 2 along some bounded non-channel dimension it ends
after at most 32 levels; otherwise it never ends. -/
theorem levelConfigs_closed {cfg : WConfig} (hs : SizesOk cfg.dims) {fuel : Nat} {cfgs : List WConfig}
    (h : levelConfigs fuel true cfg = some (.ok cfgs)) :
    ∃ k, (∀ j, 0 < j → j ≤ k → shrinksAt cfg.dims.toList j = false) ∧ shrinksAt cfg.dims.toList (k + 1) = true ∧
      cfgs = (List.range (k + 2)).map fun j => cfgAt j cfg := by
  unfold levelConfigs at h
  simp only [if_true] at h
  by_cases hex : ∃ m, 0 < m ∧ shrinksAt cfg.dims.toList m = true
  · obtain ⟨m, hm, hx⟩ := hex
    obtain ⟨k, _, k2, k3⟩ := exists_first hx hm
    refine ⟨k, k2, k3, ?_⟩
    have hfk : k < fuel := by
      rcases Nat.lt_or_ge k fuel with hlt | hge
      · exact hlt
      · exfalso
        have : pyramidFrom fuel cfg = none := by
          have key : ∀ f i, f + i ≤ k → pyramidFrom f (cfgAt i cfg) = none := by
            intro f
            induction f with
            | zero => intro _ _; rfl
            | succ f ihf =>
              intro i hi
              rw [pyramidFrom, downsample_at hs (by
                by_cases hi0 : i = 0
                · exact .inl hi0
                · exact .inr (k2 i (by omega) (by omega)))]
              dsimp only
              rw [k2 (i + 1) (by omega) (by omega), Bool.not_false, if_pos rfl, ihf (i + 1) (by omega)]
          have := key fuel 0 (by omega)
          rwa [cfgAt_zero] at this
        rw [this] at h
        simp at h
    have hp := pyramidFrom_at hs k (i := 0) (fun j hj0 _ hj2 => k2 j (hj0 rfl) (by omega)) (by simpa using k3) hfk
    rw [cfgAt_zero] at hp
    rw [hp] at h
    simp only [Option.some.injEq, Res.ok.injEq] at h
    rw [← h, show List.range (k + 2) = 0 :: (List.range (k + 1)).map Nat.succ from List.range_succ_eq_map,
      List.map_cons, List.map_map, cfgAt_zero]
    congr 1
    apply List.map_congr_left
    intro j _
    simp only [Function.comp]
    congr 1
    omega
  · exfalso
    have := pyramidFrom_never hs (cfg := cfg) (fun j hj => by
      cases hb : shrinksAt cfg.dims.toList j with
      | false => rfl
      | true => exact absurd ⟨j, hj, hb⟩ hex) fuel 0
    rw [cfgAt_zero] at this
    rw [this] at h
    simp at h

theorem levelConfigs_ends {cfg : WConfig} (hs : SizesOk cfg.dims) {d : Dim} (hd : d ∈ cfg.dims.toList)
    (h1 : d.kind ≠ .channel) (h2 : d.arraySize ≠ 0) (h3 : 2 ≤ d.chunkSize) :
    ∃ cfgs, levelConfigs 32 true cfg = some (.ok cfgs) ∧ cfgs.length ≤ 33 := by
  obtain ⟨k, k1, k2, k3⟩ := exists_first (shrinks_some (fun d hd => by have := (hs d hd).1; omega) hd h1 h2 h3)
    (by omega)
  have hp := pyramidFrom_at hs k (i := 0) (fun j hj0 _ hj2 => k2 j (hj0 rfl) (by omega)) (by simpa using k3)
    (fuel := 32) (by omega)
  rw [cfgAt_zero] at hp
  refine ⟨_, by unfold levelConfigs; rw [hp]; rfl, ?_⟩
  simp
  omega

theorem levelConfigs_never {cfg : WConfig} (hs : SizesOk cfg.dims)
    (h : ∀ d ∈ cfg.dims.toList, d.kind ≠ .channel → d.arraySize ≠ 0 → d.chunkSize < 2) (fuel : Nat) :
    levelConfigs fuel true cfg = none := by
  have := pyramidFrom_never hs (cfg := cfg) (fun j _ => shrinks_none h j) fuel 0
  rw [cfgAt_zero] at this
  unfold levelConfigs
  rw [this]
  rfl

end AZ
