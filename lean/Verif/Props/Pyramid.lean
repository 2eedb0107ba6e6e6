import Verif.Lemmas.Mean
import Verif.Props.Documents

set_option linter.unusedSimpArgs false

/-!
# C17–C21, C40: multiscale datasets
-/

namespace AZ
open Spec

section
variable {w : World} {env : Env} {fuel : Nat} {s : Settings} {cfg : WConfig} {cfgs : List WConfig}
  {a y x : DimProps} {inner : List DimProps} {root : Text} {calls : List (List Bytes)}
  {st : SState} {ns : List Nat} {tr : List Ev}

/-! ### C17 -/

/-- Some dimension other than a channel has a known size and a chunk of more than one element. -/
def HasShrinkable (s : Settings) : Prop :=
  ∃ d ∈ s.dimensions.getD [], d.isChannel = false ∧ d.arraySize ≠ 0 ∧ 2 ≤ d.chunkSize

theorem toList_commit (hc : commitSettings s = .ok cfg) :
    cfg.dims.toList = (s.dimensions.getD []).map DimProps.toDim := by
  unfold commitSettings at hc
  obtain ⟨D, hD, hc⟩ := Res.bind_eq_ok.1 hc
  cases hc
  exact (ofList_eq_ok hD).1

theorem kind_channel (d : DimProps) : d.toDim.kind = .channel ↔ d.isChannel = true := by
  rw [← toDim_isChannel]; unfold Dim.isChannel; simp

theorem created_of_levels (h : ∀ cfg, commitSettings s = .ok cfg → levelConfigs fuel s.multiscale cfg ≠ none) :
    createStream w env fuel (some s) ≠ none := by
  unfold createStream
  split
  · simp
  · simp
  · simp
  · simp
  · rename_i s' _ hs
    cases hs
    split
    · simp
    · simp
    · rename_i cfg hc
      split
      · simp
      · split
        · rename_i hn; exact absurd hn (h cfg hc)
        · simp
        · simp
        · simp

/-- **C17, partial.** `ZarrStream_create` returns (at most 32 rounds of the level loop) for all settings without
multiscale, and with multiscale whenever some non-channel dimension of known size has a chunk size of at least 2.
Missing: the other multiscale settings, for which it never returns (`create_terminates_violated`). -/
theorem create_terminates_partial (hv : validateSettings w (some s) = .ok true) (hz : SizesInRange s)
    (h : s.multiscale = true → HasShrinkable s) : createStream w env 32 (some s) ≠ none := by
  apply created_of_levels
  intro cfg hc
  cases hm : s.multiscale with
  | false => simp [levelConfigs]
  | true =>
    obtain ⟨d, d1, d2, d3, d4⟩ := h hm
    obtain ⟨cfgs, hcf, _⟩ := levelConfigs_ends (sizesOk_of hv hc hz) (d := d.toDim) (by
      rw [toList_commit hc]; exact List.mem_map_of_mem d1) (by
      rw [ne_eq, kind_channel]; simp [d2]) d3 d4
    rw [hcf]
    simp

/-- For all other accepted multiscale settings the level loop never ends. -/
theorem create_never_returns (hv : validateSettings w (some s) = .ok true) (hz : SizesInRange s)
    (hc : commitSettings s = .ok cfg) (hst : w.storeOk cfg.storePath = true) (hm : s.multiscale = true)
    (h : ¬ HasShrinkable s) (fuel : Nat) : createStream w env fuel (some s) = none := by
  unfold createStream
  rw [hv]
  dsimp only
  rw [hc]
  dsimp only
  rw [hst, hm, levelConfigs_never (sizesOk_of hv hc hz)]
  · rfl
  · intro d hd hk ha
    rw [toList_commit hc] at hd
    obtain ⟨q, hq, rfl⟩ := List.mem_map.1 hd
    apply Nat.lt_of_not_le
    intro h2
    refine h ⟨q, hq, ?_, ha, h2⟩
    rw [ne_eq, kind_channel] at hk
    simpa using hk

/-- Settings with chunks of one pixel, accepted by the validation. -/
def Sample.unitChunks : Settings := { Sample.settings with
  dimensions := some [⟨some "t".toList, 2, 0, 1, 1⟩, ⟨some "y".toList, 0, 8, 1, 1⟩, ⟨some "x".toList, 0, 8, 1, 1⟩] }

theorem sizes_in_range_of {ds : List DimProps} (h : s.dimensions = some ds)
    (hd : ds.all (fun d => decide (d.arraySize < 2 ^ 32 - 1)) = true) : SizesInRange s := by
  intro d hdm
  rw [h] at hdm
  exact of_decide_eq_true (List.all_eq_true.1 hd d hdm)

/-- **C17 is violated**: with multiscale enabled and every chunk one element long, `ZarrStream_create` passes
validation and never returns. -/
theorem create_terminates_violated : ∃ w s, validateSettings w (some s) = .ok true ∧
    ∀ env fuel, createStream w env fuel (some s) = none := by
  refine ⟨Sample.world, Sample.unitChunks, rfl, ?_⟩
  intro env fuel
  refine create_never_returns (cfg := _) rfl (sizes_in_range_of rfl (by decide)) rfl rfl rfl ?_ fuel
  rintro ⟨d, hd, _, _, h2⟩
  have hd : d ∈ [⟨some "t".toList, 2, 0, 1, 1⟩, ⟨some "y".toList, 0, 8, 1, 1⟩, (⟨some "x".toList, 0, 8, 1, 1⟩ : DimProps)] := hd
  simp only [List.mem_cons, List.not_mem_nil, or_false] at hd
  rcases hd with rfl | rfl | rfl <;> exact absurd h2 (by decide)

example : HasShrinkable Sample.settings ∧ SizesInRange Sample.settings ∧
    validateSettings Sample.world (some Sample.settings) = .ok true :=
  ⟨⟨Sample.dimY, by simp [Sample.settings], rfl, by decide, by decide⟩, Sample.sizesInRange, rfl⟩

/-! ### C18 -/

/-- Some configured chunk no longer fits level `i`. -/
def someChunkShrinks (ds : List DimProps) (i : Nat) : Bool :=
  ds.any fun d => chunkShrinks d.isChannel d.arraySize d.chunkSize i

theorem shrinksAt_commit (hc : commitSettings s = .ok cfg) (i : Nat) :
    shrinksAt cfg.dims.toList i = someChunkShrinks (s.dimensions.getD []) i := by
  unfold shrinksAt someChunkShrinks
  rw [toList_commit hc, List.any_map]
  congr 1
  funext d
  simp only [Function.comp, toDim_isChannel]
  rfl

/-- **C18.** The levels of a created stream: without multiscale one; with multiscale, levels are added up to and
including the first one at which a configured chunk does not fit. Level `i` has number `i`, the sizes, chunk sizes
and shard sizes of `Spec.Pyramid`, and the data type, location and compression of level 0. -/
theorem pyramid_levels (hz : SizesInRange s) (hd : s.dimensions = some (a :: (inner ++ [y, x])))
    (h : createStream w env fuel (some s) = some (.ok st)) :
    (s.multiscale = false → st.levels.length = 1) ∧
    (s.multiscale = true → 2 ≤ st.levels.length ∧
      someChunkShrinks (a :: (inner ++ [y, x])) (st.levels.length - 1) = true ∧
      ∀ j, 0 < j → j < st.levels.length - 1 → someChunkShrinks (a :: (inner ++ [y, x])) j = false) ∧
    ∀ (i : Nat) (lv : Level), st.levels[i]? = some lv →
      lv.cfg.level = i ∧
      aShape lv.cfg.dims.toList = sizesAt i (a :: (inner ++ [y, x])) ∧
      cShape lv.cfg.dims.toList = chunksAt i (a :: (inner ++ [y, x])) ∧
      kShape lv.cfg.dims.toList = shardsAt i (a :: (inner ++ [y, x])) ∧
      lv.cfg.dims.dtype = DType.fromC s.dataType ∧
      lv.cfg.storePath = trim (s.storePath.getD []) ∧
      lv.cfg.bucket = s.s3.map (fun b => trim (b.bucketName.getD [])) ∧
      lv.cfg.compression = s.compression.map (fun c => ⟨codecName c.codec, c.level, c.shuffle⟩) ∧
      lv.cfg.version = if s.version = 2 then .v2 else .v3 := by
  obtain ⟨cfg, cfgs, hc⟩ := createStream_ok h
  have hs := sizesOk_of hc.valid hc.commit hz
  have hlen : st.levels.length = cfgs.length := by rw [hc.slevels]; simp
  obtain ⟨f1, f2, f3, f4, f5⟩ := commit_fields hc.commit
  have hds : s.dimensions.getD [] = a :: (inner ++ [y, x]) := by rw [hd]; rfl
  refine ⟨?_, ?_, ?_⟩
  · intro hm
    have := hc.levels
    rw [hm] at this
    simp only [levelConfigs, Bool.false_eq_true, if_false, Option.some.injEq, Res.ok.injEq] at this
    rw [hlen, ← this]
    rfl
  · intro hm
    have hl := hc.levels
    rw [hm] at hl
    obtain ⟨k, k1, k2, rfl⟩ := levelConfigs_closed hs hl
    rw [hlen, ← hds]
    simp only [List.length_map, List.length_range, Nat.add_one_sub_one]
    refine ⟨by omega, ?_, ?_⟩
    · rw [← shrinksAt_commit hc.commit]; exact k2
    · intro j j1 j2
      rw [← shrinksAt_commit hc.commit]; exact k1 j j1 (by omega)
  · intro i lv hlv
    rw [hc.slevels, List.getElem?_map, Option.map_eq_some_iff] at hlv
    obtain ⟨c, hci, rfl⟩ := hlv
    have := levelCfg_of hs hc.levels hci
    subst this
    have hL := levelShape_of (inner := inner) (a := a) (y := y) (x := x) hc.commit hd i
    have ha : aShape (cfgAt i cfg).dims.toList = sizesAt i (a :: (inner ++ [y, x])) := by
      have := hL.tail
      obtain ⟨cfg', h1, h2⟩ := commit_dims hd
      rw [hc.commit] at h1
      cases h1
      show (dimsAt i cfg.dims).append.arraySize :: _ = _
      rw [show sizesAt i (a :: (inner ++ [y, x])) = levelSize a.isChannel a.arraySize i :: sizesAt i (inner ++ [y, x]) from rfl,
        ← this]
      congr 1
      show levelSize cfg.dims.append.isChannel cfg.dims.append.arraySize i = _
      rw [h2]
      dsimp only
      rw [toDim_isChannel]
      rfl
    exact ⟨by show cfg.level + i = i; rw [f1, Nat.zero_add], ha, hL.chunks, hL.shards, hL.dtype, f3, f2, f4, f5⟩

/-- **C18, sizes.** Along every dimension the level sizes are halved rounding up (channels unchanged); chunk sizes
and (for positive shard sizes) shard sizes never grow from one level to the next and stay positive. -/
theorem pyramid_monotone (d : DimProps) (hc : 0 < d.chunkSize) (i : Nat) :
    levelSize d.isChannel d.arraySize (i + 1) =
      (if d.isChannel then d.arraySize else ceilDiv (levelSize d.isChannel d.arraySize i) 2) ∧
    levelChunk d.isChannel d.arraySize d.chunkSize (i + 1) ≤ levelChunk d.isChannel d.arraySize d.chunkSize i ∧
    0 < levelChunk d.isChannel d.arraySize d.chunkSize i ∧
    (0 < d.shardSize →
      levelShard d.isChannel d.arraySize d.chunkSize d.shardSize (i + 1) ≤
        levelShard d.isChannel d.arraySize d.chunkSize d.shardSize i ∧
      0 < levelShard d.isChannel d.arraySize d.chunkSize d.shardSize i) := by
  cases hch : d.isChannel with
  | true => simp [levelSize, levelChunk, levelShard, hc]
  | false =>
    have hsz : levelSize false d.arraySize (i + 1) = ceilDiv (levelSize false d.arraySize i) 2 := by
      simp only [levelSize, Bool.false_eq_true, if_false]
      exact ceilDiv_pow_succ ..
    refine ⟨by simpa using hsz, ?_⟩
    by_cases h0 : d.arraySize = 0
    · rw [h0]
      by_cases hi : i = 0
      · subst hi; simp [levelChunk, levelShard]; omega
      · simp [levelChunk, levelShard, hc, hi]
    · have hp : 0 < levelSize false d.arraySize i := by
        simp only [levelSize, Bool.false_eq_true, if_false]
        exact ceilDiv_pos (Nat.pos_of_ne_zero h0) (Nat.two_pow_pos i)
      obtain ⟨q1, q2⟩ := ceilDiv_pos_two hp
      rw [← hsz] at q1 q2
      have c1 : levelChunk false d.arraySize d.chunkSize (i + 1) =
          min d.chunkSize (levelSize false d.arraySize (i + 1)) := by simp [levelChunk, h0]
      have s1 : ∀ q, levelShard false d.arraySize d.chunkSize q (i + 1) =
          min q (ceilDiv (levelSize false d.arraySize (i + 1)) (levelChunk false d.arraySize d.chunkSize (i + 1))) := by
        intro q; simp [levelShard, h0]
      by_cases hi : i = 0
      · subst hi
        have c0 : levelChunk false d.arraySize d.chunkSize 0 = d.chunkSize := by simp [levelChunk]
        have s0 : levelShard false d.arraySize d.chunkSize d.shardSize 0 = d.shardSize := by simp [levelShard]
        rw [c0, s0, c1, s1]
        exact ⟨Nat.min_le_left _ _, hc, fun hs => ⟨Nat.min_le_left _ _, hs⟩⟩
      · have c0 : levelChunk false d.arraySize d.chunkSize i = min d.chunkSize (levelSize false d.arraySize i) := by
          simp [levelChunk, h0, hi]
        have s0 : levelShard false d.arraySize d.chunkSize d.shardSize i =
            min d.shardSize (ceilDiv (levelSize false d.arraySize i) (levelChunk false d.arraySize d.chunkSize i)) := by
          simp [levelShard, h0, hi]
        rw [s0, s1, c0, c1]
        generalize levelSize false d.arraySize (i + 1) = z' at *
        generalize levelSize false d.arraySize i = z at *
        refine ⟨by omega, by omega, fun hs => ⟨?_, ?_⟩⟩
        · have : ceilDiv z' (min d.chunkSize z') ≤ ceilDiv z (min d.chunkSize z) := by
            have hq : 0 < ceilDiv z (min d.chunkSize z) := ceilDiv_pos hp (by omega)
            rcases Nat.le_total z' d.chunkSize with hle | hle
            · rw [Nat.min_eq_right hle]
              have : ceilDiv z' z' = 1 := by
                unfold ceilDiv
                rw [Nat.div_eq_iff (by omega)]
                omega
              omega
            · rw [Nat.min_eq_left hle, Nat.min_eq_left (Nat.le_trans hle q2)]
              exact ceilDiv_mono q2
          omega
        · have : 0 < ceilDiv z (min d.chunkSize z) := ceilDiv_pos hp (by omega)
          omega

/-- The sample pyramid: level 2 of `y` (5 rows, chunks of 2) has 2 rows. -/
example : sizesAt 2 [Sample.dimT, Sample.dimC, Sample.dimY, Sample.dimX] = [0, 3, 2, 2] ∧
    chunksAt 2 [Sample.dimT, Sample.dimC, Sample.dimY, Sample.dimX] = [2, 2, 2, 2] ∧
    ∃ st, createStream Sample.world Sample.env 9 (some Sample.settings) = some (.ok st) ∧ st.levels.length = 3 := by
  refine ⟨by decide, by decide, ?_⟩
  obtain ⟨cfgs, h, hl⟩ := Sample.setup
  obtain ⟨st, hst⟩ := createStream_works (Sample.storageOk (s := Sample.settings)).works h.valid h.commit h.store h.levels
  refine ⟨st, hst, ?_⟩
  obtain ⟨cfg', cfgs', hc⟩ := createStream_ok hst
  have e := hc.commit
  rw [h.commit] at e
  cases e
  have e := hc.levels
  rw [h.levels] at e
  cases e
  rw [hc.slevels, List.length_map, hl]

/-! ### C19, C21 -/

theorem level_height_width (h : Setup w fuel s cfg cfgs)
    (hd : s.dimensions = some (a :: (inner ++ [y, x]))) (i : Nat) :
    ceilDiv cfg.dims.width.arraySize (2 ^ i) = levelSize x.isChannel x.arraySize i ∧
    ceilDiv cfg.dims.height.arraySize (2 ^ i) = levelSize y.isChannel y.arraySize i := by
  have hD := dimsOf h.valid h.commit hd
  obtain ⟨ds, hds, hda⟩ := (validateSettings_ok h.valid).dims
  rw [hd] at hds
  cases hds
  have hy : y.isChannel = false := by
    have := hda.yx y (by
      rw [show (a :: (inner ++ [y, x])).length - 2 = (a :: inner).length by simp,
        show a :: (inner ++ [y, x]) = (a :: inner) ++ [y, x] by simp, List.drop_left]
      simp)
    simp [DimProps.isChannel, this]
  have hx : x.isChannel = false := by
    have := hda.yx x (by
      rw [show (a :: (inner ++ [y, x])).length - 2 = (a :: inner).length by simp,
        show a :: (inner ++ [y, x]) = (a :: inner) ++ [y, x] by simp, List.drop_left]
      simp)
    simp [DimProps.isChannel, this]
  rw [hD.width, hD.height, hy, hx]
  exact ⟨rfl, rfl⟩

/-- **C19.** Downscaling a frame of level `i` (any type, any content for which the scaling is defined) and averaging
two such results gives exactly the number of bytes the array of level `i + 1` expects. -/
theorem scaled_frames_fit (h : Setup w fuel s cfg cfgs) (hz : SizesInRange s)
    (hd : s.dimensions = some (a :: (inner ++ [y, x]))) {i : Nat} {c : WConfig} (hc : cfgs[i + 1]? = some c)
    {f g : Bytes} {sf sg : Scaled}
    (h1 : scaleImage (DType.fromC s.dataType) f (levelSize x.isChannel x.arraySize i)
      (levelSize y.isChannel y.arraySize i) = .ok sf)
    (h2 : scaleImage (DType.fromC s.dataType) g (levelSize x.isChannel x.arraySize i)
      (levelSize y.isChannel y.arraySize i) = .ok sg) :
    sf.w = levelSize x.isChannel x.arraySize (i + 1) ∧ sf.h = levelSize y.isChannel y.arraySize (i + 1) ∧
    (averageFrames (DType.fromC s.dataType) sf.px sg.px).length = bytesOfFrame c.dims := by
  obtain ⟨v, f'⟩ := h.levelDims.1 c (List.mem_of_getElem? hc)
  have hL := h.levelShape hz hd hc
  obtain ⟨e1, e2⟩ := level_height_width h hd i
  obtain ⟨e3, e4⟩ := level_height_width h hd (i + 1)
  rw [ceilDiv_pow_succ, e1] at e3
  rw [ceilDiv_pow_succ, e2] at e4
  rw [scaleImage_ok h1, scaleImage_ok h2]
  refine ⟨(half_eq _).trans e3, (half_eq _).trans e4, ?_⟩
  rw [scaled_average_length, half_eq, half_eq, e3, e4, ArrayDims.bytesOfFrame_eq v f']
  unfold ArrayDims.frameBytes
  rw [hL.height, hL.width, hL.dtype, Nat.mul_comm (levelSize x.isChannel _ _)]

/-- **C21.** In every successful session, whatever the storage does, the objects of level `i` are those of an array
writer that was given exactly `n / 2^i` frames. -/
theorem level_frame_count (h : Setup w fuel s cfg cfgs) (hd : s.dimensions = some (a :: (inner ++ [y, x])))
    (hn : calls.flatten.length < 2 ^ 32)
    (hf : ∀ c ∈ calls, ∀ f ∈ c, f.length = y.arraySize * x.arraySize * itemSize s.dataType)
    (hrun : runStream w env fuel s (calls.map List.flatten) = some (.ok (st, ns, tr)))
    {i : Nat} {c : WConfig} (hc : cfgs[i]? = some c) :
    ∃ frames wst1 wst, frames.length = calls.flatten.length / 2 ^ i ∧
      (∀ f ∈ frames, f.length = bytesOfFrame c.dims) ∧
      writeFrames env c frames (WState.init c) = .ok wst1 ∧
      wst1.framesWritten = calls.flatten.length / 2 ^ i ∧ finalizeArray env c wst1 = .ok wst ∧
      ∀ p, Owned c p → about p tr = about p wst.trace := by
  obtain ⟨hF, hF0⟩ := frame_size h hd
  have hf' := hf
  rw [← hF] at hf
  obtain ⟨hS, _⟩ := session_ok h.commit h.levels hF0 hf hrun
  obtain ⟨stf, r1, r2⟩ := hS.level i c hc
  obtain ⟨d1, d2⟩ := h.levelDims.1 c (List.mem_of_getElem? hc)
  have hlen := framesOfLevel_length cfg i calls.flatten
  have hlt : calls.flatten.length / 2 ^ i < 2 ^ 32 := Nat.lt_of_le_of_lt (Nat.div_le_self _ _) hn
  unfold runArray at r1
  obtain ⟨s1, h1, r1⟩ := Res.bind_eq_ok.1 r1
  obtain ⟨_, _, m2⟩ := writeFrames_minv' d1 d2 (by rw [hlen]; exact hlt) h1
  have hD := dimsOf h.valid h.commit hd
  rw [← hD.frame] at hf'
  have hsz := framesOfLevel_sizes h (frames := calls.flatten) (by
    intro f hfm
    obtain ⟨c, hc, hfc⟩ := List.mem_flatten.1 hfm
    exact hf' c hc f hfc) hc
  exact ⟨_, s1, stf, hlen, by rw [ArrayDims.bytesOfFrame_eq d1 d2]; exact hsz, h1, by rw [m2, hlen], r1, r2⟩

/-! ### C20 -/

theorem fromC_zero {k : Nat} (h : k = 0) : DType.fromC k = .u8 := by subst h; rfl

/-- **C20, partial.** V2, filesystem, `uint8` pixels: there are frame sequences `L 0, L 1, ..` with `L 0` the appended
frames, such that reading level `i` gives `L i` (zero beyond its frames), level `i` has `n / 2^i` frames, and
every pixel of frame `j` of level `i + 1` is the local mean of frames `2j` and `2j + 1` of level `i`.
Missing: other pixel types, for which the claim is false (`local_mean_violated`). -/
theorem pyramid_local_mean_partial (h : Setup w fuel s cfg cfgs) (hz : SizesInRange s) (hE : StorageOk env s)
    (hV : s.version = 2) (hu : s.dataType = 0)
    (hd : s.dimensions = some (a :: (inner ++ [y, x]))) (hr : StoredAt s root) (hfr : Fresh w s root)
    {decode : Bytes → Option Bytes} (hdec : Decodes env s decode)
    (hn : calls.flatten.length < 2 ^ 32)
    (hf : ∀ c ∈ calls, ∀ f ∈ c, f.length = y.arraySize * x.arraySize) :
    ∃ st tr, runStream w env fuel s (calls.map List.flatten) =
        some (.ok (st, calls.map (fun c => c.flatten.length), tr)) ∧ st.error = [] ∧
    ∃ L : Nat → List Bytes, L 0 = calls.flatten ∧ ∀ lv, lv < cfgs.length →
      (L lv).length = calls.flatten.length / 2 ^ lv ∧
      (∀ (t : Nat) (i : List Nat) (py px : Nat), InBounds (sizesAt lv inner) i →
        py < levelSize false y.arraySize lv → px < levelSize false x.arraySize lv →
        readV2 (fun p => fileInStore w cfg p tr) (levelDir root lv) decode
          (chunksAt lv (a :: (inner ++ [y, x]))) 1 (t :: (i ++ [py, px])) =
        some [match (L lv)[t * prod (sizesAt lv inner) + ravel (sizesAt lv inner) i]? with
          | some f => f.getD (py * levelSize false x.arraySize lv + px) 0
          | none => 0]) ∧
      (lv + 1 < cfgs.length → ∀ j f f0 f1, (L (lv + 1))[j]? = some f → (L lv)[2 * j]? = some f0 →
        (L lv)[2 * j + 1]? = some f1 → ∀ r c, r < levelSize false y.arraySize (lv + 1) →
        c < levelSize false x.arraySize (lv + 1) →
        (f.getD (r * levelSize false x.arraySize (lv + 1) + c) 0).toNat =
          meanOfTwo (fun r c => (f0.getD (r * levelSize false x.arraySize lv + c) 0).toNat)
            (fun r c => (f1.getD (r * levelSize false x.arraySize lv + c) 0).toNat)
            (levelSize false x.arraySize lv) (levelSize false y.arraySize lv) r c) := by
  have hD := dimsOf h.valid h.commit hd
  have hit : itemSize s.dataType = 1 := by rw [hu]; rfl
  have hfb : cfg.dims.frameBytes = y.arraySize * x.arraySize := by rw [hD.frame, hit, Nat.mul_one]
  rw [← hfb] at hf
  obtain ⟨st, tr, h1, h2, h3⟩ := session_v2 h hE hV hn hf
  refine ⟨st, tr, h1, h2, fun i => framesOfLevel cfg i calls.flatten, rfl, ?_⟩
  intro lv hlv
  have hc : cfgs[lv]? = some cfgs[lv] := List.getElem?_eq_getElem hlv
  generalize cfgs[lv] = c at hc
  obtain ⟨ds, hds, hda⟩ := (validateSettings_ok h.valid).dims
  rw [hd] at hds
  cases hds
  have hyx : ∀ d ∈ [y, x], d.isChannel = false := by
    intro d hdm
    have := hda.yx d (by
      rw [show (a :: (inner ++ [y, x])).length - 2 = (a :: inner).length by simp,
        show a :: (inner ++ [y, x]) = (a :: inner) ++ [y, x] by simp, List.drop_left]
      exact hdm)
    simp [DimProps.isChannel, this]
  have hy := hyx y (by simp)
  have hx := hyx x (by simp)
  refine ⟨framesOfLevel_length .., ?_, ?_⟩
  · intro t i py px hi hpy hpx
    have := v2_level_read h hz hE hV hd hr hfr hdec h3 hc (t := t) hi (by rw [hy]; exact hpy) (by rw [hx]; exact hpx)
    rw [hit, hx] at this
    rw [this]
    congr 1
    cases hg : (framesOfLevel cfg lv calls.flatten)[t * prod (sizesAt lv inner) + ravel (sizesAt lv inner) i]? with
    | none => rfl
    | some f =>
      dsimp only
      have hfl := h3.sizes lv c hc f (List.mem_of_getElem? hg)
      have hL := h.levelShape hz hd hc
      have hlen : f.length = levelSize false y.arraySize lv * levelSize false x.arraySize lv := by
        rw [hfl]
        unfold ArrayDims.frameBytes
        rw [hL.height, hL.width, level_item h.valid hL, hit, hy, hx, Nat.mul_one]
      unfold pixelOf
      rw [slice_eq_map (by
        rw [hlen]
        have := pixel_fits (item := 1) hpy hpx
        omega)]
      simp
  · intro hlv1 j f f0 f1 hj h0 h1' r c' hrr hcc
    have hw : cfg.dims.width.arraySize = x.arraySize := hD.width
    have hh : cfg.dims.height.arraySize = y.arraySize := hD.height
    have e1 : framesOfLevel cfg (lv + 1) calls.flatten = nextFrames cfg.dims.dtype (ceilDiv x.arraySize (2 ^ lv))
        (ceilDiv y.arraySize (2 ^ lv)) (framesOfLevel cfg lv calls.flatten) := by
      unfold framesOfLevel
      rw [levelFrames_succ, hw, hh]
    dsimp only at hj h0 h1'
    rw [e1, nextFrames_getElem?, h0, h1'] at hj
    dsimp only at hj
    cases hj
    have hdt : cfg.dims.dtype = .u8 := by
      obtain ⟨cfg', k1, k2⟩ := commit_dims hd
      rw [h.commit] at k1
      cases k1
      rw [k2]
      exact fromC_zero hu
    rw [hdt]
    have es : ∀ n : Nat, levelSize false n (lv + 1) = ceilDiv (ceilDiv n (2 ^ lv)) 2 := by
      intro n
      simp only [levelSize, Bool.false_eq_true, if_false]
      exact ceilDiv_pow_succ ..
    have es0 : ∀ n : Nat, levelSize false n lv = ceilDiv n (2 ^ lv) := fun n => rfl
    rw [es] at hrr hcc ⊢
    rw [es0, es0]
    exact average_u8 hrr hcc

/-- The scaling of the code on a 2 by 2 frame of 16-bit pixels. -/
theorem scale_u16 (b : Bytes) (hb : b.length = 8) : scaleImage .u16 b 2 2 =
    .ok ⟨[srcByte b 0 + srcByte b 1 + srcByte b 2 + srcByte b 3], 1, 1⟩ := by
  unfold scaleImage
  rw [hb]
  rfl

/-- **C20 is violated** for `uint16`: the local mean of four pixels of value 256, averaged over two equal frames, is
256, but the code stores 0 (it averages single bytes of the frame). -/
theorem local_mean_violated :
    let frame : Bytes := [0, 1, 0, 1, 0, 1, 0, 1]
    let px : Nat → Nat → Nat := fun r c => (frame.getD (2 * (r * 2 + c)) 0).toNat + 256 * (frame.getD (2 * (r * 2 + c) + 1) 0).toNat
    meanOfTwo px px 2 2 0 0 = 256 ∧
    ∃ sc, scaleImage .u16 frame 2 2 = .ok sc ∧ averageFrames .u16 sc.px sc.px = [0, 0] :=
  ⟨by decide, _, scale_u16 _ rfl, by decide⟩

end

/-- The sample with 8-bit pixels; frames of 35 bytes. -/
def Sample.settings8 : Settings := { Sample.settings with dataType := 0 }

def Sample.cfg8 : WConfig := { Sample.cfg with dims := { Sample.dims with dtype := .u8 } }

theorem Sample.setup8 : ∃ cfgs, Setup Sample.world 9 Sample.settings8 Sample.cfg8 cfgs ∧ cfgs.length = 3 :=
  ⟨_, ⟨rfl, rfl, rfl, rfl, by decide, fun _ => by decide⟩, rfl⟩

def Sample.calls8 : List (List Bytes) := Sample.calls.map fun c => c.map fun f => f.take 35

theorem Sample.calls8_sized : ∀ c ∈ Sample.calls8, ∀ f ∈ c, f.length = 35 := by
  intro c hc f hf
  obtain ⟨c', hc', rfl⟩ := List.mem_map.1 hc
  obtain ⟨f', hf', rfl⟩ := List.mem_map.1 hf
  rw [List.length_take, Sample.calls_sized c' hc' f' hf']
  rfl

theorem Sample.sizesInRange8 : SizesInRange Sample.settings8 := Sample.sizesInRange

/-- C20 and C21 on the sample: eleven frames; level 1 has five frames of 3 by 4 pixels, level 2 two of 2 by 2. -/
example : ∃ st ns tr, runStream Sample.world Sample.env 9 Sample.settings8 (Sample.calls8.map List.flatten) =
        some (.ok (st, ns, tr)) ∧ ∃ L : Nat → List Bytes, L 0 = Sample.calls8.flatten ∧ (L 1).length = 5 ∧
          (L 2).length = 2 ∧ levelSize false 5 2 = 2 := by
  obtain ⟨cfgs, h, hl⟩ := Sample.setup8
  obtain ⟨st, tr, h1, _, L, l0, l1⟩ := pyramid_local_mean_partial (calls := Sample.calls8) (decode := some) h
    Sample.sizesInRange8 Sample.storageOk rfl rfl
    (a := Sample.dimT) (inner := [Sample.dimC]) (y := Sample.dimY) (x := Sample.dimX) rfl Sample.storedAt Sample.fresh
    (by intro b; rfl) (by decide) Sample.calls8_sized
  exact ⟨st, _, tr, h1, L, l0, (l1 1 (by omega)).1, (l1 2 (by omega)).1, by decide⟩

/-- C19 on the sample: a 7 by 5 frame of level 0 scales to 4 by 3 pixels of 2 bytes, the frame size of level 1. -/
example : ∃ cfgs, Setup Sample.world 9 Sample.settings Sample.cfg cfgs ∧ ∃ c, cfgs[1]? = some c ∧ ∃ sf,
    scaleImage (DType.fromC 1) (Sample.frame 3) (levelSize false 7 0) (levelSize false 5 0) = .ok sf := by
  obtain ⟨cfgs, h, hl⟩ := Sample.setup
  refine ⟨cfgs, h, _, List.getElem?_eq_getElem (by omega), ?_⟩
  exact ⟨_, rfl⟩

end AZ
