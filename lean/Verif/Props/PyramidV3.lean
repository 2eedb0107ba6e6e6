import Verif.Props.Pyramid
import Verif.Props.ObjectsV3

set_option linter.unusedSimpArgs false

/-!
# C20 for Zarr V3: reading the levels of a pyramid

At level 0 the append dimension must have one chunk per shard (C04). Below level 0 the code always uses one append chunk
per shard (if the append dimension is unbounded and not a channel), so those levels read back for every configured shard size.
-/

namespace AZ
open Spec

section
variable {w : World} {env : Env} {fuel : Nat} {s : Settings} {cfg : WConfig} {cfgs : List WConfig}
  {a y x : DimProps} {inner : List DimProps} {root : Text} {calls : List (List Bytes)} {tr : List Ev}

/-- Every element of a level with one append chunk per shard reads back. -/
theorem v3_level_pixels (h : Setup w fuel s cfg cfgs) (h3 : cfg.dims.FitsV3) (hz : SizesInRange s) (hE : StorageOk env s)
    (ho : SmallOverhead env) (hV : s.version = 3)
    (hd : s.dimensions = some (a :: (inner ++ [y, x]))) (hr : StoredAt s root) (hfr : Fresh w s root)
    {decode : Bytes → Option Bytes} (hdec : Decodes env s decode) {frames : List Bytes}
    (hs : SessionV3 env cfg cfgs frames tr) {lv : Nat} {c : WConfig} (hc : cfgs[lv]? = some c) (hone : shardAt lv a = 1)
    {t : Nat} {i : List Nat} {py px : Nat} (hi : InBounds (sizesAt lv inner) i)
    (hpy : py < levelSize y.isChannel y.arraySize lv) (hpx : px < levelSize x.isChannel x.arraySize lv) :
    readV3 (fun p => fileInStore w cfg p tr) (levelDirV3 root lv) decode
      (chunksAt lv (a :: (inner ++ [y, x]))) (shardsAt lv (a :: (inner ++ [y, x]))) (itemSize s.dataType)
      (t :: (i ++ [py, px])) =
    some (match (framesOfLevel cfg lv frames)[t * prod (sizesAt lv inner) + ravel (sizesAt lv inner) i]? with
      | some f => pixelOf f (levelSize x.isChannel x.arraySize lv) (itemSize s.dataType) py px
      | none => List.replicate (itemSize s.dataType) 0) := by
  have hL := h.levelShape hz hd hc
  have hit := level_item h.valid hL
  have hD := dimsOf h.valid h.commit hd
  have hk : c.dims.append.shardSize = 1 := by rw [hL.shardSize, hone]
  have hread := v3_level_read h h3 hE ho hV hr hfr hdec hD.item hs hc (t := t) (i := i) (py := py) (px := px)
    (by rw [hL.innerSizes]; exact hi) (by rw [hL.height]; exact hpy) (by rw [hL.width]; exact hpx) (by
      rw [hk, Nat.div_one]
      generalize groups c (framesOfLevel cfg lv frames).length = n
      generalize t / c.dims.append.chunkSize = g
      omega)
  have hm : t / c.dims.append.chunkSize % c.dims.append.shardSize = 0 := by rw [hk]; exact Nat.mod_one _
  have hsh : shownT c (framesOfLevel cfg lv frames).length t = t := by
    unfold shownT layersIn
    rw [hk]
    have : ∀ n, min 1 n - 1 = 0 := by omega
    rw [this, Nat.add_zero, Nat.mul_comm]
    exact Nat.div_add_mod ..
  rw [if_pos hm, hsh, hL.chunks, hL.shards, hit, hL.innerSizes, hL.width] at hread
  exact hread

/-- **C20 for Zarr V3, partial.** Filesystem, `uint8` pixels: there are frame sequences `L 0, L 1, ..` with `L 0` the
appended frames, such that level `i` has `n / 2^i` frames, every pixel of frame `j` of level `i + 1` is the local mean of
frames `2j` and `2j + 1` of level `i`, and reading level `i` gives `L i` (zero beyond its frames) if it has one append
chunk per shard, which is the case for all levels below level 0 if the append dimension is unbounded and not a channel.
Missing: other pixel types (`local_mean_violated`), and level 0 with several append chunks per shard (C04). -/
theorem pyramid_local_mean_v3_partial (h : Setup w fuel s cfg cfgs) (h3 : cfg.dims.FitsV3) (hz : SizesInRange s)
    (hE : StorageOk env s) (ho : SmallOverhead env)
    (hV : s.version = 3) (hu : s.dataType = 0)
    (hd : s.dimensions = some (a :: (inner ++ [y, x]))) (hr : StoredAt s root) (hfr : Fresh w s root)
    {decode : Bytes → Option Bytes} (hdec : Decodes env s decode)
    (hn : calls.flatten.length < 2 ^ 32)
    (hf : ∀ c ∈ calls, ∀ f ∈ c, f.length = y.arraySize * x.arraySize) :
    ∃ st tr, runStream w env fuel s (calls.map List.flatten) =
        some (.ok (st, calls.map (fun c => c.flatten.length), tr)) ∧ st.error = [] ∧
    ∃ L : Nat → List Bytes, L 0 = calls.flatten ∧ ∀ lv, lv < cfgs.length →
      (L lv).length = calls.flatten.length / 2 ^ lv ∧
      (a.shardSize = 1 ∨ (0 < lv ∧ a.isChannel = false ∧ a.arraySize = 0) →
        ∀ (t : Nat) (i : List Nat) (py px : Nat), InBounds (sizesAt lv inner) i →
        py < levelSize false y.arraySize lv → px < levelSize false x.arraySize lv →
        readV3 (fun p => fileInStore w cfg p tr) (levelDirV3 root lv) decode
          (chunksAt lv (a :: (inner ++ [y, x]))) (shardsAt lv (a :: (inner ++ [y, x]))) 1 (t :: (i ++ [py, px])) =
        some [match (L lv)[t * prod (sizesAt lv inner) + ravel (sizesAt lv inner) i]? with
          | some f => f.getD (py * levelSize false x.arraySize lv + px) 0
          | none => 0]) ∧
      (lv + 1 < cfgs.length → ∀ j f f0 f1, (L (lv + 1))[j]? = some f → (L lv)[2 * j]? = some f0 →
        (L lv)[2 * j + 1]? = some f1 → ∀ r c, r < levelSize false y.arraySize (lv + 1) →
        c < levelSize false x.arraySize (lv + 1) →
        (f.getD (r * levelSize false x.arraySize (lv + 1) + c) 0).toNat =
          meanOfTwo (fun r c => (f0.getD (r * levelSize false x.arraySize lv + c) 0).toNat)
            (fun r c => (f1.getD (r * levelSize false x.arraySize lv + c) 0).toNat)
            (levelSize false x.arraySize lv) (levelSize false y.arraySize lv) r c) := by
  have hD := dimsOf h.valid h.commit hd
  have hit : itemSize s.dataType = 1 := by rw [hu]; rfl
  have hfb : cfg.dims.frameBytes = y.arraySize * x.arraySize := by rw [hD.frame, hit, Nat.mul_one]
  rw [← hfb] at hf
  obtain ⟨st, tr, h1, h2, hs⟩ := session_v3 h h3 hE ho hV hn hf
  refine ⟨st, tr, h1, h2, fun i => framesOfLevel cfg i calls.flatten, rfl, ?_⟩
  intro lv hlv
  have hc : cfgs[lv]? = some cfgs[lv] := List.getElem?_eq_getElem hlv
  generalize cfgs[lv] = c at hc
  obtain ⟨ds, hds, hda⟩ := (validateSettings_ok h.valid).dims
  rw [hd] at hds
  cases hds
  have hyx : ∀ d ∈ [y, x], d.isChannel = false := by
    intro d hdm
    have := hda.yx d (by
      rw [show (a :: (inner ++ [y, x])).length - 2 = (a :: inner).length by simp,
        show a :: (inner ++ [y, x]) = (a :: inner) ++ [y, x] by simp, List.drop_left]
      exact hdm)
    simp [DimProps.isChannel, this]
  have hy := hyx y (by simp)
  have hx := hyx x (by simp)
  have hL := h.levelShape hz hd hc
  refine ⟨framesOfLevel_length .., ?_, ?_⟩
  · intro hsh t i py px hi hpy hpx
    have hone : shardAt lv a = 1 := by
      have hkpos : 0 < shardAt lv a := by
        rw [← hL.shardSize]
        exact (h.levelFitsV3 h3 c (List.mem_of_getElem? hc)).pos c.dims.append (by simp [ArrayDims.toList])
      unfold shardAt levelShard at hkpos ⊢
      rcases hsh with e | ⟨e1, e2, h0⟩
      · rw [e] at hkpos ⊢
        split
        · rfl
        · split
          · rfl
          · rename_i h1 h2
            rw [if_neg h1, if_neg h2] at hkpos
            omega
      · rw [if_neg (by simp [e2]; omega), if_pos h0]
    have := v3_level_pixels h h3 hz hE ho hV hd hr hfr hdec hs hc hone (t := t) hi (by rw [hy]; exact hpy)
      (by rw [hx]; exact hpx)
    rw [hit, hx] at this
    rw [this]
    congr 1
    cases hg : (framesOfLevel cfg lv calls.flatten)[t * prod (sizesAt lv inner) + ravel (sizesAt lv inner) i]? with
    | none => rfl
    | some f =>
      dsimp only
      have hfl := hs.sizes lv c hc f (List.mem_of_getElem? hg)
      have hlen : f.length = levelSize false y.arraySize lv * levelSize false x.arraySize lv := by
        rw [hfl]
        unfold ArrayDims.frameBytes
        rw [hL.height, hL.width, level_item h.valid hL, hit, hy, hx, Nat.mul_one]
      unfold pixelOf
      rw [slice_eq_map (by
        rw [hlen]
        have := pixel_fits (item := 1) hpy hpx
        omega)]
      simp
  · intro hlv1 j f f0 f1 hj h0 h1' r c' hrr hcc
    have hw : cfg.dims.width.arraySize = x.arraySize := hD.width
    have hh : cfg.dims.height.arraySize = y.arraySize := hD.height
    have e1 : framesOfLevel cfg (lv + 1) calls.flatten = nextFrames cfg.dims.dtype (ceilDiv x.arraySize (2 ^ lv))
        (ceilDiv y.arraySize (2 ^ lv)) (framesOfLevel cfg lv calls.flatten) := by
      unfold framesOfLevel
      rw [levelFrames_succ, hw, hh]
    dsimp only at hj h0 h1'
    rw [e1, nextFrames_getElem?, h0, h1'] at hj
    dsimp only at hj
    cases hj
    have hdt : cfg.dims.dtype = .u8 := by
      obtain ⟨cfg', k1, k2⟩ := commit_dims hd
      rw [h.commit] at k1
      cases k1
      rw [k2]
      exact fromC_zero hu
    rw [hdt]
    have es : ∀ n : Nat, levelSize false n (lv + 1) = ceilDiv (ceilDiv n (2 ^ lv)) 2 := by
      intro n
      simp only [levelSize, Bool.false_eq_true, if_false]
      exact ceilDiv_pow_succ ..
    have es0 : ∀ n : Nat, levelSize false n lv = ceilDiv n (2 ^ lv) := fun n => rfl
    rw [es] at hrr hcc ⊢
    rw [es0, es0]
    exact average_u8 hrr hcc

end

/-- The sample pyramid in Zarr V3, with two append chunks per shard at level 0. -/
def Sample.settings83 : Settings := { Sample.settings8 with
  version := 3
  dimensions := Sample.settings8.dimensions.map fun ds => ds.map fun d => { d with shardSize := if d.arraySize = 0 then 2 else 1 } }

theorem Sample.setup83 : ∃ cfg cfgs, Setup Sample.world 9 Sample.settings83 cfg cfgs ∧ cfgs.length = 3 ∧ cfg.dims.FitsV3 :=
  ⟨_, _, ⟨rfl, rfl, rfl, rfl, by decide, fun _ => by decide⟩, rfl, by decide⟩

/-- Level 1 of the sample: five frames, which read back although level 0 has two append chunks per shard. -/
example : ∃ cfg st ns tr, runStream Sample.world Sample.env 9 Sample.settings83 (Sample.calls8.map List.flatten) =
        some (.ok (st, ns, tr)) ∧ ∃ L : Nat → List Bytes, L 0 = Sample.calls8.flatten ∧ (L 1).length = 5 ∧
          ∀ t, readV3 (fun p => fileInStore Sample.world cfg p tr) (levelDirV3 "/tmp/a.zarr".toList 1) some
            (chunksAt 1 (Sample.settings83.dimensions.getD [])) (shardsAt 1 (Sample.settings83.dimensions.getD [])) 1 [t, 0, 0, 0] =
            some [match (L 1)[t * prod (sizesAt 1 [Sample.dimC])]? with
              | some f => f.getD 0 0
              | none => 0] := by
  obtain ⟨cfg, cfgs, h, hl, h3⟩ := Sample.setup83
  obtain ⟨st, tr, h1, _, L, l0, l1⟩ := pyramid_local_mean_v3_partial (calls := Sample.calls8) (decode := some) h h3
    (by intro d hd; revert d; decide) Sample.storageOk Sample.overhead rfl rfl
    (a := { Sample.dimT with shardSize := 2 }) (inner := [{ Sample.dimC with shardSize := 1 }])
    (y := { Sample.dimY with shardSize := 1 }) (x := { Sample.dimX with shardSize := 1 }) rfl Sample.storedAt Sample.fresh
    (by intro b; rfl) (by decide) Sample.calls8_sized
  refine ⟨cfg, st, _, tr, h1, L, l0, (l1 1 (by omega)).1, ?_⟩
  intro t
  exact (l1 1 (by omega)).2.1 (.inr ⟨by decide, rfl, rfl⟩) t [0] 0 0 (by decide) (by decide) (by decide)

end AZ
