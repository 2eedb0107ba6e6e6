import Verif.Props.Written
import Verif.Props.S3Crash
import Verif.Props.S3Reader

set_option linter.unusedSimpArgs false

/-! # C100 on S3: what is in the bucket when append has returned -/

namespace AZ.S3
open Spec

section
variable {w : World} {env : Env} {fuel : Nat} {s : Settings} {cfg : WConfig} {cfgs : List WConfig}
  {a y x : DimProps} {inner : List DimProps} {root : Text} {calls : List (List Bytes)} {st0 st : SState} {ns : List Nat}

/-- **C100, Zarr V2 on S3, exactly.** An appended frame whose append chunk is full is in the bucket when append returns; no other
one is: its pixels are those that were in the bucket before (fill values in a new dataset). -/
theorem s3_v2_append_written_exact (h : Setup w fuel s cfg cfgs) (hz : SizesInRange s) (hr : InBucket s root)
    (hE : StorageOk env s) (hne : NonemptyOutput env s) (ho : SmallOverhead env) (hV : s.version = 2)
    (hd : s.dimensions = some (a :: (inner ++ [y, x]))) {decode : Bytes → Option Bytes} (hdec : Decodes env s decode)
    (hn : calls.flatten.length < 2 ^ 32)
    (hf : ∀ c ∈ calls, ∀ f ∈ c, f.length = y.arraySize * x.arraySize * itemSize s.dataType)
    {P : Nat} (hP : 0 < P)
    (hsz : prod ((a :: (inner ++ [y, x])).map (·.chunkSize)) * itemSize s.dataType + 16 ≤ P * (2 ^ 32 - 1))
    {srv : Text → Nat → Reply} (hsrv : ∀ p, Spec.Healthy (srv p)) {junk : Bytes} (hj : junk.length = P)
    {old : Text → Option Bytes} (hold : ∀ g l, old (levelDir root 0 ++ chunkKey (g :: l)) = none)
    (h0 : createStream w env fuel (some s) = some (.ok st0)) (h1 : appends env (calls.map List.flatten) st0 = .ok (st, ns))
    {t : Nat} {i : List Nat} {py px : Nat}
    (hi : InBounds (inner.map (·.arraySize)) i) (hpy : py < y.arraySize) (hpx : px < x.arraySize) {f : Bytes}
    (hframe : calls.flatten[t * prod (inner.map (·.arraySize)) + ravel (inner.map (·.arraySize)) i]? = some f) :
    readV2 (fun p => (bucketAfter P srv junk old st.trace p).object) (levelDir root 0) decode
        ((a :: (inner ++ [y, x])).map (·.chunkSize)) (itemSize s.dataType) (t :: (i ++ [py, px])) =
      some (if (t / a.chunkSize + 1) * framesPer a inner ≤ calls.flatten.length
        then pixelOf f x.arraySize (itemSize s.dataType) py px else List.replicate (itemSize s.dataType) 0) := by
  have hD := dimsOf h.valid h.commit hd
  obtain ⟨rest, hrest⟩ := levelConfigs_head h.levels
  have hc : cfgs[0]? = some cfg := by rw [hrest]; rfl
  have hib : InBounds ((inner ++ [y, x]).map (·.arraySize)) (i ++ [py, px]) := by
    rw [List.map_append, inBounds_append _ _ hi.length]
    exact ⟨hi, by simp [InBounds, hpy, hpx]⟩
  have hL := h.levelShape hz hd hc
  have hgb : InBounds (nShape cfg.dims.tailDims) (gridOf ((inner ++ [y, x]).map (·.chunkSize)) (i ++ [py, px])) := by
    rw [← zipWith_ceilDiv, hL.tail, hL.tailChunks, sizesAt_zero, chunksAt_zero]
    refine gridOf_inBounds ?_ (by simp) hib
    intro k hk
    rw [← chunksAt_zero, ← hL.tailChunks] at hk
    obtain ⟨e, he, rfl⟩ := List.mem_map.1 hk
    exact h.dimsValid.tail_chunk e he
  have hkey : gridOf ((a :: (inner ++ [y, x])).map (·.chunkSize)) (t :: (i ++ [py, px])) =
      (t / a.chunkSize) :: gridOf ((inner ++ [y, x]).map (·.chunkSize)) (i ++ [py, px]) := rfl
  have hop : levelDir root 0 ++ chunkKey (gridOf ((a :: (inner ++ [y, x])).map (·.chunkSize)) (t :: (i ++ [py, px]))) =
      chunkPath cfg (t / a.chunkSize)
        (ravel (nShape cfg.dims.tailDims) (gridOf ((inner ++ [y, x]).map (·.chunkSize)) (i ++ [py, px]))) := by
    rw [hkey, ← levelDir_located h hr.located hc, ← objectPath_key (h.versionV2 hV cfg (List.mem_of_getElem? hc))]
    unfold chunkPath
    rw [unravel_ravel hgb]
  have hcnt := ravel_lt hgb
  have hown : Owned cfg (levelDir root 0 ++ chunkKey (gridOf ((a :: (inner ++ [y, x])).map (·.chunkSize)) (t :: (i ++ [py, px])))) := by
    rw [hop]; exact .inr ⟨_, _, rfl⟩
  have hfpc : cfg.dims.framesPerChunk = framesPer a inner := hD.perChunk
  have hpos := ArrayDims.framesPerChunk_pos h.dimsValid h.fits
  obtain ⟨stz, tr, r1, _, _, r3⟩ := s3_v2_uploaded h hr hE hne ho hV hd hdec hn hf hP hsz hsrv hj old
  have hff := hf
  rw [← hD.frame] at hff
  have hev1 := reached_events_v2 h hE hV hn hff h0 h1 hc
  rw [framesOfLevel_zero] at hev1
  by_cases hg : (t / a.chunkSize + 1) * framesPer a inner ≤ calls.flatten.length
  · rw [if_pos hg]
    have := r3 hold t i py px hi hpy hpx
    rw [hframe] at this
    rw [← this]
    apply readV2_congr
    have hev := session_events_v2 h hE hV hn hff r1 hc
    rw [framesOfLevel_zero] at hev
    have hlt : t / a.chunkSize < calls.flatten.length / cfg.dims.framesPerChunk := by
      rw [Nat.lt_iff_add_one_le, Nat.le_div_iff_mul_le hpos, hfpc]; exact hg
    dsimp only [bucketAfter]
    refine congrArg Obj.object (objAfter_about ?_)
    rw [← about_owned hown st.trace, hev1, about_owned hown, ← about_owned hown tr, hev, hop,
      filter_events_chunk env _ hlt hcnt]
    refine ((filter_run_chunk env h.dimsValid h.fits.toRoom _ ?_ hcnt).trans ?_).symm
    rotate_left
    · rfl
    · unfold groups
      refine Nat.lt_of_lt_of_le hlt ?_
      unfold ceilDiv
      exact Nat.div_le_div_right (by omega)
  · rw [if_neg hg]
    have hnil : about (levelDir root 0 ++ chunkKey (gridOf ((a :: (inner ++ [y, x])).map (·.chunkSize)) (t :: (i ++ [py, px]))))
        st.trace = [] := by
      rw [← about_owned hown, hev1, about_owned hown, hop]
      apply filter_events_later env _ _ hcnt
      apply Nat.le_of_lt_succ
      rw [Nat.div_lt_iff_lt_mul hpos, hfpc]
      exact Nat.lt_of_not_le hg
    have hob : (bucketAfter P srv junk old st.trace
        (levelDir root 0 ++ chunkKey (gridOf ((a :: (inner ++ [y, x])).map (·.chunkSize)) (t :: (i ++ [py, px]))))).object = none := by
      unfold bucketAfter
      rw [objAfter_filter, hnil]
      exact hold _ _
    unfold readV2
    dsimp only
    rw [hob]

/-- Whether a shard is closed when append returns. -/
theorem shard_closed_iff (h : Setup w fuel s cfg cfgs) (hF3 : cfg.dims.FitsV3)
    (hE : StorageOk env s) (ho : SmallOverhead env) (hV : s.version = 3)
    (hd : s.dimensions = some (a :: (inner ++ [y, x]))) (hn : calls.flatten.length < 2 ^ 32)
    (hf : ∀ c ∈ calls, ∀ f ∈ c, f.length = y.arraySize * x.arraySize * itemSize s.dataType)
    (h0 : createStream w env fuel (some s) = some (.ok st0)) (h1 : appends env (calls.map List.flatten) st0 = .ok (st, ns))
    {G j : Nat} (hj : j < cfg.dims.shardCount) :
    Ev.finalized (shardPath cfg G j) ∈ st.trace ↔ (G + 1) * framesPerShard a inner ≤ calls.flatten.length := by
  have hD := dimsOf h.valid h.commit hd
  obtain ⟨hK, hka⟩ := shards_of h.commit hd
  rw [← hD.frame] at hf
  obtain ⟨rest, hrest⟩ := levelConfigs_head h.levels
  have hc : cfgs[0]? = some cfg := by rw [hrest]; rfl
  have hown : Owned cfg (shardPath cfg G j) := .inr ⟨_, _, rfl⟩
  have hk : 0 < cfg.dims.append.shardSize := hF3.pos cfg.dims.append (by simp [ArrayDims.toList])
  have hpos := ArrayDims.framesPerChunk_pos h.dimsValid h.fits
  have e := reached_events_v3 h hF3 hE ho hV hn hf h0 h1 hc hown.all
  have hw : ∀ l : List Ev, Ev.finalized (shardPath cfg G j) ∈ within (fun q => decide (q = shardPath cfg G j)) l ↔
      Ev.finalized (shardPath cfg G j) ∈ l := by
    intro l
    unfold within
    rw [List.mem_filter]
    simp [Ev.path]
  rw [← hw, e, hw, mem_range_flush_finalized hk hj, framesOfLevel_zero, Nat.le_div_iff_mul_le hpos, hka, hD.perChunk]
  unfold framesPerShard framesPer
  rw [Nat.mul_assoc, Nat.mul_comm a.shardSize]

/-- **C100, violated, Zarr V3 on S3.** Whatever the server answers: under the name of a shard that is not complete the bucket
holds what it held before the session. -/
theorem s3_v3_append_unwritten_violated (h : Setup w fuel s cfg cfgs) (hF3 : cfg.dims.FitsV3) (hz : SizesInRange s)
    (hr : InBucket s root) (hE : StorageOk env s) (ho : SmallOverhead env) (hV : s.version = 3)
    (hd : s.dimensions = some (a :: (inner ++ [y, x]))) (hn : calls.flatten.length < 2 ^ 32)
    (hf : ∀ c ∈ calls, ∀ f ∈ c, f.length = y.arraySize * x.arraySize * itemSize s.dataType)
    (h0 : createStream w env fuel (some s) = some (.ok st0)) (h1 : appends env (calls.map List.flatten) st0 = .ok (st, ns))
    (P : Nat) (srv : Text → Nat → Reply) (junk : Bytes) (old : Text → Option Bytes) {G : Nat} {l : List Nat}
    (hlb : InBounds (shardGrid (inner ++ [y, x])) l) (hG : calls.flatten.length < (G + 1) * framesPerShard a inner) :
    (bucketAfter P srv junk old st.trace (levelDirV3 root 0 ++ chunkKey (G :: l))).object =
      old (levelDirV3 root 0 ++ chunkKey (G :: l)) := by
  obtain ⟨rest, hrest⟩ := levelConfigs_head h.levels
  have hc : cfgs[0]? = some cfg := by rw [hrest]; rfl
  rw [← (grids_of h.commit hd).2.1] at hlb
  have hp : levelDirV3 root 0 ++ chunkKey (G :: l) = shardPath cfg G (ravel (mShape cfg.dims.tailDims) l) := by
    unfold shardPath
    rw [unravel_ravel hlb, objectPath_keyV3 (h.versionV3 hV cfg (List.mem_of_getElem? hc)), levelDirV3_located h hr.located hc]
  unfold bucketAfter
  rw [hp]
  apply objAfter_unclosed
  rw [shard_closed_iff h hF3 hE ho hV hd hn hf h0 h1 (ravel_lt hlb)]
  omega

/-- **C100 (partial), Zarr V3 on S3**, one append chunk per shard: if the frames appended so far fill their chunks, every one of
them is in the bucket when append returns. -/
theorem s3_v3_append_written_partial (h : Setup w fuel s cfg cfgs) (hF3 : cfg.dims.FitsV3) (hz : SizesInRange s)
    (hr : InBucket s root) (hE : StorageOk env s) (ho : SmallOverhead env) (hV : s.version = 3)
    (hd : s.dimensions = some (a :: (inner ++ [y, x]))) {decode : Bytes → Option Bytes} (hdec : Decodes env s decode)
    (hn : calls.flatten.length < 2 ^ 32)
    (hf : ∀ c ∈ calls, ∀ f ∈ c, f.length = y.arraySize * x.arraySize * itemSize s.dataType)
    {P : Nat} (hP : 0 < P) (hsz : ShardsFit s (a :: (inner ++ [y, x])) P)
    {srv : Text → Nat → Reply} (hsrv : ∀ p, Spec.Healthy (srv p)) {junk : Bytes} (hj : junk.length = P)
    {old : Text → Option Bytes} (hold : ∀ g l, old (levelDirV3 root 0 ++ chunkKey (g :: l)) = none) (hone : a.shardSize = 1)
    (h0 : createStream w env fuel (some s) = some (.ok st0)) (h1 : appends env (calls.map List.flatten) st0 = .ok (st, ns))
    (hfull : calls.flatten.length % framesPer a inner = 0)
    {t : Nat} {i : List Nat} {py px : Nat}
    (hi : InBounds (inner.map (·.arraySize)) i) (hpy : py < y.arraySize) (hpx : px < x.arraySize) {f : Bytes}
    (hframe : calls.flatten[t * prod (inner.map (·.arraySize)) + ravel (inner.map (·.arraySize)) i]? = some f) :
    readV3 (fun p => (bucketAfter P srv junk old st.trace p).object) (levelDirV3 root 0) decode
        ((a :: (inner ++ [y, x])).map (·.chunkSize)) ((a :: (inner ++ [y, x])).map (·.shardSize)) (itemSize s.dataType)
        (t :: (i ++ [py, px])) =
      some (pixelOf f x.arraySize (itemSize s.dataType) py px) := by
  have hD := dimsOf h.valid h.commit hd
  obtain ⟨hK, hka⟩ := shards_of h.commit hd
  obtain ⟨rest, hrest⟩ := levelConfigs_head h.levels
  have hc : cfgs[0]? = some cfg := by rw [hrest]; rfl
  have hfs : framesPerShard a inner = framesPer a inner := by unfold framesPerShard; rw [hone, Nat.mul_one]
  obtain ⟨stz, tr, r1, _, _, r3⟩ := s3_v3_uploaded_partial h hF3 hr hE ho hV hd hdec hn hf hP hsz hsrv hj old (by
    rw [hfs]; exact hfull)
  have := r3 hone hold t i py px hi hpy hpx
  rw [hframe] at this
  rw [← this]
  apply readV3_congr
  have hib : InBounds ((inner ++ [y, x]).map (·.arraySize)) (i ++ [py, px]) := by
    rw [List.map_append, inBounds_append _ _ hi.length]
    exact ⟨hi, by simp [InBounds, hpy, hpx]⟩
  have hgb := shard_bounds h hF3 hz hd hib
  have hL := h.levelShape hz hd hc
  rw [← hL.shardGrid] at hgb
  have hkey : gridOf ((a :: (inner ++ [y, x])).map (·.shardSize))
      (gridOf ((a :: (inner ++ [y, x])).map (·.chunkSize)) (t :: (i ++ [py, px]))) =
      (t / a.chunkSize / a.shardSize) :: gridOf ((inner ++ [y, x]).map (·.shardSize))
        (gridOf ((inner ++ [y, x]).map (·.chunkSize)) (i ++ [py, px])) := rfl
  rw [hone, Nat.div_one] at hkey
  rw [hkey]
  generalize gridOf ((inner ++ [y, x]).map (·.shardSize)) (gridOf ((inner ++ [y, x]).map (·.chunkSize)) (i ++ [py, px])) = l
    at hgb
  have hp : levelDirV3 root 0 ++ chunkKey (t / a.chunkSize :: l) =
      shardPath cfg (t / a.chunkSize) (ravel (mShape cfg.dims.tailDims) l) := by
    unfold shardPath
    rw [unravel_ravel hgb, objectPath_keyV3 (h.versionV3 hV cfg (List.mem_of_getElem? hc)), levelDirV3_located h hr.located hc]
  have hg : (t / a.chunkSize + 1) * framesPer a inner ≤ calls.flatten.length := by
    have hk := (List.getElem?_eq_some_iff.1 hframe).1
    exact full_group hfull hk
  have hfin := (shard_closed_iff (G := t / a.chunkSize) h hF3 hE ho hV hd hn hf h0 h1 (ravel_lt hgb)).2 (by rw [hfs]; exact hg)
  have hff := hf
  rw [← hD.frame] at hff
  obtain ⟨stz', tr', r1', _, hs⟩ := session_v3 h hF3 hE ho hV hn hff
  rw [r1] at r1'
  simp only [Option.some.injEq, Res.ok.injEq, Prod.mk.injEq] at r1'
  obtain ⟨_, _, rfl⟩ := r1'
  have hown : Owned cfg (shardPath cfg (t / a.chunkSize) (ravel (mShape cfg.dims.tailDims) l)) := .inr ⟨_, _, rfl⟩
  have hab := hs.level 0 cfg hc _ hown
  have hpre : st.trace <+: tr := reached_prefix (calls1 := calls) (calls2 := []) h hff (by simp) h0 h1 (by
    rw [List.append_nil]; exact r1)
  have hk : 0 < cfg.dims.append.shardSize := hF3.pos cfg.dims.append (by simp [ArrayDims.toList])
  have hpos := ArrayDims.framesPerChunk_pos h.dimsValid h.fits
  have hsi := shard_image (env := env) hk (ravel_lt hgb) (S := (framesOfLevel cfg 0 calls.flatten).flatten)
    (n := (framesOfLevel cfg 0 calls.flatten).length) (G := t / a.chunkSize) (by
      rw [framesOfLevel_zero, Nat.le_div_iff_mul_le hpos, hka, hone, Nat.mul_one, hD.perChunk]; exact hg)
    (t := st.trace) (by rw [← hab]; exact hpre.filter _) hfin
  rw [hp]
  dsimp only [bucketAfter]
  exact congrArg Obj.object (objAfter_about (hsi.1.trans hab.symm))

end

/-! ### Instances -/

/-- Three frames, two to a chunk: when append returns frame 1 is in the bucket and frame 2 is not. -/
example {srv : Text → Nat → Reply} (hsrv : ∀ p, Spec.Healthy (srv p)) {junk : Bytes} (hj : junk.length = 5 * 2 ^ 20) :
    ∃ st ns tr, runStream Sample.world Sample.env 9 (Sample.slabS3 2 2 1) [[5, 6], [7]] = some (.ok (st, ns, tr)) ∧
    readV2 (fun p => (bucketAfter (5 * 2 ^ 20) srv junk (fun _ => none) st.trace p).object) "a/0/".toList some
      [2, 1, 1] 1 [1, 0, 0] = some [6] ∧
    readV2 (fun p => (bucketAfter (5 * 2 ^ 20) srv junk (fun _ => none) st.trace p).object) "a/0/".toList some
      [2, 1, 1] 1 [2, 0, 0] = some [0] := by
  have hsized : ∀ c ∈ [[[5], [6]], [[7]]], ∀ f ∈ c, (f : Bytes).length = 1 * 1 * itemSize 0 := by decide
  obtain ⟨st, tr, r1, _⟩ := s3_v2_uploaded (calls := [[[5], [6]], [[7]]]) (decode := some)
    Sample.slabS3Setup2 (Sample.slabS3Bucket 2 2 1) Sample.storageOk Sample.nonempty Sample.overhead rfl (inner := []) rfl
    (fun _ => rfl) (by decide) hsized (P := 5 * 2 ^ 20) (by decide) (by decide) hsrv hj (fun _ => none)
  obtain ⟨st0, h0, h01⟩ := runStream_parts r1
  refine ⟨st, _, tr, r1, ?_, ?_⟩
  · exact s3_v2_append_written_exact (calls := [[[5], [6]], [[7]]]) (decode := some)
      Sample.slabS3Setup2 (by unfold SizesInRange; decide) (Sample.slabS3Bucket 2 2 1) Sample.storageOk Sample.nonempty Sample.overhead rfl
      (inner := []) rfl (fun _ => rfl) (by decide) hsized (P := 5 * 2 ^ 20) (by decide) (by decide) hsrv hj
      (old := fun _ => none) (fun _ _ => rfl) h0 h01 (t := 1) (i := []) (py := 0) (px := 0) trivial (by decide) (by decide)
      (f := [6]) rfl
  · exact s3_v2_append_written_exact (calls := [[[5], [6]], [[7]]]) (decode := some)
      Sample.slabS3Setup2 (by unfold SizesInRange; decide) (Sample.slabS3Bucket 2 2 1) Sample.storageOk Sample.nonempty Sample.overhead rfl
      (inner := []) rfl (fun _ => rfl) (by decide) hsized (P := 5 * 2 ^ 20) (by decide) (by decide) hsrv hj
      (old := fun _ => none) (fun _ _ => rfl) h0 h01 (t := 2) (i := []) (py := 0) (px := 0) trivial (by decide) (by decide)
      (f := [7]) rfl

/-- Version 3: two frames are there, the third is not. -/
example {srv : Text → Nat → Reply} (hsrv : ∀ p, Spec.Healthy (srv p)) {junk : Bytes} (hj : junk.length = 5 * 2 ^ 20) :
    (∃ st ns tr, runStream Sample.world Sample.env 9 (Sample.slabS3 3 2 1) [[5, 6]] = some (.ok (st, ns, tr)) ∧
      readV3 (fun p => (bucketAfter (5 * 2 ^ 20) srv junk (fun _ => none) st.trace p).object) "a/data/root/0/c".toList some
        [2, 1, 1] [1, 1, 1] 1 [1, 0, 0] = some [6]) ∧
    ∃ st ns tr, runStream Sample.world Sample.env 9 (Sample.slabS3 3 2 1) [[5, 6], [7]] = some (.ok (st, ns, tr)) ∧
      (bucketAfter (5 * 2 ^ 20) srv junk (fun _ => none) st.trace "a/data/root/0/c1/0/0".toList).object = none := by
  constructor
  · have hsized : ∀ c ∈ [[[5], [6]]], ∀ f ∈ c, (f : Bytes).length = 1 * 1 * itemSize 0 := by decide
    obtain ⟨st, tr, r1, _⟩ := s3_v3_exact (calls := [[[5], [6]]])
      (Sample.slabS3Setup 2 1 (.inr rfl) (.inl rfl)) (by decide) (Sample.slabS3Bucket 3 2 1) Sample.storageOk Sample.overhead rfl
      (inner := []) rfl (by decide) hsized (P := 5 * 2 ^ 20) (by decide) (by unfold ShardsFit; decide) hsrv hj (fun _ => none)
    obtain ⟨st0, h0, h01⟩ := runStream_parts r1
    exact ⟨st, _, tr, r1, s3_v3_append_written_partial (calls := [[[5], [6]]]) (decode := some)
      (Sample.slabS3Setup 2 1 (.inr rfl) (.inl rfl)) (by decide) (by unfold SizesInRange; decide) (Sample.slabS3Bucket 3 2 1) Sample.storageOk
      Sample.overhead rfl (inner := []) rfl (fun _ => rfl) (by decide) hsized (P := 5 * 2 ^ 20) (by decide)
      (by unfold ShardsFit; decide) hsrv hj (old := fun _ => none) (fun _ _ => rfl) rfl h0 h01 (by decide)
      (t := 1) (i := []) (py := 0) (px := 0) trivial (by decide) (by decide) (f := [6]) rfl⟩
  · have hsized : ∀ c ∈ [[[5], [6]], [[7]]], ∀ f ∈ c, (f : Bytes).length = 1 * 1 * itemSize 0 := by decide
    obtain ⟨st, tr, r1, _⟩ := s3_v3_exact (calls := [[[5], [6]], [[7]]])
      (Sample.slabS3Setup 2 1 (.inr rfl) (.inl rfl)) (by decide) (Sample.slabS3Bucket 3 2 1) Sample.storageOk Sample.overhead rfl
      (inner := []) rfl (by decide) hsized (P := 5 * 2 ^ 20) (by decide) (by unfold ShardsFit; decide) hsrv hj (fun _ => none)
    obtain ⟨st0, h0, h01⟩ := runStream_parts r1
    exact ⟨st, _, tr, r1, s3_v3_append_unwritten_violated (calls := [[[5], [6]], [[7]]])
      (Sample.slabS3Setup 2 1 (.inr rfl) (.inl rfl)) (by decide) (by unfold SizesInRange; decide) (Sample.slabS3Bucket 3 2 1) Sample.storageOk
      Sample.overhead rfl (inner := []) rfl (by decide) hsized h0 h01 _ srv junk (fun _ => none) (G := 1) (l := [0, 0])
      (by decide) (by decide)⟩

end AZ.S3
