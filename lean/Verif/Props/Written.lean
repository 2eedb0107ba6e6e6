import Verif.Props.Crash
import Verif.Props.ReadBackV3
import Verif.Lemmas.Buffered

set_option linter.unusedSimpArgs false

/-! # C100: "It will return when all data has been written" (`include/acquire.zarr.h:96-97`)

What the file system holds when an append call has returned: the frames of complete append chunks (version 2) or complete
append shards (version 3), and nothing else. -/

namespace AZ
open Spec

section
variable {w : World} {env : Env} {fuel : Nat} {s : Settings} {cfg : WConfig} {cfgs : List WConfig}
  {a y x : DimProps} {inner : List DimProps} {root : Text} {calls : List (List Bytes)} {st0 st : SState} {ns : List Nat}

/-- What the operating system holds, file by file, if the process stops after the history `tr`. -/
def OnDisk (tr : List Ev) (d : Text → Option Bytes) : Prop := ∀ p, TornImage p tr (d p)

theorem sizesAt_zero (ds : List DimProps) : sizesAt 0 ds = ds.map (·.arraySize) := by
  unfold sizesAt levelSize
  apply List.map_congr_left
  intro d _
  split
  · rfl
  · rw [Nat.pow_zero]; unfold ceilDiv; omega

theorem chunksAt_zero (ds : List DimProps) : chunksAt 0 ds = ds.map (·.chunkSize) := by
  unfold chunksAt levelChunk
  simp

theorem shardsAt_zero (ds : List DimProps) : shardsAt 0 ds = ds.map (·.shardSize) := by
  unfold shardsAt levelShard
  simp

theorem quiet_none {p : Text} {tr : List Ev} (h : about p tr = []) {c : Option Bytes} (hc : TornImage p tr c) : c = none := by
  have hd : disk p tr = ⟨none, []⟩ := by
    unfold disk
    apply foldl_other
    intro e he hp
    have : e ∈ about p tr := List.mem_filter.2 ⟨he, by simpa using hp⟩
    rw [h] at this
    simp at this
  obtain ⟨k, j, rfl⟩ := hc
  rw [hd]
  rfl

theorem filter_events_later (env : Env) {c : WConfig} (S : Bytes) {k g j : Nat} (hg : k ≤ g) (hj : j < c.dims.chunkCount) :
    about (chunkPath c g j) (eventsV2 env c S k) = [] := by
  unfold about eventsV2
  apply filter_flatMap_none
  intro g' hg'
  rw [List.filter_append, filter_data_none]
  · unfold chunkPath
    rw [filter_meta_chunk]; rfl
  · intro c' hc' he
    have := (chunkPath_inj hc' hj he).1
    omega

/-- **C100, Zarr V2, exactly**: what is on disk of an appended frame when append has returned. -/
theorem v2_append_written_exact (h : Setup w fuel s cfg cfgs) (hz : SizesInRange s) (hE : StorageOk env s)
    (hV : s.version = 2) (hd : s.dimensions = some (a :: (inner ++ [y, x]))) (hl : StoredAt s root) (hfr : Fresh w s root)
    {decode : Bytes → Option Bytes} (hdec : Decodes env s decode) (hn : calls.flatten.length < 2 ^ 32)
    (hf : ∀ c ∈ calls, ∀ f ∈ c, f.length = y.arraySize * x.arraySize * itemSize s.dataType)
    (h0 : createStream w env fuel (some s) = some (.ok st0)) (h1 : appends env (calls.map List.flatten) st0 = .ok (st, ns))
    {d : Text → Option Bytes} (hdisk : OnDisk st.trace d) {t : Nat} {i : List Nat} {py px : Nat}
    (hi : InBounds (inner.map (·.arraySize)) i) (hpy : py < y.arraySize) (hpx : px < x.arraySize) {f : Bytes}
    (hframe : calls.flatten[t * prod (inner.map (·.arraySize)) + ravel (inner.map (·.arraySize)) i]? = some f) :
    readV2 d (levelDir root 0) decode ((a :: (inner ++ [y, x])).map (·.chunkSize)) (itemSize s.dataType)
        (t :: (i ++ [py, px])) =
      some (if (t / a.chunkSize + 1) * framesPer a inner ≤ calls.flatten.length
        then pixelOf f x.arraySize (itemSize s.dataType) py px else List.replicate (itemSize s.dataType) 0) := by
  have hD := dimsOf h.valid h.commit hd
  obtain ⟨rest, hrest⟩ := levelConfigs_head h.levels
  have hc : cfgs[0]? = some cfg := by rw [hrest]; rfl
  have hlen : 0 < cfgs.length := by rw [hrest]; simp
  have hib : InBounds ((inner ++ [y, x]).map (·.arraySize)) (i ++ [py, px]) := by
    rw [List.map_append, inBounds_append _ _ hi.length]
    exact ⟨hi, by simp [InBounds, hpy, hpx]⟩
  have hgb : InBounds (List.zipWith ceilDiv (sizesAt 0 (inner ++ [y, x])) (chunksAt 0 (inner ++ [y, x])))
      (gridOf ((inner ++ [y, x]).map (·.chunkSize)) (i ++ [py, px])) := by
    rw [sizesAt_zero, chunksAt_zero]
    refine gridOf_inBounds ?_ (by simp) hib
    intro k hk
    have hL := h.levelShape hz hd hc
    rw [← chunksAt_zero, ← hL.tailChunks] at hk
    obtain ⟨e, he, rfl⟩ := List.mem_map.1 hk
    exact h.dimsValid.tail_chunk e he
  have hkey : gridOf ((a :: (inner ++ [y, x])).map (·.chunkSize)) (t :: (i ++ [py, px])) =
      (t / a.chunkSize) :: gridOf ((inner ++ [y, x]).map (·.chunkSize)) (i ++ [py, px]) := rfl
  have hfp : levelChunk a.isChannel a.arraySize a.chunkSize 0 * prod (sizesAt 0 inner) = framesPer a inner := by
    rw [sizesAt_zero]; unfold framesPer levelChunk; simp
  by_cases hg : (t / a.chunkSize + 1) * framesPer a inner ≤ calls.flatten.length
  · rw [if_pos hg]
    obtain ⟨stz, tr, r1, _, r3⟩ := v2_read h hE hV hd hl hfr hdec hn hf
    have hcc := v2_completed_chunks (calls1 := calls) (calls2 := []) h hz hE hV hd hl hfr (by simpa using hn)
      (by simpa using hf) h0 h1 (by rw [List.append_nil]; exact r1)
    obtain ⟨_, final, e2, e3⟩ := hcc.2 0 (t / a.chunkSize) _ hlen (by rw [hfp]; simpa using hg) hgb
    have hdp := e3 st.trace st.trace tr (fun _ => rfl) (fun _ => rfl) (List.prefix_refl _) hcc.1 _ (hdisk _)
    have := r3 t i py px hi hpy hpx
    rw [hframe] at this
    rw [← this]
    unfold readV2
    have e2' : (fun p => fileInStore w cfg p tr) (levelDir root 0 ++ chunkKey ((t / a.chunkSize) ::
        gridOf ((inner ++ [y, x]).map (·.chunkSize)) (i ++ [py, px]))) = some final := e2
    rw [hkey, hdp, e2']
  · rw [if_neg hg]
    have hn' : about (levelDir root 0 ++ chunkKey ((t / a.chunkSize) ::
        gridOf ((inner ++ [y, x]).map (·.chunkSize)) (i ++ [py, px]))) st.trace = [] := by
      rw [hD.frame.symm] at hf
      have hev := reached_events_v2 h hE hV hn hf h0 h1 hc
      have hL := h.levelShape hz hd hc
      rw [← hL.tail, ← hL.tailChunks, zipWith_ceilDiv] at hgb
      generalize gridOf ((inner ++ [y, x]).map (·.chunkSize)) (i ++ [py, px]) = l at hgb ⊢
      have hop : levelDir root 0 ++ chunkKey (t / a.chunkSize :: l) =
          chunkPath cfg (t / a.chunkSize) (ravel (nShape cfg.dims.tailDims) l) := by
        rw [← levelDir_eq h hl hc, ← objectPath_key (h.versionV2 hV cfg (List.mem_of_getElem? hc))]
        unfold chunkPath
        rw [unravel_ravel hgb]
      have hown : Owned cfg (levelDir root 0 ++ chunkKey (t / a.chunkSize :: l)) := by rw [hop]; exact .inr ⟨_, _, rfl⟩
      have hfpc : cfg.dims.framesPerChunk = framesPer a inner := by
        rw [← hfp]
        unfold ArrayDims.framesPerChunk
        rw [hL.append, hL.innerSizes]
      have hpos := ArrayDims.framesPerChunk_pos h.dimsValid h.fits
      rw [← about_owned hown, hev, about_owned hown, hop]
      apply filter_events_later env _ _ (ravel_lt hgb)
      rw [framesOfLevel_zero]
      apply Nat.le_of_lt_succ
      rw [Nat.div_lt_iff_lt_mul hpos, hfpc]
      exact Nat.lt_of_not_le hg
    unfold readV2
    rw [hkey, quiet_none hn' (hdisk _)]

theorem full_group {n t r : Nat} (hfull : n % framesPer a inner = 0)
    (hk : t * prod (inner.map (·.arraySize)) + r < n) : (t / a.chunkSize + 1) * framesPer a inner ≤ n := by
  obtain ⟨m, hm⟩ := Nat.dvd_of_mod_eq_zero hfull
  rw [hm] at hk ⊢
  rw [Nat.mul_comm (framesPer a inner)] at hk ⊢
  apply Nat.mul_le_mul_right
  have ht : t < m * a.chunkSize := by
    apply Nat.lt_of_mul_lt_mul_right (a := prod (inner.map (·.arraySize)))
    refine Nat.lt_of_le_of_lt (Nat.le_add_right _ _) (Nat.lt_of_lt_of_le hk (Nat.le_of_eq ?_))
    unfold framesPer
    rw [Nat.mul_assoc]
  exact Nat.div_lt_of_lt_mul (by rw [Nat.mul_comm]; exact ht)

/-- **C100 (partial), Zarr V2.** If the frames appended so far fill their append chunks, every pixel of every one of them is
on disk when append returns, whatever happens to the process afterwards. -/
theorem v2_append_written_partial (h : Setup w fuel s cfg cfgs) (hz : SizesInRange s) (hE : StorageOk env s)
    (hV : s.version = 2) (hd : s.dimensions = some (a :: (inner ++ [y, x]))) (hl : StoredAt s root) (hfr : Fresh w s root)
    {decode : Bytes → Option Bytes} (hdec : Decodes env s decode) (hn : calls.flatten.length < 2 ^ 32)
    (hf : ∀ c ∈ calls, ∀ f ∈ c, f.length = y.arraySize * x.arraySize * itemSize s.dataType)
    (h0 : createStream w env fuel (some s) = some (.ok st0)) (h1 : appends env (calls.map List.flatten) st0 = .ok (st, ns))
    (hfull : calls.flatten.length % framesPer a inner = 0)
    {d : Text → Option Bytes} (hdisk : OnDisk st.trace d) {t : Nat} {i : List Nat} {py px : Nat}
    (hi : InBounds (inner.map (·.arraySize)) i) (hpy : py < y.arraySize) (hpx : px < x.arraySize) {f : Bytes}
    (hframe : calls.flatten[t * prod (inner.map (·.arraySize)) + ravel (inner.map (·.arraySize)) i]? = some f) :
    readV2 d (levelDir root 0) decode ((a :: (inner ++ [y, x])).map (·.chunkSize)) (itemSize s.dataType)
        (t :: (i ++ [py, px])) = some (pixelOf f x.arraySize (itemSize s.dataType) py px) := by
  rw [v2_append_written_exact h hz hE hV hd hl hfr hdec hn hf h0 h1 hdisk hi hpy hpx hframe, if_pos]
  have hk := (List.getElem?_eq_some_iff.1 hframe).1
  exact full_group hfull hk

theorem late_group {n t r cs P : Nat} (hcs : 0 < cs) (hr : r < P) (h : n / (cs * P) * (cs * P) ≤ t * P + r) :
    ¬ (t / cs + 1) * (cs * P) ≤ n := by
  have hP : 0 < P := by omega
  have h1 : n / (cs * P) * cs * P < (t + 1) * P := by
    rw [Nat.mul_assoc, Nat.succ_mul]; omega
  have h2 : n / (cs * P) * cs < t + 1 := Nat.lt_of_mul_lt_mul_right h1
  have h3 : n / (cs * P) ≤ t / cs := (Nat.le_div_iff_mul_le hcs).2 (by omega)
  have h4 : n < (n / (cs * P) + 1) * (cs * P) := by
    rw [Nat.mul_comm]; exact Nat.lt_mul_div_succ n (Nat.mul_pos hcs hP)
  have h5 := Nat.mul_le_mul_right (cs * P) (Nat.succ_le_succ h3)
  simp only [Nat.succ_eq_add_one] at h5
  omega

/-- **C100, violated, Zarr V2.** The frames of an append chunk that is not full are not on disk when append returns: all
their pixels read as the fill value, whatever they are. -/
theorem v2_append_unwritten_violated (h : Setup w fuel s cfg cfgs) (hz : SizesInRange s) (hE : StorageOk env s)
    (hV : s.version = 2) (hd : s.dimensions = some (a :: (inner ++ [y, x]))) (hl : StoredAt s root) (hfr : Fresh w s root)
    {decode : Bytes → Option Bytes} (hdec : Decodes env s decode) (hn : calls.flatten.length < 2 ^ 32)
    (hf : ∀ c ∈ calls, ∀ f ∈ c, f.length = y.arraySize * x.arraySize * itemSize s.dataType)
    (h0 : createStream w env fuel (some s) = some (.ok st0)) (h1 : appends env (calls.map List.flatten) st0 = .ok (st, ns))
    {d : Text → Option Bytes} (hdisk : OnDisk st.trace d) {t : Nat} {i : List Nat} {py px : Nat}
    (hi : InBounds (inner.map (·.arraySize)) i) (hpy : py < y.arraySize) (hpx : px < x.arraySize) {k : Nat}
    (hk : k = t * prod (inner.map (·.arraySize)) + ravel (inner.map (·.arraySize)) i) (hkn : k < calls.flatten.length)
    (hlast : calls.flatten.length / framesPer a inner * framesPer a inner ≤ k) :
    readV2 d (levelDir root 0) decode ((a :: (inner ++ [y, x])).map (·.chunkSize)) (itemSize s.dataType)
        (t :: (i ++ [py, px])) = some (List.replicate (itemSize s.dataType) 0) := by
  subst hk
  rw [v2_append_written_exact h hz hE hV hd hl hfr hdec hn hf h0 h1 hdisk hi hpy hpx (List.getElem?_eq_getElem hkn), if_neg]
  have hr := ravel_lt hi
  have hD := dimsOf h.valid h.commit hd
  have hpos := ArrayDims.framesPerChunk_pos h.dimsValid h.fits
  rw [hD.perChunk] at hpos
  exact late_group (Nat.pos_of_ne_zero fun e => by rw [e, Nat.zero_mul] at hpos; omega) hr hlast

theorem not_dropped (env : Env) {c : WConfig} (S : Bytes) (k : Nat) (p : Text) : Ev.dropped p ∉ eventsV3 env c S k := by
  intro h
  obtain ⟨g, _, h⟩ := List.mem_flatMap.1 h
  unfold flushEventsV3 at h
  simp only [List.mem_append] at h
  rcases h with ((h | h) | h) | h
  · split at h <;> simp at h
  · unfold layerWrites at h
    obtain ⟨i, _, h⟩ := List.mem_flatMap.1 h
    rcases List.mem_append.1 h with h | h
    · have : ∀ (l : List (Nat × Bytes)) (o : Nat) (p' : Text), Ev.dropped p ∉ writesAt p' o l := by
        intro l
        induction l with
        | nil => intro o p' h; cases h
        | cons x xs ih =>
          intro o p' h
          rcases List.mem_cons.1 h with h | h
          · cases h
          · exact ih _ _ h
      exact this _ _ _ h
    · split at h <;> simp at h
  · split at h <;> simp at h
  · split at h
    · unfold metaEvents at h
      split at h <;> simp at h
    · simp at h

/-- The shard of a coordinate of the first level. -/
theorem shard_bounds (h : Setup w fuel s cfg cfgs) (hF3 : cfg.dims.FitsV3) (hz : SizesInRange s)
    (hd : s.dimensions = some (a :: (inner ++ [y, x]))) {z : List Nat}
    (hib : InBounds ((inner ++ [y, x]).map (·.arraySize)) z) :
    InBounds (shardGridAt 0 (inner ++ [y, x])) (gridOf ((inner ++ [y, x]).map (·.shardSize))
      (gridOf ((inner ++ [y, x]).map (·.chunkSize)) z)) := by
  obtain ⟨rest, hrest⟩ := levelConfigs_head h.levels
  have hc : cfgs[0]? = some cfg := by rw [hrest]; rfl
  have hL := h.levelShape hz hd hc
  unfold shardGridAt
  rw [sizesAt_zero, chunksAt_zero, shardsAt_zero]
  refine gridOf_inBounds ?_ (by simp) (gridOf_inBounds ?_ (by simp) hib)
  · intro k hk
    rw [← shardsAt_zero, ← hL.shardSplit.2] at hk
    obtain ⟨e, he, rfl⟩ := List.mem_map.1 hk
    exact hF3.pos e (by simp only [ArrayDims.toList]; exact List.mem_cons_of_mem _ he)
  · intro k hk
    rw [← chunksAt_zero, ← hL.tailChunks] at hk
    obtain ⟨e, he, rfl⟩ := List.mem_map.1 hk
    exact h.dimsValid.tail_chunk e he

/-- **C100 (partial), Zarr V3** with one append chunk per shard: the frames of complete chunks. -/
theorem v3_append_written_partial (h : Setup w fuel s cfg cfgs) (hF3 : cfg.dims.FitsV3) (hz : SizesInRange s)
    (hE : StorageOk env s) (ho : SmallOverhead env)
    (hV : s.version = 3) (hd : s.dimensions = some (a :: (inner ++ [y, x]))) (hl : StoredAt s root) (hfr : Fresh w s root)
    {decode : Bytes → Option Bytes} (hdec : Decodes env s decode) (hn : calls.flatten.length < 2 ^ 32)
    (hf : ∀ c ∈ calls, ∀ f ∈ c, f.length = y.arraySize * x.arraySize * itemSize s.dataType) (hone : a.shardSize = 1)
    (h0 : createStream w env fuel (some s) = some (.ok st0)) (h1 : appends env (calls.map List.flatten) st0 = .ok (st, ns))
    {d : Text → Option Bytes} (hdisk : OnDisk st.trace d) {t : Nat} {i : List Nat} {py px : Nat}
    (hi : InBounds (inner.map (·.arraySize)) i) (hpy : py < y.arraySize) (hpx : px < x.arraySize) {f : Bytes}
    (hframe : calls.flatten[t * prod (inner.map (·.arraySize)) + ravel (inner.map (·.arraySize)) i]? = some f)
    (hg : (t / a.chunkSize + 1) * framesPer a inner ≤ calls.flatten.length) :
    readV3 d (levelDirV3 root 0) decode ((a :: (inner ++ [y, x])).map (·.chunkSize))
        ((a :: (inner ++ [y, x])).map (·.shardSize)) (itemSize s.dataType) (t :: (i ++ [py, px])) =
      some (pixelOf f x.arraySize (itemSize s.dataType) py px) := by
  obtain ⟨rest, hrest⟩ := levelConfigs_head h.levels
  have hlen : 0 < cfgs.length := by rw [hrest]; simp
  have hib : InBounds ((inner ++ [y, x]).map (·.arraySize)) (i ++ [py, px]) := by
    rw [List.map_append, inBounds_append _ _ hi.length]
    exact ⟨hi, by simp [InBounds, hpy, hpx]⟩
  have hgb := shard_bounds h hF3 hz hd hib
  have hkey : gridOf ((a :: (inner ++ [y, x])).map (·.shardSize))
      (gridOf ((a :: (inner ++ [y, x])).map (·.chunkSize)) (t :: (i ++ [py, px]))) =
      (t / a.chunkSize / a.shardSize) :: gridOf ((inner ++ [y, x]).map (·.shardSize))
        (gridOf ((inner ++ [y, x]).map (·.chunkSize)) (i ++ [py, px])) := rfl
  rw [hone, Nat.div_one] at hkey
  have hfp : levelChunk a.isChannel a.arraySize a.chunkSize 0 * prod (sizesAt 0 inner) *
      levelShard a.isChannel a.arraySize a.chunkSize a.shardSize 0 = framesPer a inner := by
    rw [sizesAt_zero]; unfold framesPer levelChunk levelShard; simp [hone]
  obtain ⟨stz, tr, r1, _, r3⟩ := v3_pixels_read_back_partial h hF3 hE ho hV hd hl hfr hdec hn hf hone
  have hcc := v3_completed_shards_partial (calls1 := calls) (calls2 := []) h hF3 hz hE ho hV hd hl hfr (by simpa using hn)
    (by simpa using hf) h0 h1 (by rw [List.append_nil]; exact r1)
  obtain ⟨_, final, e2, e3⟩ := hcc.2 0 (t / a.chunkSize) _ hlen (by rw [hfp]; simpa using hg) hgb
  have hdp := e3 st.trace st.trace tr (fun _ => rfl) (fun _ => rfl) (List.prefix_refl _) hcc.1 _ (hdisk _)
  have := r3 t i py px hi hpy hpx
  rw [hframe] at this
  rw [← this]
  unfold readV3
  have e2' : (fun p => fileInStore w cfg p tr) (levelDirV3 root 0 ++ chunkKey ((t / a.chunkSize) ::
      gridOf ((inner ++ [y, x]).map (·.shardSize)) (gridOf ((inner ++ [y, x]).map (·.chunkSize)) (i ++ [py, px])))) =
      some final := e2
  dsimp only at e2' ⊢
  rw [hkey, hdp, e2']

/-- **C100, violated, Zarr V3.** Of the frames of a shard that is not complete, complete chunks or not, possibly nothing is on
disk when append returns. -/
theorem v3_append_unwritten_violated (h : Setup w fuel s cfg cfgs) (hF3 : cfg.dims.FitsV3) (hz : SizesInRange s)
    (hE : StorageOk env s) (ho : SmallOverhead env)
    (hV : s.version = 3) (hd : s.dimensions = some (a :: (inner ++ [y, x]))) (hl : StoredAt s root)
    (hn : calls.flatten.length < 2 ^ 32)
    (hf : ∀ c ∈ calls, ∀ f ∈ c, f.length = y.arraySize * x.arraySize * itemSize s.dataType)
    (h0 : createStream w env fuel (some s) = some (.ok st0)) (h1 : appends env (calls.map List.flatten) st0 = .ok (st, ns))
    (decode : Bytes → Option Bytes) :
    ∃ d, OnDisk st.trace d ∧ ∀ (t : Nat) (i : List Nat) (py px : Nat), InBounds (inner.map (·.arraySize)) i →
      py < y.arraySize → px < x.arraySize →
      calls.flatten.length < (t / a.chunkSize / a.shardSize + 1) * (framesPer a inner * a.shardSize) →
      readV3 d (levelDirV3 root 0) decode ((a :: (inner ++ [y, x])).map (·.chunkSize))
        ((a :: (inner ++ [y, x])).map (·.shardSize)) (itemSize s.dataType) (t :: (i ++ [py, px])) ∈
      [none, some (List.replicate (itemSize s.dataType) 0)] := by
  have hD := dimsOf h.valid h.commit hd
  rw [← hD.frame] at hf
  obtain ⟨rest, hrest⟩ := levelConfigs_head h.levels
  have hc : cfgs[0]? = some cfg := by rw [hrest]; rfl
  have hL := h.levelShape hz hd hc
  refine ⟨fun p => (disk p st.trace).file, fun p => ⟨0, 0, ?_⟩, ?_⟩
  · dsimp only
    generalize disk p st.trace = D
    obtain ⟨file, pending⟩ := D
    cases file with
    | none => rfl
    | some b => cases pending <;> simp [emit]
  intro t i py px hi hpy hpx hg
  have hib : InBounds ((inner ++ [y, x]).map (·.arraySize)) (i ++ [py, px]) := by
    rw [List.map_append, inBounds_append _ _ hi.length]
    exact ⟨hi, by simp [InBounds, hpy, hpx]⟩
  have hgb := shard_bounds h hF3 hz hd hib
  have hkey : gridOf ((a :: (inner ++ [y, x])).map (·.shardSize))
      (gridOf ((a :: (inner ++ [y, x])).map (·.chunkSize)) (t :: (i ++ [py, px]))) =
      (t / a.chunkSize / a.shardSize) :: gridOf ((inner ++ [y, x]).map (·.shardSize))
        (gridOf ((inner ++ [y, x]).map (·.chunkSize)) (i ++ [py, px])) := rfl
  generalize gridOf ((inner ++ [y, x]).map (·.shardSize)) (gridOf ((inner ++ [y, x]).map (·.chunkSize)) (i ++ [py, px])) = l
    at hgb hkey
  generalize hG : t / a.chunkSize / a.shardSize = G at hg hkey
  obtain ⟨hop, hcnt⟩ := shard_name h hz hV hd hl hc (G := G) hgb
  have hown : Owned cfg (levelDirV3 root 0 ++ chunkKey (G :: l)) := by rw [hop]; exact .inr ⟨_, _, rfl⟩
  have hk : 0 < cfg.dims.append.shardSize := hF3.pos cfg.dims.append (by simp [ArrayDims.toList])
  have hpos := ArrayDims.framesPerChunk_pos h.dimsValid h.fits
  have hfpc : cfg.dims.framesPerChunk = framesPer a inner := by
    unfold ArrayDims.framesPerChunk
    rw [hL.append, hL.innerSizes, sizesAt_zero]
    unfold framesPer levelChunk
    simp
  have hsh : cfg.dims.append.shardSize = a.shardSize := by
    rw [hL.shardSplit.1]; unfold levelShard; simp
  have hN : NeverClosed (levelDirV3 root 0 ++ chunkKey (G :: l)) st.trace := by
    have e := reached_events_v3 h hF3 hE ho hV hn hf h0 h1 hc hown.all
    intro ev hev
    have hin : ∀ q, ev.path = levelDirV3 root 0 ++ chunkKey (G :: l) → ev = q →
        q ∈ eventsV3 env cfg (framesOfLevel cfg 0 calls.flatten).flatten
          ((framesOfLevel cfg 0 calls.flatten).length / cfg.dims.framesPerChunk) := by
      rintro q hp rfl
      have : ev ∈ within (fun q => decide (q = levelDirV3 root 0 ++ chunkKey (G :: l))) st.trace :=
        List.mem_filter.2 ⟨hev, by simpa using hp⟩
      rw [e] at this
      exact (List.mem_filter.1 this).1
    constructor
    · rintro rfl
      have := hin _ rfl rfl
      rw [hop, mem_range_flush_finalized hk hcnt, framesOfLevel_zero, Nat.le_div_iff_mul_le hpos, hfpc, hsh] at this
      apply Nat.lt_irrefl calls.flatten.length
      refine Nat.lt_of_lt_of_le hg (Nat.le_trans (Nat.le_of_eq ?_) this)
      ac_rfl
    · rintro rfl
      exact not_dropped env _ _ _ (hin _ rfl rfl)
  unfold readV3
  dsimp only
  rw [hkey]
  rcases hN.file with hfl | hfl
  · rw [hfl]; simp
  · rw [hfl]
    have hsp : 0 < prod ((a :: (inner ++ [y, x])).map (·.shardSize)) := by
      apply prod_pos
      intro k hk
      rw [← shardsAt_zero, ← hL.shards] at hk
      obtain ⟨e, he, rfl⟩ := List.mem_map.1 hk
      exact hF3.pos e he
    have hse : ∀ j, shardEntry [] (prod ((a :: (inner ++ [y, x])).map (·.shardSize))) j = none := by
      intro j
      unfold shardEntry
      rw [if_pos (by simp only [List.length_nil]; omega)]
    dsimp only
    rw [hse]
    simp

end

/-! ### Instances -/

/-- After the eleven frames of the sample, six to an append chunk, frame 3 is on disk and frame 10 is not. -/
example : ∃ st ns tr, runStream Sample.world Sample.env 9 Sample.settings (Sample.calls.map List.flatten) =
      some (.ok (st, ns, tr)) ∧ ∀ d, OnDisk st.trace d →
    readV2 d (levelDir "/tmp/a.zarr".toList 0) some [2, 2, 2, 3] 2 [1, 0, 4, 6] = some (pixelOf (Sample.frame 3) 7 2 4 6) ∧
    readV2 d (levelDir "/tmp/a.zarr".toList 0) some [2, 2, 2, 3] 2 [3, 1, 4, 6] = some [0, 0] := by
  obtain ⟨cfgs, h, _⟩ := Sample.setup
  obtain ⟨st, tr, r1, _, _⟩ := v2_pixel_reads_back (calls := Sample.calls) h Sample.storageOk rfl rfl
    (a := Sample.dimT) (inner := [Sample.dimC]) (y := Sample.dimY) (x := Sample.dimX) rfl
    Sample.storedAt Sample.fresh (by decide) Sample.calls_sized
  obtain ⟨st0, h0, h01⟩ := runStream_parts r1
  refine ⟨st, _, tr, r1, fun d hdisk => ⟨?_, ?_⟩⟩
  · exact v2_append_written_exact (calls := Sample.calls) h Sample.sizesInRange Sample.storageOk rfl
      (a := Sample.dimT) (inner := [Sample.dimC]) (y := Sample.dimY) (x := Sample.dimX) rfl
      Sample.storedAt Sample.fresh (decode := some) (fun _ => rfl) (by decide) Sample.calls_sized h0 h01 hdisk
      (t := 1) (i := [0]) (py := 4) (px := 6) (by decide) (by decide) (by decide) (f := Sample.frame 3) rfl
  · exact v2_append_unwritten_violated (calls := Sample.calls) h Sample.sizesInRange Sample.storageOk rfl
      (a := Sample.dimT) (inner := [Sample.dimC]) (y := Sample.dimY) (x := Sample.dimX) rfl
      Sample.storedAt Sample.fresh (decode := some) (fun _ => rfl) (by decide) Sample.calls_sized h0 h01 hdisk
      (t := 3) (i := [1]) (py := 4) (px := 6) (by decide) (by decide) (by decide) (k := 10) rfl (by decide) (by decide)

/-- Version 3, one chunk per shard: frame 3 is on disk, and possibly nothing of frame 10. -/
example : ∃ st ns tr, runStream Sample.world Sample.env 9 Sample.settings3 (Sample.calls.map List.flatten) =
      some (.ok (st, ns, tr)) ∧
    (∀ d, OnDisk st.trace d → readV3 d (levelDirV3 "/tmp/a.zarr".toList 0) some [2, 2, 2, 3] [1, 2, 3, 1] 2 [1, 0, 4, 6] =
      some (pixelOf (Sample.frame 3) 7 2 4 6)) ∧
    ∃ d, OnDisk st.trace d ∧ readV3 d (levelDirV3 "/tmp/a.zarr".toList 0) some [2, 2, 2, 3] [1, 2, 3, 1] 2 [3, 1, 4, 6] ∈
      [none, some [0, 0]] := by
  obtain ⟨st, tr, h1, _, _⟩ := v3_pixels_read_back_partial (calls := Sample.calls) Sample.setup3 Sample.fitsV3
    Sample.storageOk Sample.overhead rfl
    (a := Sample.dimT) (inner := [Sample.dimC]) (y := Sample.dimY) (x := Sample.dimX) rfl Sample.storedAt3 Sample.fresh3
    (decode := some) (fun _ => rfl) (by decide) Sample.calls_sized rfl
  obtain ⟨st0, h0, h01⟩ := runStream_parts h1
  refine ⟨st, _, tr, h1, fun d hdisk => ?_, ?_⟩
  · exact v3_append_written_partial (calls := Sample.calls) Sample.setup3 Sample.fitsV3 Sample.sizesInRange Sample.storageOk
      Sample.overhead rfl (a := Sample.dimT) (inner := [Sample.dimC]) (y := Sample.dimY) (x := Sample.dimX) rfl
      Sample.storedAt3 Sample.fresh3 (decode := some) (fun _ => rfl) (by decide) Sample.calls_sized rfl h0 h01 hdisk
      (t := 1) (i := [0]) (py := 4) (px := 6) (by decide) (by decide) (by decide) (f := Sample.frame 3) rfl (by decide)
  · obtain ⟨d, k1, k2⟩ := v3_append_unwritten_violated (calls := Sample.calls) Sample.setup3 Sample.fitsV3 Sample.sizesInRange
      Sample.storageOk Sample.overhead rfl (a := Sample.dimT) (inner := [Sample.dimC]) (y := Sample.dimY) (x := Sample.dimX)
      rfl Sample.storedAt3 (by decide) Sample.calls_sized h0 h01 some
    exact ⟨d, k1, k2 3 [1] 4 6 (by decide) (by decide) (by decide) (by decide)⟩

end AZ
