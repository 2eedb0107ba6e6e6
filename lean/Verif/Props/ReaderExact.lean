import Verif.Spec.ShownShards
import Verif.Props.S3Replace

set_option linter.unusedSimpArgs false

/-!
# C81, C83: exactly what a reader of a finished V3 dataset loads, for every size of the append shards
-/

namespace AZ
open Spec

theorem slice_replicate {k n m : Nat} (h : k + n ≤ m) : slice (List.replicate m (0 : UInt8)) k n = List.replicate n 0 := by
  unfold slice
  rw [List.drop_replicate, List.take_replicate]
  congr 1
  omega

/-- If every element is the one of `shownT`, the whole array is `shownFrame` after `shownFrame`. -/
theorem shown_all {c : WConfig} (hv : c.dims.Valid) (hf : c.dims.Room) {fs : List Bytes}
    (hff : ∀ f ∈ fs, f.length = c.dims.frameBytes) {T : Nat} {read : List Nat → Option Bytes}
    (hread : ∀ t i py px, t < T → InBounds (aShape c.dims.inner) i → py < c.dims.height.arraySize →
      px < c.dims.width.arraySize → read (t :: (i ++ [py, px])) =
      some (if t / c.dims.append.chunkSize % c.dims.append.shardSize = 0 then
      (match fs[shownT c fs.length t * prod (aShape c.dims.inner) + ravel (aShape c.dims.inner) i]? with
        | some f => pixelOf f c.dims.width.arraySize c.dims.dtype.bytes py px
        | none => List.replicate c.dims.dtype.bytes 0)
      else List.replicate c.dims.dtype.bytes 0)) :
    ∃ items, ((List.range (prod (T :: aShape c.dims.tailDims))).mapM fun k => read (unravel (T :: aShape c.dims.tailDims) k)) =
        some items ∧
      items.flatten = (List.range (T * prod (aShape c.dims.inner))).flatMap
        (shownFrame c.dims.framesPerChunk c.dims.append.shardSize c.dims.frameBytes fs) := by
  have hP := prodA_pos (ArrayDims.innerOk hv hf)
  have hch := hv.append_chunk
  have hFP : c.dims.framesPerChunk = c.dims.append.chunkSize * prod (aShape c.dims.inner) := rfl
  have hzl : ∀ q, (shownFrame c.dims.framesPerChunk c.dims.append.shardSize c.dims.frameBytes fs q).length = c.dims.frameBytes := by
    intro q
    unfold shownFrame
    dsimp only
    split
    · rw [List.getD_eq_getElem?_getD]
      cases hq : fs[(q / c.dims.framesPerChunk + (min c.dims.append.shardSize (ceilDiv fs.length c.dims.framesPerChunk -
          q / c.dims.framesPerChunk) - 1)) * c.dims.framesPerChunk + q % c.dims.framesPerChunk]? with
      | none => simp
      | some f => exact hff f (List.mem_of_getElem? hq)
    · simp
  obtain ⟨L, hL⟩ : ∃ L, L = (List.range (T * prod (aShape c.dims.inner))).map
    (shownFrame c.dims.framesPerChunk c.dims.append.shardSize c.dims.frameBytes fs) := ⟨_, rfl⟩
  have hLL : ∀ f ∈ L, f.length = c.dims.frameBytes := by
    rw [hL]
    intro f hf
    obtain ⟨q, _, rfl⟩ := List.mem_map.1 hf
    exact hzl q
  have hLlen : L.length = T * prod (aShape c.dims.inner) := by rw [hL]; simp
  have hprod : prod (aShape c.dims.tailDims) = prod (aShape c.dims.inner) *
      (c.dims.height.arraySize * c.dims.width.arraySize) := by
    simp [ArrayDims.tailDims, aShape_append, prod_append]
  have hfb : c.dims.frameBytes = c.dims.height.arraySize * c.dims.width.arraySize * c.dims.dtype.bytes := rfl
  have hlen : L.flatten.length = prod (T :: aShape c.dims.tailDims) * c.dims.dtype.bytes := by
    rw [flatten_length_const hLL, hLlen, hfb]
    show _ = T * prod (aShape c.dims.tailDims) * _
    rw [hprod]
    simp only [Nat.mul_assoc]
  obtain ⟨items, m1, m2⟩ := read_all (read := read) (T := T) (item := c.dims.dtype.bytes) (tail := aShape c.dims.tailDims)
    (data := L.flatten) (by
      intro t z ht hz
      have hz' : InBounds (aShape c.dims.inner ++ [c.dims.height.arraySize, c.dims.width.arraySize]) z := by
        have := hz
        unfold ArrayDims.tailDims at this
        rw [aShape_append] at this
        exact this
      obtain ⟨i, py, px, rfl, h1, h2, h4⟩ := inBounds_split hz'
      rw [hread t i py px ht h1 h2 h4, logical_is_pixel hv hf hLL h1 h2 h4]
      have hr := ravel_lt h1
      obtain ⟨r, hrr⟩ : ∃ r, r = ravel (aShape c.dims.inner) i := ⟨_, rfl⟩
      rw [← hrr] at hr ⊢
      obtain ⟨P, hPP⟩ : ∃ P, P = prod (aShape c.dims.inner) := ⟨_, rfl⟩
      rw [← hPP] at hr hP hFP ⊢
      have hlt : t * P + r < T * P := by
        calc t * P + r < t * P + P := by omega
          _ = (t + 1) * P := by rw [Nat.add_mul, Nat.one_mul]
          _ ≤ T * P := Nat.mul_le_mul_right _ ht
      have hget : L[t * P + r]? = some (shownFrame c.dims.framesPerChunk c.dims.append.shardSize c.dims.frameBytes fs (t * P + r)) := by
        rw [hL, List.getElem?_map, List.getElem?_range (by rw [← hPP]; exact hlt)]
        rfl
      rw [hget]
      dsimp only
      have hq : (t * P + r) / c.dims.framesPerChunk = t / c.dims.append.chunkSize := by
        rw [hFP, Nat.mul_comm c.dims.append.chunkSize, ← Nat.div_div_eq_div_mul]
        congr 1
        rw [Nat.mul_comm, Nat.mul_add_div hP, Nat.div_eq_of_lt hr, Nat.add_zero]
      have hqm : (t * P + r) % c.dims.framesPerChunk = t % c.dims.append.chunkSize * P + r := by
        have e1 := Nat.div_add_mod (t * P + r) c.dims.framesPerChunk
        rw [hq, hFP] at e1
        rw [hFP]
        have e2 := Nat.div_add_mod t c.dims.append.chunkSize
        have e3 : t * P = c.dims.append.chunkSize * P * (t / c.dims.append.chunkSize) + t % c.dims.append.chunkSize * P := by
          conv => lhs; rw [← e2]
          rw [Nat.add_mul]
          congr 1
          rw [Nat.mul_right_comm]
        omega
      unfold shownFrame
      dsimp only
      rw [hq, hqm]
      have hzero : ∀ (hpy : py < c.dims.height.arraySize) (hpx : px < c.dims.width.arraySize),
          pixelOf (List.replicate c.dims.frameBytes 0) c.dims.width.arraySize c.dims.dtype.bytes py px =
          List.replicate c.dims.dtype.bytes 0 := fun hpy hpx => slice_replicate (pixel_fits hpy hpx)
      by_cases hz0 : t / c.dims.append.chunkSize % c.dims.append.shardSize = 0
      · rw [if_pos hz0, if_pos hz0]
        have hidx : (t / c.dims.append.chunkSize + (min c.dims.append.shardSize (ceilDiv fs.length c.dims.framesPerChunk -
            t / c.dims.append.chunkSize) - 1)) * c.dims.framesPerChunk + (t % c.dims.append.chunkSize * P + r) =
            shownT c fs.length t * P + r := by
          unfold shownT layersIn groups
          rw [Nat.div_mul_cancel (Nat.dvd_of_mod_eq_zero hz0), Nat.add_mul _ _ P, hFP, Nat.mul_assoc]
          omega
        rw [hidx, List.getD_eq_getElem?_getD]
        cases fs[shownT c fs.length t * P + r]? with
        | some f => rfl
        | none => exact congrArg some (hzero h2 h4).symm
      · rw [if_neg hz0, if_neg hz0, hzero h2 h4]) (by rw [hlen])
  refine ⟨items, m1, ?_⟩
  rw [m2, hlen, Nat.sub_self, List.replicate_zero, List.append_nil, hL, List.flatMap_def]

section
variable {w : World} {env : Env} {fuel : Nat} {s : Settings} {cfg : WConfig} {cfgs : List WConfig}
  {a y x : DimProps} {inner : List DimProps} {root : Text} {calls : List (List Bytes)} {tr : List Ev}

/-- All of level `i`, as a reader loads it whose every element is the one of `shownT`. -/
theorem v3_loads_from (h : Setup w fuel s cfg cfgs) (hz : SizesInRange s) (hV : s.version = 3)
    (hd : s.dimensions = some (a :: (inner ++ [y, x])))
    {i : Nat} {c : WConfig} (hc : cfgs[i]? = some c) {fs : List Bytes} (hff : ∀ f ∈ fs, f.length = c.dims.frameBytes)
    {m : Nat} {file : Text → Option Bytes} {unblosc : Bytes → Option Bytes}
    (hop : openV3 file root (decimal i) = some (infoOf s a (inner ++ [y, x]) inner i m))
    (hread : ∀ t j py px, t < ceilDiv m (prod (sizesAt i inner)) → InBounds (aShape c.dims.inner) j → py < c.dims.height.arraySize →
      px < c.dims.width.arraySize → readV3 file (levelDirV3 root i) ((infoOf s a (inner ++ [y, x]) inner i m).decoder unblosc)
        (cShape c.dims.toList) (kShape c.dims.toList) c.dims.dtype.bytes (t :: (j ++ [py, px])) =
      some (if t / c.dims.append.chunkSize % c.dims.append.shardSize = 0 then
      (match fs[shownT c fs.length t * prod (aShape c.dims.inner) + ravel (aShape c.dims.inner) j]? with
        | some f => pixelOf f c.dims.width.arraySize c.dims.dtype.bytes py px
        | none => List.replicate c.dims.dtype.bytes 0)
      else List.replicate c.dims.dtype.bytes 0)) :
    loadV3 file unblosc root (decimal i) = some (infoOf s a (inner ++ [y, x]) inner i m,
      (List.range (ceilDiv m (prod (sizesAt i inner)) * prod (sizesAt i inner))).flatMap
        (shownFrame (framesPerAt i a inner) (shardAt i a) c.dims.frameBytes fs)) := by
  have hL := h.levelShape hz hd hc
  have hit := level_item h.valid hL
  obtain ⟨hv, hfit⟩ := h.levelDims.1 c (List.mem_of_getElem? hc)
  have h2' : ¬ s.version = 2 := by rw [hV]; decide
  obtain ⟨items, m1, m2⟩ := shown_all hv hfit hff hread
  unfold loadV3
  rw [hop, data_path]
  have hsh : (infoOf s a (inner ++ [y, x]) inner i m).shards = shardsAt i (a :: (inner ++ [y, x])) := by
    unfold infoOf
    exact if_neg h2'
  simp only [Option.bind_eq_bind, Option.bind_some, Option.pure_def]
  rw [hL.chunks, hL.shards, hL.tail, hit] at m1
  rw [hsh]
  have m1' : ((List.range (prod (infoOf s a (inner ++ [y, x]) inner i m).shape)).mapM fun k =>
      readV3 file (levelDirV3 root i) ((infoOf s a (inner ++ [y, x]) inner i m).decoder unblosc)
        (infoOf s a (inner ++ [y, x]) inner i m).chunks
        (shardsAt i (a :: (inner ++ [y, x])))
        (infoOf s a (inner ++ [y, x]) inner i m).itemSize
        (unravel (infoOf s a (inner ++ [y, x]) inner i m).shape k)) = some items := m1
  rw [m1']
  simp only [Option.bind_some]
  rw [m2, hL.innerSizes, show c.dims.framesPerChunk = framesPerAt i a inner from hL.framesPer,
    show c.dims.append.shardSize = shardAt i a from hL.shardSize]

/-- Every step that the document counts lies in a shard with an index. -/
theorem doc_step_has_index {F K ch P n t : Nat} (hF : F = ch * P) (hK : 0 < K) (hch : 0 < ch) (hP : 0 < P)
    (ht : t < ceilDiv (docFrames F K n) P) : (t / ch / K + 1) * K ≤ ceilDiv n F ∨ n % F ≠ 0 := by
  by_cases hm : n % F ≠ 0
  · exact .inr hm
  · left
    unfold docFrames at ht
    rw [if_neg hm, lt_ceilDiv_iff hP] at ht
    have hF0 : 0 < F := by rw [hF]; exact Nat.mul_pos hch hP
    have hd : n / (F * K) * (F * K) ≤ n := Nat.div_mul_le_self _ _
    generalize n / (F * K) = A at ht hd
    have h1 : t < A * K * ch := by
      have : t * P < A * K * ch * P := by
        calc t * P < A * (F * K) := ht
          _ = _ := by rw [hF]; ring
      exact Nat.lt_of_mul_lt_mul_right this
    have h2 : t / ch / K < A := by
      rw [Nat.div_div_eq_div_mul, Nat.div_lt_iff_lt_mul (Nat.mul_pos hch hK), Nat.mul_comm ch K, ← Nat.mul_assoc]
      exact h1
    have h3 : (t / ch / K + 1) * K ≤ A * K := Nat.mul_le_mul_right _ h2
    refine Nat.le_trans h3 ?_
    have h4 : A * K * F ≤ n := by
      calc A * K * F = A * (F * K) := by ring
        _ ≤ n := hd
    have h5 := (ceilDiv_least hF0).1 (Nat.le_refl (ceilDiv n F))
    exact Nat.le_of_mul_le_mul_right (Nat.le_trans h4 h5) hF0

/-- **C81, exactly, for every size of the append shards.** A reader that is given only the files and the name of the store finds all
levels. Level `i` received `n` frames, `L i`; its document counts `docFrames` of them (all of them if the last append chunk is
incomplete, otherwise those in full shards). If that is none, it cannot be opened; otherwise its shape is that of `docFrames` frames, and
where frame `q` should be, it shows `shownFrame`: of each shard, the first append chunk shows the frames of the last one,
and the others are zeros. -/
theorem v3_loads_exact_partial (h : Setup w fuel s cfg cfgs) (h3 : cfg.dims.FitsV3) (hz : SizesInRange s) (hrc : RealCodec s)
    (hE : StorageOk env s) (ho : SmallOverhead env)
    (hV : s.version = 3) (hd : s.dimensions = some (a :: (inner ++ [y, x]))) (hr : StoredAt s root) (hfr : Fresh w s root)
    {unblosc : Bytes → Option Bytes} (hu : Unblosc env s unblosc) (hn : calls.flatten.length < 2 ^ 32)
    (hf : ∀ c ∈ calls, ∀ f ∈ c, f.length = y.arraySize * x.arraySize * itemSize s.dataType) :
    ∃ st tr, runStream w env fuel s (calls.map List.flatten) =
        some (.ok (st, calls.map (fun c => c.flatten.length), tr)) ∧ st.error = [] ∧
      levelsV3 (fun p => fileInStore w cfg p tr) root = some ((List.range cfgs.length).map decimal) ∧
      ∃ L : Nat → List Bytes, L 0 = calls.flatten ∧
        (s.dataType < 8 → MeanPyramid (itemSize s.dataType) y.arraySize x.arraySize cfgs.length L) ∧
        ∀ i, i < cfgs.length → (L i).length = calls.flatten.length / 2 ^ i ∧
          ∀ m, m = docFrames (framesPerAt i a inner) (shardAt i a) (L i).length →
          (m = 0 → loadV3 (fun p => fileInStore w cfg p tr) unblosc root (decimal i) = none) ∧
          (m ≠ 0 → loadV3 (fun p => fileInStore w cfg p tr) unblosc root (decimal i) =
            some (infoOf s a (inner ++ [y, x]) inner i m,
              (List.range (ceilDiv m (prod (sizesAt i inner)) * prod (sizesAt i inner))).flatMap
                (shownFrame (framesPerAt i a inner) (shardAt i a)
                  (levelSize y.isChannel y.arraySize i * levelSize x.isChannel x.arraySize i * itemSize s.dataType) (L i)))) := by
  have hD := dimsOf h.valid h.commit hd
  have hf' := hf
  rw [← hD.frame] at hf'
  obtain ⟨st, tr, h1, h2, hs⟩ := session_v3 h h3 hE ho hV hn hf'
  obtain ⟨st', tr', h1', _, h4⟩ := v3_final_document h h3 hz hrc hE ho hV hd hr hfr hn hf
  rw [h1] at h1'
  cases h1'
  refine ⟨st, tr, h1, h2, v3_levels h hE hV hd hr hfr hn hf h1, fun i => framesOfLevel cfg i calls.flatten, rfl,
    fun h8 => levels_meanPyramid h.base hd h8 _, ?_⟩
  intro i hi
  have hlen := framesOfLevel_length cfg i calls.flatten
  refine ⟨hlen, fun m hm => ⟨fun h0 => ?_, fun hne => ?_⟩⟩
  · dsimp only at hm
    rw [hlen] at hm
    have := (h4 i hi m hm).1 h0
    rw [← array_json_path] at this
    unfold loadV3 openV3 jsonFile
    simp only [this]
    rfl
  · have hc : cfgs[i]? = some cfgs[i] := List.getElem?_eq_getElem hi
    generalize cfgs[i] = c at hc
    have hL := h.levelShape hz hd hc
    have hit := level_item h.valid hL
    have hmem := List.mem_of_getElem? hc
    obtain ⟨hv, hfit⟩ := h.levelDims.1 c hmem
    have hfb : c.dims.frameBytes = levelSize y.isChannel y.arraySize i * levelSize x.isChannel x.arraySize i *
        itemSize s.dataType := by
      unfold ArrayDims.frameBytes; rw [hit, hL.height, hL.width]
    dsimp only at hm
    obtain ⟨b, v, b1, b2, b3⟩ := (h4 i hi m (by rw [← hlen]; exact hm)).2 hne
    have hop := v3_opens (f := fun p => fileInStore w cfg p tr) h hV b1 b2 b3
    rw [← hfb]
    refine v3_loads_from h hz hV hd hc (hs.sizes i c hc) hop ?_
    intro t j py px ht hj hpy hpx
    refine v3_level_read h h3 hE ho hV hr hfr (decodes_of (info := infoOf s a (inner ++ [y, x]) inner i m) hu rfl) hD.item hs hc
      hj hpy hpx ?_
    have hk : 0 < c.dims.append.shardSize := (h.levelFitsV3 h3 c hmem).pos c.dims.append (by simp [ArrayDims.toList])
    rw [hm, ← show c.dims.framesPerChunk = framesPerAt i a inner from hL.framesPer,
      ← show c.dims.append.shardSize = shardAt i a from hL.shardSize, ← hL.innerSizes] at ht
    rcases doc_step_has_index (F := c.dims.framesPerChunk) rfl hk hv.append_chunk (prodA_pos (ArrayDims.innerOk hv hfit)) ht with e | e
    · exact .inl e
    · exact .inr (.inl e)

end

/-- **C81 is false** with two append chunks per shard, also when the level can be opened: of five frames `5 6 7 8 9` a reader finds
`7 8 0 0 9`. -/
theorem v3_wrong_frames_violated : ∃ st ns tr, runStream Sample.world Sample.env 9 (Sample.slab 2 2) [[5, 6, 7], [8, 9]] =
      some (.ok (st, ns, tr)) ∧ st.error = [] ∧
      loadV3 (fun p => fileInStore Sample.world (Sample.slabCfg 2 2) p tr) (fun _ => none) "/tmp/a".toList "0".toList =
        some (⟨[5, 1, 1], [2, 1, 1], [2, 1, 1], .unsigned, 1, false⟩, [7, 8, 0, 0, 9]) := by
  obtain ⟨st, tr, h1, h2, _, L, h3, _, h4⟩ := v3_loads_exact_partial (calls := [[[5], [6], [7]], [[8], [9]]]) Sample.slabSetup (by decide)
    (Sample.slabSizes 2 2) (Sample.slabCodec 2 2) Sample.storageOk Sample.overhead rfl
    (inner := []) rfl (Sample.slabStored 2 2) (Sample.slabFresh 2 2) (unblosc_none rfl) (by decide) (by decide)
  obtain ⟨l0, k0⟩ := h4 0 (by decide)
  have k := (k0 _ rfl).2
  rw [h3] at k
  exact ⟨st, _, tr, h1, h2, k (by decide)⟩

end AZ

namespace AZ.S3
open Spec

section
variable {w : World} {env : Env} {fuel : Nat} {s : Settings} {cfg : WConfig} {cfgs : List WConfig}
  {a y x : DimProps} {inner : List DimProps} {root : Text} {calls : List (List Bytes)} {tr : List Ev}

/-- Exactly what a V3 dataset in a bucket shows of one level, one element at a time: the shards the session completed as the array
writer made them, nothing of the last, incomplete shard. -/
theorem s3_v3_level_read (h : Setup w fuel s cfg cfgs) (h3 : cfg.dims.FitsV3) (hz : SizesInRange s) (hr : InBucket s root)
    (hE : StorageOk env s) (ho : SmallOverhead env) (hV : s.version = 3)
    (hd : s.dimensions = some (a :: (inner ++ [y, x]))) {decode : Bytes → Option Bytes} (hdec : Decodes env s decode)
    {frames : List Bytes} (hs : SessionV3 env cfg cfgs frames tr) {P : Nat} (hP : 0 < P) (hsz : ShardsFit s (a :: (inner ++ [y, x])) P)
    {srv : Text → Nat → Reply} (hsrv : ∀ p, Spec.Healthy (srv p)) {junk : Bytes} (hj : junk.length = P)
    {old : Text → Option Bytes} {i : Nat} {c : WConfig} (hc : cfgs[i]? = some c) {fs full : List Bytes}
    (hfs : fs = framesOfLevel cfg i frames)
    (hfull : full = fs.take (fs.length / (c.dims.framesPerChunk * c.dims.append.shardSize) *
      (c.dims.framesPerChunk * c.dims.append.shardSize)))
    {t : Nat} {j : List Nat} {py px : Nat} (hjb : InBounds (aShape c.dims.inner) j) (hpy : py < c.dims.height.arraySize)
    (hpx : px < c.dims.width.arraySize)
    (hold : fs.length < (t / c.dims.append.chunkSize / c.dims.append.shardSize + 1) * (c.dims.framesPerChunk * c.dims.append.shardSize) →
      ∀ l, old (levelDirV3 root i ++ chunkKey (t / c.dims.append.chunkSize / c.dims.append.shardSize :: l)) = none) :
    readV3 (fun p => (bucketAfter P srv junk old tr p).object) (levelDirV3 root i) decode
        (cShape c.dims.toList) (kShape c.dims.toList) c.dims.dtype.bytes (t :: (j ++ [py, px])) =
      some (if t / c.dims.append.chunkSize % c.dims.append.shardSize = 0 then
      (match full[shownT c full.length t * prod (aShape c.dims.inner) + ravel (aShape c.dims.inner) j]? with
        | some f => pixelOf f c.dims.width.arraySize c.dims.dtype.bytes py px
        | none => List.replicate c.dims.dtype.bytes 0)
      else List.replicate c.dims.dtype.bytes 0) := by
  have hD := dimsOf h.valid h.commit hd
  obtain ⟨hK, hka⟩ := shards_of h.commit hd
  have hmem := List.mem_of_getElem? hc
  obtain ⟨hv, hfit⟩ := h.levelDims.1 c hmem
  have hk : 0 < c.dims.append.shardSize := (h.levelFitsV3 h3 c hmem).pos c.dims.append (by simp [ArrayDims.toList])
  have hch := hv.append_chunk
  have hP0 := prodA_pos (ArrayDims.innerOk hv hfit)
  have hFP : c.dims.framesPerChunk = c.dims.append.chunkSize * prod (aShape c.dims.inner) := rfl
  have hF0 := ArrayDims.framesPerChunk_pos hv hfit
  have hideal := v3_level_read_from h h3 hE ho hV hdec hD.item hs hc
    (file := fun p => fileAfter p (runEventsV3 env c (framesOfLevel cfg i frames).flatten (framesOfLevel cfg i frames).length))
    (levelDirV3_located h hr.located hc) (fun _ _ => rfl) (t := t) hjb hpy hpx
  have hshard := fun G l => s3_level_shard h h3 hr ho hV hs hP (by
    unfold ShardsFit at hsz
    rw [hK, setup_chunkBytes h hd]
    exact hsz) hsrv hj old hc G l
  have hrl := ravel_lt hjb
  rw [← hfs] at hideal hshard
  obtain ⟨l, hl, hbounds⟩ : ∃ l, gridOf (kShape c.dims.toList) (gridOf (cShape c.dims.toList) (t :: (j ++ [py, px]))) =
      (t / c.dims.append.chunkSize / c.dims.append.shardSize) :: l ∧ InBounds (mShape c.dims.tailDims) l := by
    refine ⟨gridOf (kShape c.dims.tailDims) (gridOf (cShape c.dims.tailDims) (j ++ [py, px])), rfl, ?_⟩
    apply ArrayDims.shardPos_inBounds (h.levelFitsV3 h3 c hmem)
    have hgb := gridOf_inBounds (cs := cShape c.dims.tailDims) (fun k hk => by
      obtain ⟨d, hd, rfl⟩ := List.mem_map.1 hk
      exact hv.tail_chunk d hd) (by simp) (x := j ++ [py, px]) (as := aShape c.dims.tailDims) (by
        unfold ArrayDims.tailDims
        rw [aShape_append]
        exact (inBounds_append _ _ hjb.length).2 ⟨hjb, hpy, hpx, trivial⟩)
    rwa [zipWith_ceilDiv] at hgb
  have hob := hshard (t / c.dims.append.chunkSize / c.dims.append.shardSize) l
  have hA : full.length = fs.length / (c.dims.framesPerChunk * c.dims.append.shardSize) *
      (c.dims.framesPerChunk * c.dims.append.shardSize) := by
    rw [hfull, List.length_take]
    exact Nat.min_eq_left (Nat.div_mul_le_self _ _)
  have hgr : groups c full.length = fs.length / (c.dims.framesPerChunk * c.dims.append.shardSize) * c.dims.append.shardSize := by
    rw [hA]
    unfold groups
    generalize fs.length / (c.dims.framesPerChunk * c.dims.append.shardSize) = A
    rw [show A * (c.dims.framesPerChunk * c.dims.append.shardSize) = A * c.dims.append.shardSize * c.dims.framesPerChunk by ring]
    apply Nat.le_antisymm
    · exact (ceilDiv_least hF0).2 (Nat.le_refl _)
    · apply Nat.le_of_mul_le_mul_right _ hF0
      exact (ceilDiv_least hF0).1 (Nat.le_refl _)
  have hdm := Nat.div_add_mod t c.dims.append.chunkSize
  have hmt := Nat.mod_lt t hch
  have hdg := Nat.div_add_mod (t / c.dims.append.chunkSize) c.dims.append.shardSize
  have hsplit : (t / c.dims.append.chunkSize / c.dims.append.shardSize + 1) * (c.dims.framesPerChunk * c.dims.append.shardSize) ≤
      fs.length ↔ t / c.dims.append.chunkSize / c.dims.append.shardSize <
        fs.length / (c.dims.framesPerChunk * c.dims.append.shardSize) := by
    rw [← Nat.le_div_iff_mul_le (Nat.mul_pos hF0 hk), Nat.succ_le_iff]
  have eG : (t / c.dims.append.chunkSize / c.dims.append.shardSize + 1) * c.dims.append.shardSize * c.dims.framesPerChunk =
      (t / c.dims.append.chunkSize / c.dims.append.shardSize + 1) * (c.dims.framesPerChunk * c.dims.append.shardSize) := by ring
  rw [eG] at hob
  have hfile_eq : full.length ≤ fs.length := by rw [hA]; exact Nat.div_mul_le_self _ _
  by_cases hcomp : (t / c.dims.append.chunkSize / c.dims.append.shardSize + 1) * (c.dims.framesPerChunk * c.dims.append.shardSize) ≤
      fs.length
  · rw [if_pos ⟨hcomp, hbounds⟩] at hob
    rw [readV3_congr (g := fun p => fileAfter p (runEventsV3 env c fs.flatten fs.length)) (by rw [hl, hob])]
    have hgs : (t / c.dims.append.chunkSize / c.dims.append.shardSize + 1) * c.dims.append.shardSize ≤ groups c fs.length := by
      unfold groups
      apply Nat.le_of_mul_le_mul_right _ hF0
      rw [eG]
      exact Nat.le_trans hcomp ((ceilDiv_least hF0).1 (Nat.le_refl _))
    rw [hideal (.inl hgs)]
    have hlt := hsplit.1 hcomp
    have hgs' : (t / c.dims.append.chunkSize / c.dims.append.shardSize + 1) * c.dims.append.shardSize ≤ groups c full.length := by
      rw [hgr]
      exact Nat.mul_le_mul_right _ hlt
    congr 1
    by_cases hz0 : t / c.dims.append.chunkSize % c.dims.append.shardSize = 0
    · rw [if_pos hz0, if_pos hz0]
      have hsame : ∀ n, (t / c.dims.append.chunkSize / c.dims.append.shardSize + 1) * c.dims.append.shardSize ≤ groups c n →
          shownT c n t = (t / c.dims.append.chunkSize + (c.dims.append.shardSize - 1)) * c.dims.append.chunkSize +
            t % c.dims.append.chunkSize := by
        intro n hn
        unfold shownT layersIn
        rw [Nat.min_eq_left]
        rw [Nat.add_mul, Nat.one_mul] at hn
        omega
      rw [hsame _ hgs, hsame _ hgs']
      have hidx : ((t / c.dims.append.chunkSize + (c.dims.append.shardSize - 1)) * c.dims.append.chunkSize +
          t % c.dims.append.chunkSize) * prod (aShape c.dims.inner) + ravel (aShape c.dims.inner) j < full.length := by
        have e1 : (t / c.dims.append.chunkSize + (c.dims.append.shardSize - 1)) * c.dims.append.chunkSize +
            t % c.dims.append.chunkSize + 1 ≤
            (t / c.dims.append.chunkSize / c.dims.append.shardSize + 1) * c.dims.append.shardSize * c.dims.append.chunkSize := by
          have e2 : (t / c.dims.append.chunkSize / c.dims.append.shardSize + 1) * c.dims.append.shardSize =
              t / c.dims.append.chunkSize + (c.dims.append.shardSize - 1) + 1 := by
            rw [Nat.add_mul, Nat.one_mul, Nat.mul_comm]
            omega
          rw [e2, Nat.add_mul _ 1, Nat.one_mul]
          omega
        calc _ < ((t / c.dims.append.chunkSize + (c.dims.append.shardSize - 1)) * c.dims.append.chunkSize +
            t % c.dims.append.chunkSize) * prod (aShape c.dims.inner) + prod (aShape c.dims.inner) := Nat.add_lt_add_left hrl _
          _ = ((t / c.dims.append.chunkSize + (c.dims.append.shardSize - 1)) * c.dims.append.chunkSize +
            t % c.dims.append.chunkSize + 1) * prod (aShape c.dims.inner) := by rw [Nat.add_mul _ 1, Nat.one_mul]
          _ ≤ (t / c.dims.append.chunkSize / c.dims.append.shardSize + 1) * c.dims.append.shardSize * c.dims.append.chunkSize *
            prod (aShape c.dims.inner) := Nat.mul_le_mul_right _ e1
          _ = (t / c.dims.append.chunkSize / c.dims.append.shardSize + 1) * (c.dims.framesPerChunk * c.dims.append.shardSize) := by
            rw [hFP]; ring
          _ ≤ full.length := by rw [hA]; exact Nat.mul_le_mul_right _ hlt
      have hget : ∀ k, k < full.length → full[k]? = fs[k]? := by
        intro k hk
        rw [hA] at hk
        rw [hfull, List.getElem?_take, if_pos hk]
      rw [hget _ hidx]
      rfl
    · rw [if_neg hz0, if_neg hz0]
  · rw [if_neg (fun hh => hcomp hh.1)] at hob
    rw [readV3_missing (by rw [hl, hob]; exact hold (Nat.lt_of_not_le hcomp) l)]
    congr 1
    by_cases hz0 : t / c.dims.append.chunkSize % c.dims.append.shardSize = 0
    · rw [if_pos hz0]
      have hge : fs.length / (c.dims.framesPerChunk * c.dims.append.shardSize) ≤
          t / c.dims.append.chunkSize / c.dims.append.shardSize := Nat.le_of_not_lt (fun hh => hcomp (hsplit.2 hh))
      have hge' := Nat.mul_le_mul_right c.dims.append.shardSize hge
      have hsh : shownT c full.length t = t := by
        unfold shownT layersIn
        rw [hgr, Nat.sub_eq_zero_of_le hge', Nat.min_zero]
        rw [Nat.zero_sub, Nat.add_zero, Nat.mul_comm]
        exact hdm
      rw [hsh, List.getElem?_eq_none]
      have : full.length ≤ t * prod (aShape c.dims.inner) := by
        calc full.length = fs.length / (c.dims.framesPerChunk * c.dims.append.shardSize) * c.dims.append.shardSize *
              c.dims.append.chunkSize * prod (aShape c.dims.inner) := by rw [hA, hFP]; ring
          _ ≤ t / c.dims.append.chunkSize / c.dims.append.shardSize * c.dims.append.shardSize * c.dims.append.chunkSize *
              prod (aShape c.dims.inner) := Nat.mul_le_mul_right _ (Nat.mul_le_mul_right _ hge')
          _ ≤ t * prod (aShape c.dims.inner) := by
            apply Nat.mul_le_mul_right
            exact Nat.le_trans (Nat.mul_le_mul_right _ (Nat.div_mul_le_self _ _)) (Nat.div_mul_le_self _ _)
      omega
    · rw [if_neg hz0]

/-- **C83, version 3, exactly, for every size of the append shards.** As `v3_loads_exact_partial`, but only the frames in full shards are in the
bucket, while the shapes count `docFrames`: the others show as zeros. What an earlier session left under the last, incomplete shard would show instead
(C97), and so would its array document if the session writes none. -/
theorem s3_v3_loads_shown_partial (h : Setup w fuel s cfg cfgs) (h3 : cfg.dims.FitsV3) (hz : SizesInRange s) (hrc : RealCodec s)
    (hr : InBucket s root) (hE : StorageOk env s) (ho : SmallOverhead env) (hV : s.version = 3)
    (hd : s.dimensions = some (a :: (inner ++ [y, x])))
    {unblosc : Bytes → Option Bytes} (hu : Unblosc env s unblosc) (hn : calls.flatten.length < 2 ^ 32)
    (hf : ∀ c ∈ calls, ∀ f ∈ c, f.length = y.arraySize * x.arraySize * itemSize s.dataType)
    {P : Nat} (hP : 0 < P) (hsz : ShardsFit s (a :: (inner ++ [y, x])) P)
    {srv : Text → Nat → Reply} (hsrv : ∀ p, Spec.Healthy (srv p)) {junk : Bytes} (hj : junk.length = P)
    (old : Text → Option Bytes) :
    ∃ st tr, runStream w env fuel s (calls.map List.flatten) =
        some (.ok (st, calls.map (fun c => c.flatten.length), tr)) ∧ st.error = [] ∧ (SmallDocuments s root cfgs.length P tr →
      levelsV3 (fun p => (bucketAfter P srv junk old tr p).object) root = some ((List.range cfgs.length).map decimal) ∧
      ∃ L : Nat → List Bytes, L 0 = calls.flatten ∧
        (s.dataType < 8 → MeanPyramid (itemSize s.dataType) y.arraySize x.arraySize cfgs.length L) ∧
        ∀ i, i < cfgs.length → (L i).length = calls.flatten.length / 2 ^ i ∧
          ∀ m shard, m = docFrames (framesPerAt i a inner) (shardAt i a) (L i).length → shard = framesPerAt i a inner * shardAt i a →
          (m = 0 → old (root ++ '/' :: arrayDocName 3 i) = none →
            loadV3 (fun p => (bucketAfter P srv junk old tr p).object) unblosc root (decimal i) = none) ∧
          (m ≠ 0 → ((L i).length % framesPerAt i a inner ≠ 0 →
              ∀ l, old (levelDirV3 root i ++ chunkKey ((L i).length / shard :: l)) = none) →
            loadV3 (fun p => (bucketAfter P srv junk old tr p).object) unblosc root (decimal i) =
            some (infoOf s a (inner ++ [y, x]) inner i m,
              (List.range (ceilDiv m (prod (sizesAt i inner)) * prod (sizesAt i inner))).flatMap
                (shownFrame (framesPerAt i a inner) (shardAt i a)
                  (levelSize y.isChannel y.arraySize i * levelSize x.isChannel x.arraySize i * itemSize s.dataType)
                  ((L i).take ((L i).length / shard * shard)))))) := by
  have hD := dimsOf h.valid h.commit hd
  have hf' := hf
  rw [← hD.frame] at hf'
  obtain ⟨st, tr, h1, h2, hs⟩ := session_v3 h h3 hE ho hV hn hf'
  obtain ⟨st', tr', h1', h4⟩ := s3_v3_array_documents h h3 hz hrc hE ho hV hd hr hn hf hP hsrv hj old
  rw [h1] at h1'
  cases h1'
  refine ⟨st, tr, h1, h2, fun hsd => ?_⟩
  obtain ⟨o1, o2⟩ := s3_v3_opens_any h h3 hz hrc hr hE ho hV hd hn hf hP hsrv hj h1 hsd old
  refine ⟨o1, fun i => framesOfLevel cfg i calls.flatten, rfl, fun h8 => levels_meanPyramid h.base hd h8 _, ?_⟩
  intro i hi
  have hlen := framesOfLevel_length cfg i calls.flatten
  refine ⟨hlen, fun m shard hm hshard => ⟨fun h0 hold => ?_, fun hne hold => ?_⟩⟩
  · dsimp only at hm
    rw [hlen] at hm
    have := (h4 hsd i hi m hm).1 h0
    rw [← array_json_path] at this hold
    unfold loadV3 openV3 jsonFile
    simp only [this, hold]
    rfl
  · have hc : cfgs[i]? = some cfgs[i] := List.getElem?_eq_getElem hi
    generalize cfgs[i] = c at hc
    have hL := h.levelShape hz hd hc
    have hit := level_item h.valid hL
    have hmem := List.mem_of_getElem? hc
    obtain ⟨hv, hfit⟩ := h.levelDims.1 c hmem
    have hk : 0 < c.dims.append.shardSize := (h.levelFitsV3 h3 c hmem).pos c.dims.append (by simp [ArrayDims.toList])
    have hfb : c.dims.frameBytes = levelSize y.isChannel y.arraySize i * levelSize x.isChannel x.arraySize i *
        itemSize s.dataType := by
      unfold ArrayDims.frameBytes; rw [hit, hL.height, hL.width]
    have eF : framesPerAt i a inner = c.dims.framesPerChunk := hL.framesPer.symm
    have eK : shardAt i a = c.dims.append.shardSize := hL.shardSize.symm
    dsimp only at hm hold ⊢
    have hop := o2 i hi (by rw [← hlen, ← hm]; exact hne)
    rw [← hlen, ← hm] at hop
    rw [← hfb]
    refine v3_loads_from h hz hV hd hc (fun f hf => hs.sizes i c hc f (List.mem_of_mem_take hf)) hop ?_
    intro t j py px ht hj' hpy hpx
    have hP0 : 0 < prod (sizesAt i inner) := by rw [← hL.innerSizes]; exact prodA_pos (ArrayDims.innerOk hv hfit)
    rw [eF, eK] at hm hshard
    refine s3_v3_level_read h h3 hz hr hE ho hV hd (decodes_of (info := infoOf s a (inner ++ [y, x]) inner i m) hu rfl) hs hP hsz hsrv hj
      hc rfl (by rw [hshard]) hj' hpy hpx ?_
    intro hlt
    have hmle : m ≤ (framesOfLevel cfg i calls.flatten).length := by rw [hm]; exact docFrames_le _ _ _
    rw [lt_ceilDiv_iff hP0] at ht
    have hlow : t / c.dims.append.chunkSize / c.dims.append.shardSize * shard ≤ t * prod (sizesAt i inner) := by
      rw [hshard, ← hL.innerSizes]
      calc _ = t / c.dims.append.chunkSize / c.dims.append.shardSize * c.dims.append.shardSize * c.dims.append.chunkSize *
              prod (aShape c.dims.inner) := by
            rw [show c.dims.framesPerChunk = c.dims.append.chunkSize * prod (aShape c.dims.inner) from rfl]; ring
        _ ≤ _ := by
            apply Nat.mul_le_mul_right
            exact Nat.le_trans (Nat.mul_le_mul_right _ (Nat.div_mul_le_self _ _)) (Nat.div_mul_le_self _ _)
    rw [← hshard] at hlt
    have hq : t / c.dims.append.chunkSize / c.dims.append.shardSize = (framesOfLevel cfg i calls.flatten).length / shard :=
      (Nat.div_eq_of_lt_le (by omega) hlt).symm
    rw [hq]
    refine hold (fun e => ?_)
    rw [hq] at hlow
    rw [eF] at e
    unfold docFrames at hm
    rw [if_neg (by rw [e]; simp), ← hshard] at hm
    omega

end

/-- The same on S3: of five frames `5 6 7 8 9` a reader finds `7 8 0 0 0`. -/
theorem s3_v3_wrong_frames_violated {srv : Text → Nat → Reply} (hsrv : ∀ p, Spec.Healthy (srv p)) {junk : Bytes}
    (hj : junk.length = 5 * 2 ^ 20) :
    ∃ st ns tr, runStream Sample.world Sample.env 9 (Sample.slabS3 3 2 2) [[5, 6, 7], [8, 9]] = some (.ok (st, ns, tr)) ∧ st.error = [] ∧
      loadV3 (fun p => (bucketAfter (5 * 2 ^ 20) srv junk (fun _ => none) tr p).object) (fun _ => none) "a".toList "0".toList =
        some (⟨[5, 1, 1], [2, 1, 1], [2, 1, 1], .unsigned, 1, false⟩, [7, 8, 0, 0, 0]) := by
  have hf : ∀ c ∈ ([[[5], [6], [7]], [[8], [9]]] : List (List Bytes)), ∀ f ∈ c, f.length = 1 := by decide
  have hS := Sample.slabS3Setup 2 2 (.inr rfl) (.inr rfl)
  obtain ⟨st, tr, h1, he, h2⟩ := s3_v3_loads_shown_partial (calls := [[[5], [6], [7]], [[8], [9]]]) hS (by decide)
    (by intro d hd; revert d; decide) (by intro c hc; cases hc) (Sample.slabS3Bucket 3 2 2)
    Sample.storageOk Sample.overhead rfl (inner := []) rfl (unblosc_none rfl)
    (by decide) hf (P := 5 * 2 ^ 20) (by decide) (by unfold ShardsFit; decide) hsrv hj (fun _ => none)
  have hsd := smallDocuments_of (calls := [[[5], [6], [7]], [[8], [9]]]) hS (inner := []) rfl
    (Sample.slabS3Bucket 3 2 2).located (by decide) hf h1 (P := 5 * 2 ^ 20) (by
      intro i c hc
      have hi : i = 0 := by
        have := (List.getElem?_eq_some_iff.1 hc).1
        simpa using this
      subst hi
      cases hc
      decide +kernel) (by decide +kernel)
  obtain ⟨_, L, k2, _, k3⟩ := h2 hsd
  obtain ⟨l0, k0⟩ := k3 0 (by decide)
  have k := (k0 _ _ rfl rfl).2
  rw [k2] at k
  exact ⟨st, _, tr, h1, he, k (by decide) (fun _ _ => rfl)⟩

end AZ.S3
