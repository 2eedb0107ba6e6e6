import Verif.Props.S3Reader
import Verif.Props.S3Crash

set_option linter.unusedSimpArgs false

/-!
# C97: a new dataset in a bucket where another one was

Creating an S3 stream removes nothing from the bucket (a filesystem stream begins by deleting the store directory, C49). `old` below
is the bucket before the session, for example with the objects of an earlier session at the same place.
-/

namespace AZ.S3
open Spec

section
variable {w : World} {env : Env} {fuel : Nat} {s : Settings} {cfg : WConfig} {cfgs : List WConfig}
  {a y x : DimProps} {inner : List DimProps} {root : Text} {calls : List (List Bytes)}

/-- **C97, the part that holds**, Zarr V2: a reader finds the same levels, and the same contents in every level that received a frame,
whatever was in the bucket before. Missing: listed levels without a frame (`s3_v2_old_level_violated`). -/
theorem s3_v2_replaced_partial (h : Setup w fuel s cfg cfgs) (hz : SizesInRange s) (hrc : RealCodec s) (hr : InBucket s root)
    (hE : StorageOk env s) (hne : NonemptyOutput env s) (ho : SmallOverhead env) (hV : s.version = 2)
    (hd : s.dimensions = some (a :: (inner ++ [y, x])))
    {unblosc : Bytes → Option Bytes} (hu : Unblosc env s unblosc) (hn : calls.flatten.length < 2 ^ 32)
    (hf : ∀ c ∈ calls, ∀ f ∈ c, f.length = y.arraySize * x.arraySize * itemSize s.dataType)
    {P : Nat} (hP : 0 < P)
    (hsz : prod ((a :: (inner ++ [y, x])).map (·.chunkSize)) * itemSize s.dataType + 16 ≤ P * (2 ^ 32 - 1))
    {srv : Text → Nat → Reply} (hsrv : ∀ p, Spec.Healthy (srv p)) {junk : Bytes} (hj : junk.length = P) :
    ∃ st tr, runStream w env fuel s (calls.map List.flatten) =
        some (.ok (st, calls.map (fun c => c.flatten.length), tr)) ∧ st.error = [] ∧ (SmallDocuments s root cfgs.length P tr →
      ∀ old : Text → Option Bytes,
      levelsV2 (fun p => (bucketAfter P srv junk old tr p).object) root =
        levelsV2 (fun p => (bucketAfter P srv junk (fun _ => none) tr p).object) root ∧
      ∀ i, i < cfgs.length → calls.flatten.length / 2 ^ i ≠ 0 →
        loadV2 (fun p => (bucketAfter P srv junk old tr p).object) unblosc (root ++ '/' :: (decimal i ++ ['/'])) =
          loadV2 (fun p => (bucketAfter P srv junk (fun _ => none) tr p).object) unblosc (root ++ '/' :: (decimal i ++ ['/'])) ∧
        (loadV2 (fun p => (bucketAfter P srv junk old tr p).object) unblosc (root ++ '/' :: (decimal i ++ ['/']))).isSome) := by
  obtain ⟨st, tr, h1, h2, h3⟩ := s3_v2_loads_any h hz hrc hr hE hne ho hV hd hu hn hf hP hsz hsrv hj
  refine ⟨st, tr, h1, h2, fun hsd old => ?_⟩
  obtain ⟨k1, k2⟩ := h3 hsd old
  obtain ⟨l1, l2⟩ := h3 hsd (fun _ => none)
  refine ⟨by rw [k1, l1], fun i hi h0 => ?_⟩
  rw [← framesOfLevel_length cfg i calls.flatten] at h0
  rw [k2 i hi h0, l2 i hi h0]
  exact ⟨rfl, rfl⟩

/-- **C97 is false** for a listed level `i` without a frame: the reader finds there what it would have found before the session. -/
theorem s3_v2_old_level_violated (h : Setup w fuel s cfg cfgs) (hr : InBucket s root)
    (hE : StorageOk env s) (hV : s.version = 2)
    (hd : s.dimensions = some (a :: (inner ++ [y, x]))) (hn : calls.flatten.length < 2 ^ 32)
    (hf : ∀ c ∈ calls, ∀ f ∈ c, f.length = y.arraySize * x.arraySize * itemSize s.dataType) :
    ∃ st tr, runStream w env fuel s (calls.map List.flatten) =
        some (.ok (st, calls.map (fun c => c.flatten.length), tr)) ∧ st.error = [] ∧
      ∀ (P : Nat) (srv : Text → Nat → Reply) (junk : Bytes) (old : Text → Option Bytes) (unblosc : Bytes → Option Bytes),
      ∀ i, i < cfgs.length → calls.flatten.length < 2 ^ i →
      ∀ info data, info.shape ≠ [] → info.chunks ≠ [] →
        loadV2 old unblosc (root ++ '/' :: (decimal i ++ ['/'])) = some (info, data) →
        loadV2 (fun p => (bucketAfter P srv junk old tr p).object) unblosc (root ++ '/' :: (decimal i ++ ['/'])) =
          some (info, data) := by
  have hD := dimsOf h.valid h.commit hd
  rw [← hD.frame] at hf
  obtain ⟨st, tr, h1, h2, h3⟩ := session_v2 h hE hV hn hf
  refine ⟨st, tr, h1, h2, fun P srv junk old unblosc i hi hlt info data hs0 hc0 hl => ?_⟩
  rw [show root ++ '/' :: (decimal i ++ ['/']) = levelDir root i by unfold levelDir; simp] at hl ⊢
  have hc : cfgs[i]? = some cfgs[i] := List.getElem?_eq_getElem hi
  generalize cfgs[i] = c at hc
  have hdir := levelDir_located h hr.located hc
  have hlen := framesOfLevel_length cfg i calls.flatten
  rw [Nat.div_eq_of_lt hlt] at hlen
  have hkeep : ∀ p, Owned c p → (bucketAfter P srv junk old tr p).object = old p := by
    intro p hp
    unfold bucketAfter
    have hlv := h3.level i c hc p hp
    obtain ⟨hv, hfit⟩ := h.levelDims.1 c (List.mem_of_getElem? hc)
    rw [objAfter_filter, hlv, hlen, runEventsV2_eq env hv hfit]
    have hg : groups c 0 = 0 := by
      unfold groups ceilDiv
      exact Nat.div_eq_of_lt (by have := ArrayDims.framesPerChunk_pos hv hfit; omega)
    rw [hg]
    rfl
  have hdoc : (bucketAfter P srv junk old tr (levelDir root i ++ ".zarray".toList)).object =
      old (levelDir root i ++ ".zarray".toList) := by
    rw [zarray_path]
    apply hkeep
    left
    have := hr.located.arrayDoc h hc
    rw [hV] at this
    exact this.symm
  have hchunk : ∀ g l, (bucketAfter P srv junk old tr (levelDir root i ++ chunkKey (g :: l))).object =
      old (levelDir root i ++ chunkKey (g :: l)) := by
    intro g l
    apply hkeep
    right
    exact ⟨g, l, by rw [objectPath_key (h.versionV2 hV c (List.mem_of_getElem? hc)), hdir]⟩
  have hopen : openV2 (fun p => (bucketAfter P srv junk old tr p).object) (levelDir root i) = openV2 old (levelDir root i) := by
    have hj : jsonFile (fun p => (bucketAfter P srv junk old tr p).object) (levelDir root i ++ ".zarray".toList) =
        jsonFile old (levelDir root i ++ ".zarray".toList) := congrArg (·.bind jsonOf) hdoc
    unfold openV2
    rw [hj]
  unfold loadV2 at hl ⊢
  rw [hopen]
  cases ho : openV2 old (levelDir root i) with
  | none => rw [ho] at hl; cases hl
  | some info' =>
    rw [ho] at hl
    simp only [Option.bind_eq_bind, Option.bind_some, Option.pure_def] at hl ⊢
    obtain ⟨items, m1, m2⟩ := Option.bind_eq_some_iff.1 hl
    have m3 : info' = info := by
      have := Option.some.inj m2
      exact (Prod.mk.inj this).1
    subst m3
    have hread : (fun k => readV2 (fun p => (bucketAfter P srv junk old tr p).object) (levelDir root i) (info'.decoder unblosc)
        info'.chunks info'.itemSize (unravel info'.shape k)) = fun k => readV2 old (levelDir root i) (info'.decoder unblosc)
        info'.chunks info'.itemSize (unravel info'.shape k) := by
      funext k
      apply readV2_congr
      cases hcs : info'.chunks with
      | nil => exact absurd hcs hc0
      | cons c0 cs =>
        cases hss : info'.shape with
        | nil => exact absurd hss hs0
        | cons d ds => exact hchunk _ _
    rw [hread, m1]
    exact m2

/-- A shard of any level whose frames have not all been appended keeps the object it had. -/
theorem s3_v3_old_shard (h : Setup w fuel s cfg cfgs) (h3 : cfg.dims.FitsV3) (hz : SizesInRange s) (hr : InBucket s root)
    (ho : SmallOverhead env) (hV : s.version = 3) (hd : s.dimensions = some (a :: (inner ++ [y, x]))) {frames : List Bytes}
    {tr : List Ev} (hs : SessionV3 env cfg cfgs frames tr) {P : Nat} (hP : 0 < P) (hsz : ShardsFit s (a :: (inner ++ [y, x])) P)
    {srv : Text → Nat → Reply} (hsrv : ∀ p, Spec.Healthy (srv p)) {junk : Bytes} (hj : junk.length = P)
    (old : Text → Option Bytes) {i : Nat} (hi : i < cfgs.length) (G : Nat) (l : List Nat) :
    ((G + 1) * (framesPerAt i a inner * shardAt i a) ≤ frames.length / 2 ^ i →
      InBounds (List.zipWith ceilDiv (List.zipWith ceilDiv (sizesAt i (inner ++ [y, x])) (chunksAt i (inner ++ [y, x])))
        (shardsAt i (inner ++ [y, x]))) l →
      (bucketAfter P srv junk old tr (levelDirV3 root i ++ chunkKey (G :: l))).object =
        (bucketAfter P srv junk (fun _ => none) tr (levelDirV3 root i ++ chunkKey (G :: l))).object) ∧
    (frames.length / 2 ^ i < (G + 1) * (framesPerAt i a inner * shardAt i a) →
      (bucketAfter P srv junk old tr (levelDirV3 root i ++ chunkKey (G :: l))).object =
        old (levelDirV3 root i ++ chunkKey (G :: l))) := by
  obtain ⟨hK, hka⟩ := shards_of h.commit hd
  have hc : cfgs[i]? = some cfgs[i] := List.getElem?_eq_getElem hi
  generalize cfgs[i] = c at hc
  have hL := h.levelShape hz hd hc
  have hsh := fun o => s3_level_shard h h3 hr ho hV hs hP (by
    unfold ShardsFit at hsz
    rw [hK, setup_chunkBytes h hd]
    exact hsz) hsrv hj o hc G l
  have hFP : c.dims.framesPerChunk = framesPerAt i a inner := hL.framesPer
  have hk : c.dims.append.shardSize = shardAt i a := hL.shardSize
  rw [hFP, hk, framesOfLevel_length] at hsh
  have e : (G + 1) * shardAt i a * framesPerAt i a inner = (G + 1) * (framesPerAt i a inner * shardAt i a) := by
    rw [Nat.mul_assoc, Nat.mul_comm (shardAt i a)]
  rw [e] at hsh
  refine ⟨fun hfull hin => ?_, fun hlt => ?_⟩
  · have hin' : InBounds (mShape c.dims.tailDims) l := by
      rw [← ArrayDims.mShape_zip, ← zipWith_ceilDiv, hL.tail]
      have e1 : cShape c.dims.tailDims = chunksAt i (inner ++ [y, x]) := (List.cons.inj hL.chunks).2
      have e2 : kShape c.dims.tailDims = shardsAt i (inner ++ [y, x]) := (List.cons.inj hL.shards).2
      rw [e1, e2]
      exact hin
    rw [hsh, hsh, if_pos ⟨hfull, hin'⟩, if_pos ⟨hfull, hin'⟩]
  · rw [hsh, if_neg (fun hh => Nat.not_le_of_lt hlt hh.1)]


/-- A reader opens a V3 level of the new dataset, whatever was in the bucket. -/
theorem s3_v3_opens_any (h : Setup w fuel s cfg cfgs) (h3 : cfg.dims.FitsV3) (hz : SizesInRange s) (hrc : RealCodec s)
    (hr : InBucket s root) (hE : StorageOk env s) (ho : SmallOverhead env) (hV : s.version = 3)
    (hd : s.dimensions = some (a :: (inner ++ [y, x]))) (hn : calls.flatten.length < 2 ^ 32)
    (hf : ∀ c ∈ calls, ∀ f ∈ c, f.length = y.arraySize * x.arraySize * itemSize s.dataType)
    {P : Nat} (hP : 0 < P)
    {srv : Text → Nat → Reply} (hsrv : ∀ p, Spec.Healthy (srv p)) {junk : Bytes} (hj : junk.length = P)
    {st : SState} {ns : List Nat} {tr : List Ev} (hrun : runStream w env fuel s (calls.map List.flatten) = some (.ok (st, ns, tr)))
    (hsd : SmallDocuments s root cfgs.length P tr) (old : Text → Option Bytes) :
    levelsV3 (fun p => (bucketAfter P srv junk old tr p).object) root = some ((List.range cfgs.length).map decimal) ∧
    ∀ i, i < cfgs.length → docFrames (framesPerAt i a inner) (shardAt i a) (calls.flatten.length / 2 ^ i) ≠ 0 →
      openV3 (fun p => (bucketAfter P srv junk old tr p).object) root (decimal i) = some (infoOf s a (inner ++ [y, x]) inner i
        (docFrames (framesPerAt i a inner) (shardAt i a) (calls.flatten.length / 2 ^ i))) := by
  have h2' : ¬ s.version = 2 := by rw [hV]; decide
  refine ⟨?_, fun i hi h0 => ?_⟩
  · obtain ⟨b1, f1, d1⟩ := s3_stream_document_of h hE hd hr hn hf hrun hP hsrv hj old hsd (name := "meta/root.group.json")
      (by unfold streamDocNames; rw [if_neg h2']; simp) (by decide) (v3_external_ne h hV (by decide)) (by
        rintro b ⟨v, _, _, hb, _⟩ rfl
        exact empty_not_json v hb)
    obtain ⟨b2, f2, d2⟩ := s3_stream_document_of h hE hd hr hn hf hrun hP hsrv hj old hsd (name := "zarr.json")
      (by unfold streamDocNames; rw [if_neg h2']; simp) (by decide) (v3_external_ne h hV (by decide)) (by
        rintro b ⟨v, hb, _⟩ rfl
        exact empty_not_json v hb)
    exact v3_levels_from (file := fun p => (bucketAfter P srv junk old tr p).object) f1 d1 f2 d2
  · obtain ⟨st', tr', h1', h4⟩ := s3_v3_array_documents h h3 hz hrc hE ho hV hd hr hn hf hP hsrv hj old
    rw [hrun] at h1'
    cases h1'
    obtain ⟨b, v, b1, b2, b3⟩ := (h4 hsd i hi _ rfl).2 h0
    exact v3_opens (f := fun p => (bucketAfter P srv junk old tr p).object) (b := b) h hV
      (by show (bucketAfter P srv junk old tr _).object = _; rw [b1]) b2 b3

theorem mapM_congr {α β : Type} {f g : α → Option β} {l : List α} (h : ∀ a ∈ l, f a = g a) : l.mapM f = l.mapM g := by
  induction l with
  | nil => rfl
  | cons a l ih => rw [List.mapM_cons, List.mapM_cons, h a List.mem_cons_self, ih fun b hb => h b (List.mem_cons_of_mem _ hb)]

/-- A reader looks at the array document and at the shards inside the shape. -/
theorem loadV3_congr {f g : Text → Option Bytes} {unblosc : Bytes → Option Bytes} {root name : Text} {info : ArrayInfo}
    (hf : openV3 f root name = some info) (hg : openV3 g root name = some info)
    (h : ∀ z, InBounds info.shape z →
      f (root ++ "/data/root/".toList ++ name ++ "/c".toList ++ chunkKey (gridOf info.shards (gridOf info.chunks z))) =
      g (root ++ "/data/root/".toList ++ name ++ "/c".toList ++ chunkKey (gridOf info.shards (gridOf info.chunks z)))) :
    loadV3 f unblosc root name = loadV3 g unblosc root name := by
  unfold loadV3
  rw [hf, hg]
  simp only [Option.bind_eq_bind, Option.bind_some, Option.pure_def]
  rw [mapM_congr fun k hk => readV3_congr (h _ (unravel_inBounds (List.mem_range.1 hk)))]

/-- **C97, the part that holds**, Zarr V3: a reader finds the same levels, and the same contents in every level that received a whole
number of append chunks and filled a shard, whatever was in the bucket before. Missing: other levels (`s3_v3_old_frames_violated`). -/
theorem s3_v3_replaced_partial (h : Setup w fuel s cfg cfgs) (h3 : cfg.dims.FitsV3) (hz : SizesInRange s) (hrc : RealCodec s)
    (hr : InBucket s root) (hE : StorageOk env s) (ho : SmallOverhead env) (hV : s.version = 3)
    (hd : s.dimensions = some (a :: (inner ++ [y, x]))) (hn : calls.flatten.length < 2 ^ 32)
    (hf : ∀ c ∈ calls, ∀ f ∈ c, f.length = y.arraySize * x.arraySize * itemSize s.dataType)
    {P : Nat} (hP : 0 < P) (hsz : ShardsFit s (a :: (inner ++ [y, x])) P)
    {srv : Text → Nat → Reply} (hsrv : ∀ p, Spec.Healthy (srv p)) {junk : Bytes} (hj : junk.length = P) :
    ∃ st tr, runStream w env fuel s (calls.map List.flatten) =
        some (.ok (st, calls.map (fun c => c.flatten.length), tr)) ∧ st.error = [] ∧ (SmallDocuments s root cfgs.length P tr →
      ∀ (old : Text → Option Bytes) (unblosc : Bytes → Option Bytes),
      levelsV3 (fun p => (bucketAfter P srv junk old tr p).object) root =
        levelsV3 (fun p => (bucketAfter P srv junk (fun _ => none) tr p).object) root ∧
      ∀ i, i < cfgs.length → calls.flatten.length / 2 ^ i % framesPerAt i a inner = 0 →
        framesPerAt i a inner * shardAt i a ≤ calls.flatten.length / 2 ^ i →
        loadV3 (fun p => (bucketAfter P srv junk old tr p).object) unblosc root (decimal i) =
          loadV3 (fun p => (bucketAfter P srv junk (fun _ => none) tr p).object) unblosc root (decimal i) ∧
        (openV3 (fun p => (bucketAfter P srv junk old tr p).object) root (decimal i)).isSome) := by
  have hD := dimsOf h.valid h.commit hd
  have hf' := hf
  rw [← hD.frame] at hf'
  obtain ⟨st, tr, h1, h2, hs⟩ := session_v3 h h3 hE ho hV hn hf'
  refine ⟨st, tr, h1, h2, fun hsd old unblosc => ?_⟩
  have hop := fun o => s3_v3_opens_any h h3 hz hrc hr hE ho hV hd hn hf hP hsrv hj h1 hsd o
  refine ⟨by rw [(hop old).1, (hop _).1], fun i hi hm hle => ?_⟩
  have hc : cfgs[i]? = some cfgs[i] := List.getElem?_eq_getElem hi
  generalize cfgs[i] = c at hc
  have hL := h.levelShape hz hd hc
  have hmem := List.mem_of_getElem? hc
  obtain ⟨hv, hfit⟩ := h.levelDims.1 c hmem
  have hf3 := h.levelFitsV3 h3 c hmem
  have hF0 : 0 < framesPerAt i a inner := by
    have := ArrayDims.framesPerChunk_pos hv hfit
    rwa [show c.dims.framesPerChunk = framesPerAt i a inner from hL.framesPer] at this
  have hK0 : 0 < shardAt i a := by
    have := hf3.pos c.dims.append (by simp [ArrayDims.toList])
    rwa [show c.dims.append.shardSize = shardAt i a from hL.shardSize] at this
  have hdf : docFrames (framesPerAt i a inner) (shardAt i a) (calls.flatten.length / 2 ^ i) =
      calls.flatten.length / 2 ^ i / (framesPerAt i a inner * shardAt i a) * (framesPerAt i a inner * shardAt i a) := by
    unfold docFrames
    rw [if_neg (by omega)]
  have hq : 0 < calls.flatten.length / 2 ^ i / (framesPerAt i a inner * shardAt i a) :=
    Nat.div_pos hle (Nat.mul_pos hF0 hK0)
  have hqle := Nat.div_mul_le_self (calls.flatten.length / 2 ^ i) (framesPerAt i a inner * shardAt i a)
  have hop' := fun o => (hop o).2 i hi (by
    rw [hdf]
    exact Nat.ne_of_gt (Nat.mul_pos hq (Nat.mul_pos hF0 hK0)))
  rw [hdf] at hop'
  refine ⟨loadV3_congr (hop' old) (hop' (fun _ => none)) ?_, by rw [hop']; rfl⟩
  have hsh : ∀ m, (infoOf s a (inner ++ [y, x]) inner i m).shards = shardsAt i (a :: (inner ++ [y, x])) := by
    intro m
    unfold infoOf
    exact if_neg (by rw [hV]; decide)
  rw [hsh, data_path]
  intro z hzb
  match z, hzb with
  | t :: z, hzb =>
    have ht : t < ceilDiv (calls.flatten.length / 2 ^ i / (framesPerAt i a inner * shardAt i a) *
      (framesPerAt i a inner * shardAt i a)) (prod (sizesAt i inner)) := hzb.1
    have hz' : InBounds (sizesAt i (inner ++ [y, x])) z := hzb.2
    refine (s3_v3_old_shard h h3 hz hr ho hV hd hs hP hsz hsrv hj old hi
      (t / levelChunk a.isChannel a.arraySize a.chunkSize i / shardAt i a) _).1 ?_ ?_
    · have hP0 : 0 < prod (sizesAt i inner) := by
        apply Nat.pos_of_ne_zero
        intro e
        rw [e] at ht
        simp [ceilDiv] at ht
      rw [lt_ceilDiv_iff hP0] at ht
      refine Nat.le_trans (Nat.mul_le_mul_right _ (Nat.succ_le_of_lt ?_)) hqle
      apply Nat.lt_of_mul_lt_mul_right (a := framesPerAt i a inner * shardAt i a)
      refine Nat.lt_of_le_of_lt ?_ ht
      unfold framesPerAt
      have e1 := Nat.div_mul_le_self (t / levelChunk a.isChannel a.arraySize a.chunkSize i) (shardAt i a)
      have e2 := Nat.div_mul_le_self t (levelChunk a.isChannel a.arraySize a.chunkSize i)
      generalize t / levelChunk a.isChannel a.arraySize a.chunkSize i / shardAt i a = G at *
      generalize t / levelChunk a.isChannel a.arraySize a.chunkSize i = D at *
      generalize levelChunk a.isChannel a.arraySize a.chunkSize i = C at *
      generalize shardAt i a = K at *
      generalize prod (sizesAt i inner) = Q at *
      calc G * (C * Q * K) = G * K * C * Q := by ring
        _ ≤ D * C * Q := Nat.mul_le_mul_right _ (Nat.mul_le_mul_right _ e1)
        _ ≤ t * Q := Nat.mul_le_mul_right _ e2
    · have g1 := gridOf_inBounds (cs := cShape c.dims.tailDims) (fun k hk => by
        obtain ⟨d, hd, rfl⟩ := List.mem_map.1 hk
        exact hv.tail_chunk d hd) (by simp) (by rw [hL.tail]; exact hz' : InBounds (aShape c.dims.tailDims) z)
      have g2 := gridOf_inBounds (cs := kShape c.dims.tailDims) (ArrayDims.kTail_pos hf3) (by
        rw [zipWith_ceilDiv]; simp) g1
      rw [hL.tail, hL.tailChunks, show kShape c.dims.tailDims = shardsAt i (inner ++ [y, x]) from (List.cons.inj hL.shards).2] at g2
      exact g2

/-- **C97 is false** for Zarr V3 whenever the frames do not fill the append chunks: the new dataset counts the frames of its last shard, and
the reader finds in their place what was in the bucket before the session. (`t`: any step of a shard not all of whose frames were appended.) -/
theorem s3_v3_old_frames_violated (h : Setup w fuel s cfg cfgs) (h3 : cfg.dims.FitsV3) (hz : SizesInRange s) (hrc : RealCodec s)
    (hr : InBucket s root) (hE : StorageOk env s) (ho : SmallOverhead env) (hV : s.version = 3)
    (hd : s.dimensions = some (a :: (inner ++ [y, x]))) (hn : calls.flatten.length < 2 ^ 32)
    (hf : ∀ c ∈ calls, ∀ f ∈ c, f.length = y.arraySize * x.arraySize * itemSize s.dataType)
    {P : Nat} (hP : 0 < P) (hsz : ShardsFit s (a :: (inner ++ [y, x])) P)
    {srv : Text → Nat → Reply} (hsrv : ∀ p, Spec.Healthy (srv p)) {junk : Bytes} (hj : junk.length = P) :
    ∃ st tr, runStream w env fuel s (calls.map List.flatten) =
        some (.ok (st, calls.map (fun c => c.flatten.length), tr)) ∧ st.error = [] ∧ (SmallDocuments s root cfgs.length P tr →
      ∀ (old : Text → Option Bytes) (decode : Bytes → Option Bytes) (i : Nat), i < cfgs.length →
        calls.flatten.length / 2 ^ i % framesPerAt i a inner ≠ 0 →
        openV3 (fun p => (bucketAfter P srv junk old tr p).object) root (decimal i) =
          some (infoOf s a (inner ++ [y, x]) inner i (calls.flatten.length / 2 ^ i)) ∧
        ∀ (t : Nat) (z : List Nat), calls.flatten.length / 2 ^ i <
            (t / levelChunk a.isChannel a.arraySize a.chunkSize i / shardAt i a + 1) * (framesPerAt i a inner * shardAt i a) →
          readV3 (fun p => (bucketAfter P srv junk old tr p).object) (levelDirV3 root i) decode
            (chunksAt i (a :: (inner ++ [y, x]))) (shardsAt i (a :: (inner ++ [y, x]))) (itemSize s.dataType) (t :: z) =
          readV3 old (levelDirV3 root i) decode
            (chunksAt i (a :: (inner ++ [y, x]))) (shardsAt i (a :: (inner ++ [y, x]))) (itemSize s.dataType) (t :: z)) := by
  have hD := dimsOf h.valid h.commit hd
  have hf' := hf
  rw [← hD.frame] at hf'
  obtain ⟨st, tr, h1, h2, hs⟩ := session_v3 h h3 hE ho hV hn hf'
  refine ⟨st, tr, h1, h2, fun hsd old decode i hi hm => ⟨?_, fun t z hlt => ?_⟩⟩
  · have hdf : docFrames (framesPerAt i a inner) (shardAt i a) (calls.flatten.length / 2 ^ i) = calls.flatten.length / 2 ^ i := by
      unfold docFrames
      rw [if_pos hm]
    have := (s3_v3_opens_any h h3 hz hrc hr hE ho hV hd hn hf hP hsrv hj h1 hsd old).2 i hi (by
      rw [hdf]
      intro e
      rw [e, Nat.zero_mod] at hm
      exact hm rfl)
    rw [hdf] at this
    exact this
  · apply readV3_congr
    exact (s3_v3_old_shard h h3 hz hr ho hV hd hs hP hsz hsrv hj old hi
      (t / levelChunk a.isChannel a.arraySize a.chunkSize i / shardAt i a) _).2 hlt

end
end AZ.S3

namespace AZ.S3
open Spec

/-- Two sessions into the same place of a bucket, with the same settings: four frames of one pixel, then three. Every call of both succeeds.
The dataset has three frames; the third is the third frame of the first session. -/
theorem s3_v3_two_sessions_violated {srv : Text → Nat → Reply} (hsrv : ∀ p, Spec.Healthy (srv p)) {junk : Bytes}
    (hj : junk.length = 5 * 2 ^ 20) :
    ∃ st1 tr1 st2 tr2,
      runStream Sample.world Sample.env 9 (Sample.slabS3 3 2 1) [[1, 2], [3, 4]] = some (.ok (st1, [2, 2], tr1)) ∧ st1.error = [] ∧
      runStream Sample.world Sample.env 9 (Sample.slabS3 3 2 1) [[5, 6], [7]] = some (.ok (st2, [2, 1], tr2)) ∧ st2.error = [] ∧
      ∀ bucket, bucket = (fun p => (bucketAfter (5 * 2 ^ 20) srv junk
          (fun p => (bucketAfter (5 * 2 ^ 20) srv junk (fun _ => none) tr1 p).object) tr2 p).object) →
        openV3 bucket "a".toList "0".toList = some ⟨[3, 1, 1], [2, 1, 1], [1, 1, 1], .unsigned, 1, false⟩ ∧
        readV3 bucket "a/data/root/0/c".toList some [2, 1, 1] [1, 1, 1] 1 [2, 0, 0] = some [3] := by
  have hS := Sample.slabS3Setup 2 1 (.inr rfl) (.inl rfl)
  have hf1 : ∀ c ∈ ([[[1], [2]], [[3], [4]]] : List (List Bytes)), ∀ f ∈ c, f.length = 1 := by decide
  have hf2 : ∀ c ∈ ([[[5], [6]], [[7]]] : List (List Bytes)), ∀ f ∈ c, f.length = 1 := by decide
  obtain ⟨st1, tr1, a1, a2, _, a3⟩ := s3_v3_uploaded_partial (calls := [[[1], [2]], [[3], [4]]]) (decode := some) hS
    (by decide) (Sample.slabS3Bucket 3 2 1) Sample.storageOk Sample.overhead rfl (inner := []) rfl (fun _ => rfl) (by decide) hf1
    (P := 5 * 2 ^ 20) (by decide) (by unfold ShardsFit; decide) hsrv hj (fun _ => none) (by decide)
  obtain ⟨st2, tr2, b1, b2, b3⟩ := s3_v3_old_frames_violated (calls := [[[5], [6]], [[7]]]) hS
    (by decide) (by intro d hd; revert d; decide) (by intro c hc; cases hc) (Sample.slabS3Bucket 3 2 1)
    Sample.storageOk Sample.overhead rfl (inner := []) rfl (by decide) hf2
    (P := 5 * 2 ^ 20) (by decide) (by unfold ShardsFit; decide) hsrv hj
  have hsd := smallDocuments_of (calls := [[[5], [6]], [[7]]]) hS (inner := []) rfl
    (Sample.slabS3Bucket 3 2 1).located (by decide) hf2 b1 (P := 5 * 2 ^ 20) (by
      intro i c hc
      have hi : i = 0 := by
        have := (List.getElem?_eq_some_iff.1 hc).1
        simpa using this
      subst hi
      cases hc
      decide +kernel) (by decide +kernel)
  refine ⟨st1, tr1, st2, tr2, a1, a2, b1, b2, ?_⟩
  rintro bucket rfl
  obtain ⟨k1, k2⟩ := b3 hsd (fun p => (bucketAfter (5 * 2 ^ 20) srv junk (fun _ => none) tr1 p).object) some 0 (by decide) (by decide)
  refine ⟨k1, ?_⟩
  have e := k2 2 [0, 0] (by decide)
  have r := a3 rfl (fun _ _ => rfl) 2 [] 0 0 trivial (by decide) (by decide)
  exact e.trans r

/-- The same for Zarr V2 with several levels: two frames, then one frame. The new dataset has one frame and so nothing at level 1 (which holds one
frame per two); it lists level 1, and a reader finds there the frame of level 1 of the first session. -/
theorem s3_v2_two_sessions_violated {srv : Text → Nat → Reply} (hsrv : ∀ p, Spec.Healthy (srv p)) {junk : Bytes}
    (hj : junk.length = 5 * 2 ^ 20) :
    ∃ st1 tr1 st2 tr2,
      runStream Sample.world Sample.env 9 Sample.duoS3 [List.replicate 16 8, List.replicate 16 10] = some (.ok (st1, [16, 16], tr1)) ∧
      st1.error = [] ∧
      runStream Sample.world Sample.env 9 Sample.duoS3 [List.replicate 16 1] = some (.ok (st2, [16], tr2)) ∧ st2.error = [] ∧
      ∀ before after, before = (fun p => (bucketAfter (5 * 2 ^ 20) srv junk (fun _ => none) tr1 p).object) →
        after = (fun p => (bucketAfter (5 * 2 ^ 20) srv junk before tr2 p).object) →
        levelsV2 after "a".toList = some ["0".toList, "1".toList, "2".toList] ∧
        loadV2 after (fun _ => none) "a/0/".toList = some (⟨[1, 4, 4], [1, 2, 2], [], .unsigned, 1, false⟩, List.replicate 16 1) ∧
        ∃ data, loadV2 before (fun _ => none) "a/1/".toList = some (⟨[1, 2, 2], [1, 2, 2], [], .unsigned, 1, false⟩, data) ∧
          loadV2 after (fun _ => none) "a/1/".toList = some (⟨[1, 2, 2], [1, 2, 2], [], .unsigned, 1, false⟩, data) := by
  obtain ⟨cfg, cfgs, hS, hdoc, hlen⟩ : ∃ cfg cfgs, Setup Sample.world 9 Sample.duoS3 cfg cfgs ∧
      ((∀ c ∈ cfgs, (docFor c 1).length < 5 * 2 ^ 20 ∧ (docFor c 2).length < 5 * 2 ^ 20 ∧ (docFor c 0).length < 5 * 2 ^ 20) ∧
        ∀ key ∈ metaKeys cfg.version, ∀ d ∈ docsFor Sample.world Sample.duoS3 cfg cfgs.length key, d.length < 5 * 2 ^ 20) ∧
      cfgs.length = 3 := by
    exact ⟨_, _, ⟨rfl, rfl, rfl, rfl, by decide, fun _ => by decide⟩, ⟨by decide +kernel, by decide +kernel⟩, by decide⟩
  have hf1 : ∀ c ∈ ([[List.replicate 16 8], [List.replicate 16 10]] : List (List Bytes)), ∀ f ∈ c, f.length = 16 := by decide
  have hf2 : ∀ c ∈ ([[List.replicate 16 1]] : List (List Bytes)), ∀ f ∈ c, f.length = 16 := by decide
  have hr : InBucket Sample.duoS3 "a".toList := ⟨rfl, _, rfl, by decide⟩
  have hz : SizesInRange Sample.duoS3 := by intro d hd; revert d; decide
  have hrc : RealCodec Sample.duoS3 := by intro c hc; cases hc
  obtain ⟨st1, tr1, a1, a2, a3⟩ := s3_v2_self_describing (calls := [[List.replicate 16 8], [List.replicate 16 10]]) hS hz hrc hr
    Sample.storageOk Sample.nonempty Sample.overhead rfl (inner := []) rfl (unblosc_none rfl)
    (by decide) hf1 (P := 5 * 2 ^ 20) (by decide) (by decide) hsrv hj (fun _ => none)
  obtain ⟨st2, tr2, b1, b2, b3⟩ := s3_v2_old_level_violated (calls := [[List.replicate 16 1]]) hS hr Sample.storageOk rfl
    (inner := []) rfl (by decide) hf2
  refine ⟨st1, tr1, st2, tr2, a1, a2, b1, b2, ?_⟩
  rintro before after rfl rfl
  obtain ⟨st2', tr2', c1, _, c3⟩ := s3_v2_self_describing (calls := [[List.replicate 16 1]]) hS hz hrc hr
    Sample.storageOk Sample.nonempty Sample.overhead rfl (inner := []) rfl (unblosc_none rfl)
    (by decide) hf2 (P := 5 * 2 ^ 20) (by decide) (by decide) hsrv hj
    (fun p => (bucketAfter (5 * 2 ^ 20) srv junk (fun _ => none) tr1 p).object)
  rw [b1] at c1
  cases c1
  have hd1 := smallDocuments_of (calls := [[List.replicate 16 8], [List.replicate 16 10]]) hS (inner := []) rfl
    hr.located (by decide) hf1 a1 (P := 5 * 2 ^ 20) (by
      intro i c hc
      have hi : i < 3 := by rw [← hlen]; exact (List.getElem?_eq_some_iff.1 hc).1
      obtain ⟨q1, q2, q3⟩ := hdoc.1 c (List.mem_of_getElem? hc)
      match i, hi with
      | 0, _ => exact q2
      | 1, _ => exact q1
      | 2, _ => exact q3) hdoc.2
  have hd2 := smallDocuments_of (calls := [[List.replicate 16 1]]) hS (inner := []) rfl
    hr.located (by decide) hf2 b1 (P := 5 * 2 ^ 20) (by
      intro i c hc
      have hi : i < 3 := by rw [← hlen]; exact (List.getElem?_eq_some_iff.1 hc).1
      obtain ⟨q1, q2, q3⟩ := hdoc.1 c (List.mem_of_getElem? hc)
      match i, hi with
      | 0, _ => exact q1
      | 1, _ => exact q3
      | 2, _ => exact q3) hdoc.2
  obtain ⟨_, L, l1, _, l2⟩ := a3 hd1
  obtain ⟨m1, M, m2, _, m3⟩ := c3 hd2
  rw [hlen] at m1
  obtain ⟨n1, n2⟩ := l2 1 (by omega)
  obtain ⟨info1, o1, o2⟩ := n2 (by rw [n1]; decide)
  rw [n1] at o2
  obtain ⟨p1, p2⟩ := m3 0 (by omega)
  obtain ⟨info0, r1, r2⟩ := p2 (by rw [p1]; decide)
  rw [p1] at r2
  subst o2
  subst r2
  rw [m2] at r1
  refine ⟨m1, r1, _, o1, ?_⟩
  exact b3 (5 * 2 ^ 20) srv junk _ (fun _ => none) 1 (by omega) (by decide) _ _ (List.cons_ne_nil _ _) (List.cons_ne_nil _ _) o1

end AZ.S3
