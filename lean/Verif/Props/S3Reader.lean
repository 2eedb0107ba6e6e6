import Verif.Props.Reader
import Verif.Props.S3Documents

set_option linter.unusedSimpArgs false

/-!
# C83: a finished dataset in a bucket describes itself

The reader of `Spec.Reader` applied to the objects of a bucket after an S3 session.
-/

namespace AZ.S3
open Spec

section
variable {w : World} {env : Env} {fuel : Nat} {s : Settings} {cfg : WConfig} {cfgs : List WConfig}
  {a y x : DimProps} {inner : List DimProps} {root : Text} {calls : List (List Bytes)} {st : SState} {ns : List Nat}
  {tr : List Ev}

/-- A stream-level document other than `0/.zattrs` and the external metadata is in the bucket. -/
theorem s3_stream_document_of (h : Setup w fuel s cfg cfgs) (hE : StorageOk env s)
    (hd : s.dimensions = some (a :: (inner ++ [y, x]))) (hr : InBucket s root) (hn : calls.flatten.length < 2 ^ 32)
    (hf : ∀ c ∈ calls, ∀ f ∈ c, f.length = y.arraySize * x.arraySize * itemSize s.dataType)
    (hrun : runStream w env fuel s (calls.map List.flatten) = some (.ok (st, ns, tr)))
    {P : Nat} (hP : 0 < P) {srv : Text → Nat → Reply} (hsrv : ∀ p, Spec.Healthy (srv p)) {junk : Bytes}
    (hj : junk.length = P) (old : Text → Option Bytes) (hsd : SmallDocuments s root cfgs.length P tr)
    {name : String} (hname : name ∈ streamDocNames s.version) (hne : name ≠ "0/.zattrs")
    (hext : name.toList ≠ externalKey cfg.version) (hprint : ∀ b, StreamDoc w s (a :: (inner ++ [y, x])) inner cfgs.length name b → b ≠ []) :
    ∃ b, (bucketAfter P srv junk old tr (root ++ '/' :: name.toList)).object = some b ∧
        StreamDoc w s (a :: (inner ++ [y, x])) inner cfgs.length name b := by
  have hk : name.toList ∈ metaKeys cfg.version := by
    rw [metaKeys_eq h.commit]; exact List.mem_map_of_mem hname
  obtain ⟨hF, hF0⟩ := frame_size h hd
  have hf' := hf
  rw [← hF] at hf'
  have hs := session_docs h.commit h.levels hF0 hf' hrun hk
  rw [hr.located.streamDoc h.commit, kept_all hE] at hs
  have hne' := docs_nonempty (w := w) h (fun e => absurd e hext) hname hne cfgs.length
  have hmem : (docsFor w s cfg cfgs.length name.toList).getLast?.getD [] ∈ docsFor w s cfg cfgs.length name.toList := by
    rw [List.getLast?_eq_some_getLast hne', Option.getD_some]
    exact List.getLast_mem hne'
  have hw : writesTo (root ++ '/' :: name.toList) tr = (docsFor w s cfg cfgs.length name.toList).map fun d => (0, d) := by
    rw [writesTo_about, hs, writesTo_session]
  have hdoc := (stream_documents_of h hd hr.located hf hrun hname (fun e => absurd e hext) (off := 0)
    (b := (docsFor w s cfg cfgs.length name.toList).getLast?.getD []) (by rw [hw]; exact List.mem_map_of_mem hmem)).2
  refine ⟨_, ?_, hdoc⟩
  rw [hsd.object h hd hr hn hf hrun (.inr ⟨name, hname, rfl⟩) hP hsrv hj old,
    (metadata_never_stale h hd hr.located hn hf hrun (List.prefix_refl tr)).2 name hname, lastDocument_filter, hs, lastDocument_docs]
  have hb := hprint _ hdoc
  generalize (docsFor w s cfg cfgs.length name.toList).getLast?.getD [] = b at *
  cases b with
  | nil => exact absurd rfl hb
  | cons c cs => rfl

/-- Reading an element of a V2 array looks at one chunk only. -/
theorem readV2_congr {f g : Text → Option Bytes} {dir : Text} {decode : Bytes → Option Bytes} {chunks : List Nat} {n : Nat}
    {z : List Nat} (h : f (dir ++ chunkKey (gridOf chunks z)) = g (dir ++ chunkKey (gridOf chunks z))) :
    readV2 f dir decode chunks n z = readV2 g dir decode chunks n z := by
  unfold readV2
  rw [h]

/-- The chunk of every element inside the shape of a V2 level was written. -/
theorem v2_key_written (h : Setup w fuel s cfg cfgs) (hz : SizesInRange s) (hV : s.version = 2)
    (hd : s.dimensions = some (a :: (inner ++ [y, x]))) {i : Nat} {c : WConfig} (hc : cfgs[i]? = some c) (fs : List Bytes)
    (hdir : arrayDirV2 c = levelDir root i) {t : Nat} {z : List Nat} (ht : t < ceilDiv fs.length (prod (sizesAt i inner)))
    (hi : InBounds (sizesAt i (inner ++ [y, x])) z) :
    ∃ b, fileAfter (levelDir root i ++ chunkKey (gridOf (chunksAt i (a :: (inner ++ [y, x]))) (t :: z)))
      (runEventsV2 env c fs.flatten fs.length) = some b := by
  have hL := h.levelShape hz hd hc
  obtain ⟨hv, hf⟩ := h.levelDims.1 c (List.mem_of_getElem? hc)
  have hFB := ArrayDims.framesPerChunk_pos hv hf
  rw [← hL.tail] at hi
  rw [← hL.chunks, ← hdir]
  have hgrid : gridOf (cShape c.dims.toList) (t :: z) =
      (t / c.dims.append.chunkSize) :: gridOf (cShape c.dims.tailDims) z := rfl
  have hgb := gridOf_inBounds (cs := cShape c.dims.tailDims) (fun k hk => by
    obtain ⟨d, hd, rfl⟩ := List.mem_map.1 hk
    exact hv.tail_chunk d hd) (by simp) hi
  rw [zipWith_ceilDiv] at hgb
  rw [hgrid, ← objectPath_key (h.versionV2 hV c (List.mem_of_getElem? hc))]
  generalize gridOf (cShape c.dims.tailDims) z = gl at *
  have hpath : objectPath c (t / c.dims.append.chunkSize) gl =
      chunkPath c (t / c.dims.append.chunkSize) (ravel (nShape c.dims.tailDims) gl) := by
    unfold chunkPath
    rw [unravel_ravel hgb]
  rw [hpath]
  have hP : 0 < prod (sizesAt i inner) := by
    apply Nat.pos_of_ne_zero
    intro e
    rw [e] at ht
    simp [ceilDiv] at ht
  refine ⟨_, fileAfter_chunk_v2 env hv hf _ ?_ (ravel_lt hgb)⟩
  unfold groups
  rw [lt_ceilDiv_iff hFB]
  rw [lt_ceilDiv_iff hP] at ht
  refine Nat.lt_of_le_of_lt ?_ ht
  have hFP : c.dims.framesPerChunk = framesPerAt i a inner := hL.framesPer
  rw [hFP]
  unfold framesPerAt
  rw [hL.append, ← Nat.mul_assoc]
  exact Nat.mul_le_mul_right _ (Nat.div_mul_le_self _ _)

/-- `v2_loads`, where other objects than the written ones may be there. -/
theorem v2_loads_written (h : Setup w fuel s cfg cfgs) (hz : SizesInRange s) (hE : StorageOk env s) (hV : s.version = 2)
    (hd : s.dimensions = some (a :: (inner ++ [y, x]))) {unblosc : Bytes → Option Bytes} (hu : Unblosc env s unblosc)
    {i : Nat} {c : WConfig} (hc : cfgs[i]? = some c) {fs : List Bytes} (hff : ∀ f ∈ fs, f.length = c.dims.frameBytes)
    {file : Text → Option Bytes} (hdir : arrayDirV2 c = levelDir root i)
    (hfile : ∀ g l b, fileAfter (levelDir root i ++ chunkKey (g :: l)) (runEventsV2 env c fs.flatten fs.length) = some b →
      file (levelDir root i ++ chunkKey (g :: l)) = some b)
    (ho : openV2 file (levelDir root i) = some (infoOf s a (inner ++ [y, x]) inner i fs.length)) :
    loadV2 file unblosc (levelDir root i) = some (infoOf s a (inner ++ [y, x]) inner i fs.length,
      paddedTo (prod (infoOf s a (inner ++ [y, x]) inner i fs.length).shape *
        (infoOf s a (inner ++ [y, x]) inner i fs.length).itemSize) fs) := by
  unfold loadV2
  rw [ho]
  have hroom := level_room h hz hd hc hff
  obtain ⟨items, m1, m2⟩ := read_all (T := ceilDiv fs.length (prod (sizesAt i inner)))
    (tail := sizesAt i (inner ++ [y, x])) (read := readV2 file (levelDir root i)
      ((infoOf s a (inner ++ [y, x]) inner i fs.length).decoder unblosc) (chunksAt i (a :: (inner ++ [y, x]))) (itemSize s.dataType))
    (fun t z ht hzb => by
      rw [readV2_congr (g := fun p => fileAfter p (runEventsV2 env c fs.flatten fs.length)) (by
        obtain ⟨b, hb⟩ := v2_key_written (env := env) h hz hV hd hc fs hdir ht hzb
        have hg : ∃ g l, gridOf (chunksAt i (a :: (inner ++ [y, x]))) (t :: z) = g :: l := ⟨_, _, rfl⟩
        obtain ⟨g, l, hg⟩ := hg
        rw [hg] at hb ⊢
        rw [hfile g l b hb]
        exact hb.symm)]
      exact v2_level_bytes_from h hz hE hV hd
        (decodes_of (info := infoOf s a (inner ++ [y, x]) inner i fs.length) hu rfl) hc hff hdir (fun _ _ => rfl) (t := t) hzb) hroom
  simp only [Option.bind_eq_bind, Option.bind_some, Option.pure_def]
  have m1' : ((List.range (prod (infoOf s a (inner ++ [y, x]) inner i fs.length).shape)).mapM fun k =>
      readV2 file (levelDir root i)
        ((infoOf s a (inner ++ [y, x]) inner i fs.length).decoder unblosc)
        (infoOf s a (inner ++ [y, x]) inner i fs.length).chunks
        (infoOf s a (inner ++ [y, x]) inner i fs.length).itemSize
        (unravel (infoOf s a (inner ++ [y, x]) inner i fs.length).shape k)) = some items := m1
  rw [m1']
  simp only [Option.bind_some]
  rw [m2]
  rfl

/-- What a reader finds in a bucket after a V2 session, whatever the bucket held before. -/
theorem s3_v2_loads_any (h : Setup w fuel s cfg cfgs) (hz : SizesInRange s) (hrc : RealCodec s) (hr : InBucket s root)
    (hE : StorageOk env s) (hne : NonemptyOutput env s) (ho : SmallOverhead env) (hV : s.version = 2)
    (hd : s.dimensions = some (a :: (inner ++ [y, x])))
    {unblosc : Bytes → Option Bytes} (hu : Unblosc env s unblosc) (hn : calls.flatten.length < 2 ^ 32)
    (hf : ∀ c ∈ calls, ∀ f ∈ c, f.length = y.arraySize * x.arraySize * itemSize s.dataType)
    {P : Nat} (hP : 0 < P)
    (hsz : prod ((a :: (inner ++ [y, x])).map (·.chunkSize)) * itemSize s.dataType + 16 ≤ P * (2 ^ 32 - 1))
    {srv : Text → Nat → Reply} (hsrv : ∀ p, Spec.Healthy (srv p)) {junk : Bytes} (hj : junk.length = P) :
    ∃ st tr, runStream w env fuel s (calls.map List.flatten) =
        some (.ok (st, calls.map (fun c => c.flatten.length), tr)) ∧ st.error = [] ∧ (SmallDocuments s root cfgs.length P tr →
      ∀ old : Text → Option Bytes,
      levelsV2 (fun p => (bucketAfter P srv junk old tr p).object) root = some ((List.range cfgs.length).map decimal) ∧
      ∀ i, i < cfgs.length → (framesOfLevel cfg i calls.flatten).length ≠ 0 →
        loadV2 (fun p => (bucketAfter P srv junk old tr p).object) unblosc (root ++ '/' :: (decimal i ++ ['/'])) =
          some (infoOf s a (inner ++ [y, x]) inner i (framesOfLevel cfg i calls.flatten).length,
            paddedTo (prod (infoOf s a (inner ++ [y, x]) inner i (framesOfLevel cfg i calls.flatten).length).shape *
              (infoOf s a (inner ++ [y, x]) inner i (framesOfLevel cfg i calls.flatten).length).itemSize)
              (framesOfLevel cfg i calls.flatten))) := by
  have hD := dimsOf h.valid h.commit hd
  have hf' := hf
  rw [← hD.frame] at hf'
  have hsz' := hsz
  rw [← setup_chunkBytes h hd] at hsz'
  obtain ⟨st, tr, h1, h2, h3⟩ := session_v2 h hE hV hn hf'
  refine ⟨st, tr, h1, h2, fun hsd old => ?_⟩
  obtain ⟨st', tr', h1', h4⟩ := s3_v2_array_documents h hz hrc hE hV hd hr hn hf hP hsrv hj old
  rw [h1] at h1'
  cases h1'
  obtain ⟨st', tr', h1', _, h5, _⟩ := s3_v2_uploaded h hr hE hne ho hV hd 
    (decode := (infoOf s a (inner ++ [y, x]) inner 0 0).decoder unblosc) (decodes_of hu rfl) hn hf hP hsz hsrv hj old
  rw [h1] at h1'
  cases h1'
  refine ⟨?_, ?_⟩
  · obtain ⟨b1, f1, d1⟩ := s3_stream_document_of h hE hd hr hn hf h1 hP hsrv hj old hsd (name := ".zattrs")
      (by unfold streamDocNames; rw [if_pos hV]; simp) (by decide) (v2_external_ne h hV (by decide)) (by
        rintro b ⟨v, _, hb, _⟩ rfl
        exact empty_not_json v hb)
    obtain ⟨b2, f2, d2⟩ := s3_stream_document_of h hE hd hr hn hf h1 hP hsrv hj old hsd (name := ".zgroup")
      (by unfold streamDocNames; rw [if_pos hV]; simp) (by decide) (v2_external_ne h hV (by decide)) (by
        rintro b ⟨v, hb, _⟩ rfl
        exact empty_not_json v hb)
    exact v2_levels_from (file := fun p => (bucketAfter P srv junk old tr p).object) f1 d1 f2 d2
  intro i hi hne
  have hlen := framesOfLevel_length cfg i calls.flatten
  have hc : cfgs[i]? = some cfgs[i] := List.getElem?_eq_getElem hi
  generalize cfgs[i] = c at hc
  rw [hlen] at hne
  obtain ⟨b, v, b1, b2, b3⟩ := (h4 hsd i hi).2 hne
  rw [← hlen] at b3
  have hop := v2_opens (f := fun p => (bucketAfter P srv junk old tr p).object) (b := b) h hV
    (by show (bucketAfter P srv junk old tr _).object = _; rw [b1]) b2 b3
  rw [show root ++ '/' :: (decimal i ++ ['/']) = levelDir root i by unfold levelDir; simp]
  have hdir := levelDir_located h hr.located hc
  refine v2_loads_written h hz hE hV hd hu hc (h3.sizes i c hc) hdir ?_ hop
  intro g l b hb
  show (bucketAfter P srv junk old tr _).object = _
  rw [h5 i hi g l]
  show (fileAfter _ tr).or _ = _
  rw [show fileAfter (levelDir root i ++ chunkKey (g :: l)) tr = some b from ?_]
  · rfl
  rw [← hb]
  apply fileAfter_about
  apply h3.level i c hc
  exact .inr ⟨g, l, by rw [objectPath_key (h.versionV2 hV c (List.mem_of_getElem? hc)), hdir]⟩

/-- **C83.** Zarr V2 on S3: a reader that is given only the objects of the bucket and the name of the store finds all levels and loads
every level that received a frame. `old`: the bucket before, whatever it held. The documents are smaller than a part
(`smallDocuments_of`: true if the last ones are). -/
theorem s3_v2_self_describing (h : Setup w fuel s cfg cfgs) (hz : SizesInRange s) (hrc : RealCodec s) (hr : InBucket s root)
    (hE : StorageOk env s) (hne : NonemptyOutput env s) (ho : SmallOverhead env) (hV : s.version = 2)
    (hd : s.dimensions = some (a :: (inner ++ [y, x])))
    {unblosc : Bytes → Option Bytes} (hu : Unblosc env s unblosc) (hn : calls.flatten.length < 2 ^ 32)
    (hf : ∀ c ∈ calls, ∀ f ∈ c, f.length = y.arraySize * x.arraySize * itemSize s.dataType)
    {P : Nat} (hP : 0 < P)
    (hsz : prod ((a :: (inner ++ [y, x])).map (·.chunkSize)) * itemSize s.dataType + 16 ≤ P * (2 ^ 32 - 1))
    {srv : Text → Nat → Reply} (hsrv : ∀ p, Spec.Healthy (srv p)) {junk : Bytes} (hj : junk.length = P)
    (old : Text → Option Bytes) :
    ∃ st tr, runStream w env fuel s (calls.map List.flatten) =
        some (.ok (st, calls.map (fun c => c.flatten.length), tr)) ∧ st.error = [] ∧ (SmallDocuments s root cfgs.length P tr →
      levelsV2 (fun p => (bucketAfter P srv junk old tr p).object) root = some ((List.range cfgs.length).map decimal) ∧
      ∃ L : Nat → List Bytes, L 0 = calls.flatten ∧
        (s.dataType < 8 → MeanPyramid (itemSize s.dataType) y.arraySize x.arraySize cfgs.length L) ∧ ∀ i, i < cfgs.length → (L i).length = calls.flatten.length / 2 ^ i ∧
        ((L i).length ≠ 0 → ∃ info, loadV2 (fun p => (bucketAfter P srv junk old tr p).object) unblosc
            (root ++ '/' :: (decimal i ++ ['/'])) =
            some (info, paddedTo (prod info.shape * info.itemSize) (L i)) ∧
          info = infoOf s a (inner ++ [y, x]) inner i (L i).length)) := by
  obtain ⟨st, tr, h1, h2, h3⟩ := s3_v2_loads_any h hz hrc hr hE hne ho hV hd hu hn hf hP hsz hsrv hj
  refine ⟨st, tr, h1, h2, fun hsd => ⟨(h3 hsd old).1, fun i => framesOfLevel cfg i calls.flatten, rfl,
    fun h8 => levels_meanPyramid h.base hd h8 _, fun i hi => ⟨framesOfLevel_length cfg i calls.flatten, fun h0 => ⟨_, ?_, rfl⟩⟩⟩⟩
  exact (h3 hsd old).2 i hi h0

/-- No file of a V3 array lies outside the shard grid. -/
theorem shard_outside {c : WConfig} (hv : c.version = .v3) {S : Bytes} {n G : Nat} {l : List Nat}
    (hin : ¬ InBounds (mShape c.dims.tailDims) l) : fileAfter (arrayDirV3 c ++ chunkKey (G :: l)) (runEventsV3 env c S n) = none := by
  have hab : about (arrayDirV3 c ++ chunkKey (G :: l)) (runEventsV3 env c S n) = [] := by
    apply about_none
    intro e he hpe
    rw [← objectPath_keyV3 hv] at hpe
    rcases runEventsV3_path he with k1 | ⟨G', k, hk, k1⟩
    · rw [hpe] at k1
      exact objectPath_ne_meta c G l k1
    · rw [hpe] at k1
      unfold shardPath at k1
      obtain ⟨e1, e2⟩ := objectPath_inj k1
      apply hin
      rw [e2]
      exact unravel_inBounds hk
  rw [fileAfter_filter]
  unfold about at hab
  rw [hab]
  rfl

/-- Reading an element looks at one shard only. -/
theorem readV3_congr {f g : Text → Option Bytes} {dir : Text} {decode : Bytes → Option Bytes} {chunks shards : List Nat} {n : Nat}
    {z : List Nat} (h : f (dir ++ chunkKey (gridOf shards (gridOf chunks z))) = g (dir ++ chunkKey (gridOf shards (gridOf chunks z)))) :
    readV3 f dir decode chunks shards n z = readV3 g dir decode chunks shards n z := by
  unfold readV3
  dsimp only
  rw [h]

theorem readV3_missing {f : Text → Option Bytes} {dir : Text} {decode : Bytes → Option Bytes} {chunks shards : List Nat} {n : Nat}
    {z : List Nat} (h : f (dir ++ chunkKey (gridOf shards (gridOf chunks z))) = none) :
    readV3 f dir decode chunks shards n z = some (List.replicate n 0) := by
  unfold readV3
  dsimp only
  rw [h]

/-- Element of a V3 level with one append chunk per shard, read from the files an array writer leaves. -/
theorem v3_level_bytes_from (h : Setup w fuel s cfg cfgs) (h3 : cfg.dims.FitsV3) (hz : SizesInRange s) (hE : StorageOk env s)
    (ho : SmallOverhead env) (hV : s.version = 3) (hd : s.dimensions = some (a :: (inner ++ [y, x])))
    {decode : Bytes → Option Bytes} (hdec : Decodes env s decode) {fs : List Bytes}
    {lv : Nat} {c : WConfig} (hc : cfgs[lv]? = some c) (hff : ∀ f ∈ fs, f.length = c.dims.frameBytes) (hone : shardAt lv a = 1)
    {t : Nat} {z : List Nat} (hi : InBounds (sizesAt lv (inner ++ [y, x])) z) :
    readV3 (fun p => fileAfter p (runEventsV3 env c fs.flatten fs.length)) (arrayDirV3 c) decode
      (chunksAt lv (a :: (inner ++ [y, x]))) (shardsAt lv (a :: (inner ++ [y, x]))) (itemSize s.dataType) (t :: z) =
    some ((List.range (itemSize s.dataType)).map fun sb => logicalByte (sizesAt lv (inner ++ [y, x])) (itemSize s.dataType)
      fs.flatten (t :: z) sb) := by
  have hL := h.levelShape hz hd hc
  have hit := level_item h.valid hL
  obtain ⟨hv, hfit⟩ := h.levelDims.1 c (List.mem_of_getElem? hc)
  have hin := (levelConfigs_inherits h.levels hc).1
  have hD := dimsOf h.valid h.commit hd
  have hk : c.dims.append.shardSize = 1 := by rw [hL.shardSize, hone]
  have hread := readV3_run ho (h.versionV3 hV c (List.mem_of_getElem? hc)) hv hfit
    (h.levelFitsV3 h3 c (List.mem_of_getElem? hc)) fs.flatten fs.length (flatten_length_const hff)
    (file := fun p => fileAfter p (runEventsV3 env c fs.flatten fs.length)) (fun p _ => rfl)
    (decode := decode) (fun b hb => hdec.stored hE h hin hD.item b (by rw [hb]; exact h.chunk_le (List.mem_of_getElem? hc)))
    (t := t) (y := z) (by rw [hL.tail]; exact hi) (by
      rw [hk, Nat.div_one]
      generalize groups c fs.length = n
      generalize t / c.dims.append.chunkSize = g
      omega)
  have hm : t / c.dims.append.chunkSize % c.dims.append.shardSize = 0 := by rw [hk]; exact Nat.mod_one _
  have hsh : shownT c fs.length t = t := by
    unfold shownT layersIn
    rw [hk]
    have : ∀ n, min 1 n - 1 = 0 := by omega
    rw [this, Nat.add_zero, Nat.mul_comm]
    exact Nat.div_add_mod ..
  simp only [if_pos hm] at hread
  rw [hsh, hL.chunks, hL.shards, hit, hL.tail] at hread
  exact hread

/-- The bytes of a stream of which only the first `m` frames count. -/
theorem logicalByte_take {tail : List Nat} {item F : Nat} {fs : List Bytes} (hff : ∀ f ∈ fs, f.length = F) (m : Nat) {t : Nat}
    {z : List Nat} {sb : Nat} :
    logicalByte tail item (fs.take m).flatten (t :: z) sb =
      if ravel (0 :: tail) (t :: z) * item + sb < m * F then logicalByte tail item fs.flatten (t :: z) sb else 0 := by
  have hlen : (fs.take m).flatten.length = min m fs.length * F := by
    rw [flatten_length_const (n := F) (fun f hf => hff f (List.mem_of_mem_take hf)), List.length_take]
  have hsplit : fs.flatten = (fs.take m).flatten ++ (fs.drop m).flatten := by
    rw [← List.flatten_append, List.take_append_drop]
  unfold logicalByte
  generalize ravel (0 :: tail) (t :: z) * item + sb = q
  split
  · rw [hsplit]
    generalize hA : (fs.take m).flatten = A at hlen
    split
    · rename_i hq
      by_cases hq' : q < A.length
      · simp [List.getD_eq_getElem?_getD, List.getElem?_append_left hq']
      · have hB : (fs.drop m).flatten = [] := by
          have : fs.length ≤ m := by
            apply Nat.le_of_not_lt
            intro hlt
            rw [Nat.min_eq_left (Nat.le_of_lt hlt)] at hlen
            omega
          rw [List.drop_eq_nil_of_le this]; rfl
        rw [hB, List.append_nil]
    · rename_i hq
      have : A.length ≤ q := by
        have : min m fs.length * F ≤ m * F := Nat.mul_le_mul_right _ (Nat.min_le_left ..)
        omega
      simp [List.getD_eq_getElem?_getD, List.getElem?_eq_none this]
  · simp

/-- Zarr V3 on S3, one append chunk per shard: exactly what a reader loads that is given only the bucket. It finds all levels, and
the shape of every level counts all its frames; but the frames after the last full shard are zeros. -/
theorem s3_v3_loads_exact (h : Setup w fuel s cfg cfgs) (h3 : cfg.dims.FitsV3) (hz : SizesInRange s) (hrc : RealCodec s)
    (hr : InBucket s root) (hE : StorageOk env s) (ho : SmallOverhead env) (hV : s.version = 3)
    (hd : s.dimensions = some (a :: (inner ++ [y, x])))
    {unblosc : Bytes → Option Bytes} (hu : Unblosc env s unblosc) (hn : calls.flatten.length < 2 ^ 32)
    (hf : ∀ c ∈ calls, ∀ f ∈ c, f.length = y.arraySize * x.arraySize * itemSize s.dataType)
    {P : Nat} (hP : 0 < P) (hsz : ShardsFit s (a :: (inner ++ [y, x])) P)
    {srv : Text → Nat → Reply} (hsrv : ∀ p, Spec.Healthy (srv p)) {junk : Bytes} (hj : junk.length = P)
    (old : Text → Option Bytes) :
    ∃ st tr, runStream w env fuel s (calls.map List.flatten) =
        some (.ok (st, calls.map (fun c => c.flatten.length), tr)) ∧ st.error = [] ∧ (SmallDocuments s root cfgs.length P tr →
      levelsV3 (fun p => (bucketAfter P srv junk old tr p).object) root = some ((List.range cfgs.length).map decimal) ∧
      ∃ L : Nat → List Bytes, L 0 = calls.flatten ∧
        (s.dataType < 8 → MeanPyramid (itemSize s.dataType) y.arraySize x.arraySize cfgs.length L) ∧ ∀ i, i < cfgs.length → (L i).length = calls.flatten.length / 2 ^ i ∧
        ((L i).length ≠ 0 → shardAt i a = 1 → ((L i).length % framesPerAt i a inner ≠ 0 →
            ∀ l, old (levelDirV3 root i ++ chunkKey ((L i).length / framesPerAt i a inner :: l)) = none) →
          ∃ info, loadV3 (fun p => (bucketAfter P srv junk old tr p).object) unblosc root (decimal i) =
            some (info, paddedTo (prod info.shape * info.itemSize)
              ((L i).take ((L i).length / framesPerAt i a inner * framesPerAt i a inner))) ∧
          info = infoOf s a (inner ++ [y, x]) inner i (L i).length)) := by
  have hD := dimsOf h.valid h.commit hd
  obtain ⟨hK, hka⟩ := shards_of h.commit hd
  have hf' := hf
  rw [← hD.frame] at hf'
  obtain ⟨st, tr, h1, h2, hs⟩ := session_v3 h h3 hE ho hV hn hf'
  obtain ⟨st', tr', h1', h4⟩ := s3_v3_array_documents h h3 hz hrc hE ho hV hd hr hn hf hP hsrv hj old
  rw [h1] at h1'
  cases h1'
  have h2' : ¬ s.version = 2 := by rw [hV]; decide
  refine ⟨st, tr, h1, h2, fun hsd => ⟨?_, fun i => framesOfLevel cfg i calls.flatten, rfl,
    fun h8 => levels_meanPyramid h.base hd h8 _, ?_⟩⟩
  · obtain ⟨b1, f1, d1⟩ := s3_stream_document_of h hE hd hr hn hf h1 hP hsrv hj old hsd (name := "meta/root.group.json")
      (by unfold streamDocNames; rw [if_neg h2']; simp) (by decide) (v3_external_ne h hV (by decide)) (by
        rintro b ⟨v, _, _, hb, _⟩ rfl
        exact empty_not_json v hb)
    obtain ⟨b2, f2, d2⟩ := s3_stream_document_of h hE hd hr hn hf h1 hP hsrv hj old hsd (name := "zarr.json")
      (by unfold streamDocNames; rw [if_neg h2']; simp) (by decide) (v3_external_ne h hV (by decide)) (by
        rintro b ⟨v, hb, _⟩ rfl
        exact empty_not_json v hb)
    exact v3_levels_from (file := fun p => (bucketAfter P srv junk old tr p).object) f1 d1 f2 d2
  intro i hi
  have hlen := framesOfLevel_length cfg i calls.flatten
  refine ⟨hlen, fun hne hone hold => ?_⟩
  have hc : cfgs[i]? = some cfgs[i] := List.getElem?_eq_getElem hi
  generalize cfgs[i] = c at hc
  dsimp only at hne hold ⊢
  rw [hlen] at hne
  have hm : docFrames (framesPerAt i a inner) (shardAt i a) (calls.flatten.length / 2 ^ i) = calls.flatten.length / 2 ^ i := by
    unfold docFrames
    rw [hone, Nat.mul_one]
    split
    · rfl
    · rename_i hmod
      exact Nat.div_mul_cancel (Nat.dvd_of_mod_eq_zero (by omega))
  obtain ⟨b, v, b1, b2, b3⟩ := (h4 hsd i hi _ hm.symm).2 hne
  rw [← hlen] at b3
  have hop := v3_opens (f := fun p => (bucketAfter P srv junk old tr p).object) (b := b) h hV
    (by show (bucketAfter P srv junk old tr _).object = _; rw [b1]) b2 b3
  refine ⟨_, ?_, rfl⟩
  have hff := hs.sizes i c hc
  have hmem := List.mem_of_getElem? hc
  obtain ⟨hv, hfit⟩ := h.levelDims.1 c hmem
  have hL := h.levelShape hz hd hc
  have hit := level_item h.valid hL
  have hroom := level_room h hz hd hc hff
  have hk : c.dims.append.shardSize = 1 := by rw [hL.shardSize, hone]
  have hFP : c.dims.framesPerChunk = framesPerAt i a inner := hL.framesPer
  have hFB : 0 < framesPerAt i a inner := by rw [← hFP]; exact ArrayDims.framesPerChunk_pos hv hfit
  have hshard := fun G l => s3_level_shard h h3 hr ho hV hs hP (by
    unfold ShardsFit at hsz
    rw [hK, setup_chunkBytes h hd]
    exact hsz) hsrv hj old hc G l
  have hdirc := levelDirV3_located h hr.located hc
  have hver := h.versionV3 hV c hmem
  generalize framesOfLevel cfg i calls.flatten = fs at *
  clear hlen hm b1 b3 hne h4
  unfold loadV3
  rw [hop, data_path]
  have hbytes : ∀ t z, t < ceilDiv fs.length (prod (sizesAt i inner)) → InBounds (sizesAt i (inner ++ [y, x])) z →
      readV3 (fun p => (bucketAfter P srv junk old tr p).object) (levelDirV3 root i)
        ((infoOf s a (inner ++ [y, x]) inner i fs.length).decoder unblosc) (chunksAt i (a :: (inner ++ [y, x])))
        (shardsAt i (a :: (inner ++ [y, x]))) (itemSize s.dataType) (t :: z) =
      some ((List.range (itemSize s.dataType)).map fun sb => logicalByte (sizesAt i (inner ++ [y, x])) (itemSize s.dataType)
        (fs.take (fs.length / framesPerAt i a inner * framesPerAt i a inner)).flatten (t :: z) sb) := by
    intro t z htT hzb
    have hideal := v3_level_bytes_from h h3 hz hE ho hV hd
      (decodes_of (info := infoOf s a (inner ++ [y, x]) inner i fs.length) hu rfl) hc hff hone (t := t) hzb
    rw [hdirc] at hideal
    have hgrid : ∃ l, gridOf (shardsAt i (a :: (inner ++ [y, x]))) (gridOf (chunksAt i (a :: (inner ++ [y, x]))) (t :: z)) =
        (t / levelChunk a.isChannel a.arraySize a.chunkSize i / shardAt i a) :: l := ⟨_, rfl⟩
    obtain ⟨l, hl⟩ := hgrid
    have hbounds : InBounds (mShape c.dims.tailDims) l := by
      have hl' := hl
      rw [← hL.shards, ← hL.chunks] at hl'
      have e : l = gridOf (kShape c.dims.tailDims) (gridOf (cShape c.dims.tailDims) z) := (List.cons.inj hl').2.symm
      rw [e]
      apply ArrayDims.shardPos_inBounds (h.levelFitsV3 h3 c hmem)
      have hgb := gridOf_inBounds (cs := cShape c.dims.tailDims) (fun k hk => by
        obtain ⟨d, hd, rfl⟩ := List.mem_map.1 hk
        exact hv.tail_chunk d hd) (by simp) (by rw [hL.tail]; exact hzb : InBounds (aShape c.dims.tailDims) z)
      rwa [zipWith_ceilDiv] at hgb
    rw [hone, Nat.div_one] at hl
    have hcomplete : ∀ sb, sb < itemSize s.dataType →
        (ravel (0 :: sizesAt i (inner ++ [y, x])) (t :: z) * itemSize s.dataType + sb <
          fs.length / framesPerAt i a inner * framesPerAt i a inner * c.dims.frameBytes ↔
        (t / levelChunk a.isChannel a.arraySize a.chunkSize i + 1) * framesPerAt i a inner ≤ fs.length) := by
      intro sb hsb
      have hch : 0 < levelChunk a.isChannel a.arraySize a.chunkSize i := by rw [← hL.append]; exact hv.append_chunk
      have hX : prod (sizesAt i (inner ++ [y, x])) * itemSize s.dataType = prod (sizesAt i inner) * c.dims.frameBytes := by
        have hfb : c.dims.frameBytes = levelSize y.isChannel y.arraySize i * levelSize x.isChannel x.arraySize i *
            itemSize s.dataType := by
          unfold ArrayDims.frameBytes; rw [hit, hL.height, hL.width]
        have hp : prod (sizesAt i (inner ++ [y, x])) =
            prod (sizesAt i inner) * (levelSize y.isChannel y.arraySize i * levelSize x.isChannel x.arraySize i) := by
          unfold sizesAt
          rw [List.map_append, prod_append]
          simp [prod]
        rw [hp, hfb]
        simp only [Nat.mul_assoc]
      have hr' : ravel (0 :: sizesAt i (inner ++ [y, x])) (t :: z) =
          t * prod (sizesAt i (inner ++ [y, x])) + ravel (sizesAt i (inner ++ [y, x])) z := rfl
      have hrl := ravel_lt hzb
      rw [← Nat.le_div_iff_mul_le hFB, Nat.succ_le_iff, Nat.div_lt_iff_lt_mul hch]
      have hM : fs.length / framesPerAt i a inner * framesPerAt i a inner * c.dims.frameBytes =
          fs.length / framesPerAt i a inner * levelChunk a.isChannel a.arraySize a.chunkSize i *
            (prod (sizesAt i inner) * c.dims.frameBytes) := by
        generalize fs.length / framesPerAt i a inner = A
        unfold framesPerAt
        simp only [Nat.mul_assoc]
      rw [hr', hM, ← hX, Nat.add_mul]
      generalize fs.length / framesPerAt i a inner * levelChunk a.isChannel a.arraySize a.chunkSize i = A
      generalize hρ : ravel (sizesAt i (inner ++ [y, x])) z = r at hrl
      generalize prod (sizesAt i (inner ++ [y, x])) = T at hrl
      have h6 : r * itemSize s.dataType + itemSize s.dataType ≤ T * itemSize s.dataType := by
        have := Nat.mul_le_mul_right (itemSize s.dataType) (Nat.succ_le_of_lt hrl)
        rw [Nat.succ_mul] at this
        exact this
      rw [Nat.mul_assoc]
      generalize T * itemSize s.dataType = X at h6
      constructor
      · intro hlt
        apply Nat.lt_of_not_le
        intro hge
        have := Nat.mul_le_mul_right X hge
        omega
      · intro hlt
        have := Nat.mul_le_mul_right X (Nat.succ_le_of_lt hlt)
        rw [Nat.succ_mul] at this
        omega
    have hob := hshard (t / levelChunk a.isChannel a.arraySize a.chunkSize i) l
    rw [hk, Nat.mul_one, hFP] at hob
    by_cases hfull : (t / levelChunk a.isChannel a.arraySize a.chunkSize i + 1) * framesPerAt i a inner ≤ fs.length
    · have hsame : (bucketAfter P srv junk old tr (levelDirV3 root i ++ chunkKey
          ((t / levelChunk a.isChannel a.arraySize a.chunkSize i) :: l))).object =
          fileAfter (levelDirV3 root i ++ chunkKey ((t / levelChunk a.isChannel a.arraySize a.chunkSize i) :: l))
            (runEventsV3 env c fs.flatten fs.length) := by
        rw [hob]
        dsimp only
        by_cases hin : InBounds (mShape c.dims.tailDims) l
        · rw [if_pos ⟨hfull, hin⟩]
        · exact absurd hbounds hin
      rw [readV3_congr (g := fun p => fileAfter p (runEventsV3 env c fs.flatten fs.length)) (by rw [hl]; exact hsame), hideal]
      congr 1
      apply List.map_congr_left
      intro sb hsb
      rw [logicalByte_take hff, if_pos ((hcomplete sb (List.mem_range.1 hsb)).2 hfull)]
    · rw [readV3_missing (by
        rw [hl]
        show (bucketAfter P srv junk old tr _).object = none
        rw [hob, if_neg (fun hh => hfull hh.1)]
        have hP0 : 0 < prod (sizesAt i inner) := by
          apply Nat.pos_of_ne_zero
          intro e
          rw [e] at htT
          simp [ceilDiv] at htT
        rw [lt_ceilDiv_iff hP0] at htT
        have hlt : t / levelChunk a.isChannel a.arraySize a.chunkSize i * framesPerAt i a inner < fs.length := by
          refine Nat.lt_of_le_of_lt ?_ htT
          unfold framesPerAt
          rw [← Nat.mul_assoc]
          exact Nat.mul_le_mul_right _ (Nat.div_mul_le_self _ _)
        have hq : t / levelChunk a.isChannel a.arraySize a.chunkSize i = fs.length / framesPerAt i a inner :=
          (Nat.div_eq_of_lt_le (Nat.le_of_lt hlt) (Nat.lt_of_not_le hfull)).symm
        rw [hq]
        refine hold (fun e => ?_) l
        rw [hq, Nat.div_mul_cancel (Nat.dvd_of_mod_eq_zero e)] at hlt
        exact Nat.lt_irrefl _ hlt)]
      congr 1
      apply List.ext_getElem (by simp)
      intro k k1 k2
      simp only [List.getElem_map, List.getElem_range, List.getElem_replicate]
      have hk' : k < itemSize s.dataType := by simpa using k1
      rw [logicalByte_take hff, if_neg (fun hh => hfull ((hcomplete k hk').1 hh))]
  have hroom' : (fs.take (fs.length / framesPerAt i a inner * framesPerAt i a inner)).flatten.length ≤
      prod (ceilDiv fs.length (prod (sizesAt i inner)) :: sizesAt i (inner ++ [y, x])) * itemSize s.dataType := by
    refine Nat.le_trans ?_ hroom
    rw [flatten_length_const hff, flatten_length_const (n := c.dims.frameBytes) (fun f hf => hff f (List.mem_of_mem_take hf)),
      List.length_take]
    exact Nat.mul_le_mul_right _ (Nat.min_le_right ..)
  obtain ⟨items, m1, m2⟩ := read_all (T := ceilDiv fs.length (prod (sizesAt i inner)))
    (tail := sizesAt i (inner ++ [y, x])) (fun t z ht hzb => hbytes t z ht hzb) hroom'
  have hsh : (infoOf s a (inner ++ [y, x]) inner i fs.length).shards = shardsAt i (a :: (inner ++ [y, x])) := by
    unfold infoOf
    exact if_neg h2'
  simp only [Option.bind_eq_bind, Option.bind_some, Option.pure_def]
  rw [hsh]
  have m1' : ((List.range (prod (infoOf s a (inner ++ [y, x]) inner i fs.length).shape)).mapM fun k =>
      readV3 (fun p => (bucketAfter P srv junk old tr p).object) (levelDirV3 root i)
        ((infoOf s a (inner ++ [y, x]) inner i fs.length).decoder unblosc)
        (infoOf s a (inner ++ [y, x]) inner i fs.length).chunks
        (shardsAt i (a :: (inner ++ [y, x])))
        (infoOf s a (inner ++ [y, x]) inner i fs.length).itemSize
        (unravel (infoOf s a (inner ++ [y, x]) inner i fs.length).shape k)) = some items := m1
  rw [m1']
  simp only [Option.bind_some]
  rw [m2]
  rfl

end

/-- A non-trivial instance of `s3_v2_self_describing`: three frames of one pixel, in a bucket with anything in it. -/
example {srv : Text → Nat → Reply} (hsrv : ∀ p, Spec.Healthy (srv p)) {junk : Bytes} (hj : junk.length = 5 * 2 ^ 20)
    (old : Text → Option Bytes) :
    ∃ st ns tr, runStream Sample.world Sample.env 9 (Sample.slabS3 2 2 1) [[5, 6], [7]] = some (.ok (st, ns, tr)) ∧
      levelsV2 (fun p => (bucketAfter (5 * 2 ^ 20) srv junk old tr p).object) "a".toList = some ["0".toList] ∧
      loadV2 (fun p => (bucketAfter (5 * 2 ^ 20) srv junk old tr p).object) (fun _ => none) "a/0/".toList =
        some (⟨[3, 1, 1], [2, 1, 1], [], .unsigned, 1, false⟩, [5, 6, 7]) := by
  have hf : ∀ c ∈ ([[[5], [6]], [[7]]] : List (List Bytes)), ∀ f ∈ c, f.length = 1 := by decide
  obtain ⟨st, tr, h1, _, h2⟩ := s3_v2_self_describing (calls := [[[5], [6]], [[7]]]) Sample.slabS3Setup2
    (by intro d hd; revert d; decide) (by intro c hc; cases hc) (Sample.slabS3Bucket 2 2 1)
    Sample.storageOk Sample.nonempty Sample.overhead rfl (inner := []) rfl (unblosc_none rfl)
    (by decide) hf (P := 5 * 2 ^ 20) (by decide) (by decide) hsrv hj old
  have hsd := smallDocuments_of (calls := [[[5], [6]], [[7]]]) Sample.slabS3Setup2 (inner := []) rfl
    (Sample.slabS3Bucket 2 2 1).located (by decide) hf h1 (P := 5 * 2 ^ 20) (by
      intro i c hc
      have hi : i = 0 := by
        have := (List.getElem?_eq_some_iff.1 hc).1
        simpa using this
      subst hi
      cases hc
      decide +kernel) (by decide +kernel)
  obtain ⟨k1, L, k2, _, k3⟩ := h2 hsd
  obtain ⟨l0, k0⟩ := k3 0 (by decide)
  obtain ⟨i0, a0, b0⟩ := k0 (by rw [l0]; decide)
  refine ⟨st, _, tr, h1, k1, ?_⟩
  rw [l0] at b0
  rw [b0, k2] at a0
  exact a0

/-- **C83 is false** for Zarr V3: three frames are appended, every call succeeds; the dataset in the bucket has three frames, and the
third one is zero. -/
theorem s3_v3_zeros_violated {srv : Text → Nat → Reply} (hsrv : ∀ p, Spec.Healthy (srv p)) {junk : Bytes} (hj : junk.length = 5 * 2 ^ 20) :
    ∃ st ns tr, runStream Sample.world Sample.env 9 (Sample.slabS3 3 2 1) [[5, 6], [7]] = some (.ok (st, ns, tr)) ∧ st.error = [] ∧
      levelsV3 (fun p => (bucketAfter (5 * 2 ^ 20) srv junk (fun _ => none) tr p).object) "a".toList = some ["0".toList] ∧
      loadV3 (fun p => (bucketAfter (5 * 2 ^ 20) srv junk (fun _ => none) tr p).object) (fun _ => none) "a".toList "0".toList =
        some (⟨[3, 1, 1], [2, 1, 1], [1, 1, 1], .unsigned, 1, false⟩, [5, 6, 0]) := by
  have hf : ∀ c ∈ ([[[5], [6]], [[7]]] : List (List Bytes)), ∀ f ∈ c, f.length = 1 := by decide
  have hS := Sample.slabS3Setup 2 1 (.inr rfl) (.inl rfl)
  obtain ⟨st, tr, h1, he, h2⟩ := s3_v3_loads_exact (calls := [[[5], [6]], [[7]]]) hS (by decide)
    (by intro d hd; revert d; decide) (by intro c hc; cases hc) (Sample.slabS3Bucket 3 2 1)
    Sample.storageOk Sample.overhead rfl (inner := []) rfl (unblosc_none rfl)
    (by decide) hf (P := 5 * 2 ^ 20) (by decide) (by unfold ShardsFit; decide) hsrv hj (fun _ => none)
  have hsd := smallDocuments_of (calls := [[[5], [6]], [[7]]]) hS (inner := []) rfl
    (Sample.slabS3Bucket 3 2 1).located (by decide) hf h1 (P := 5 * 2 ^ 20) (by
      intro i c hc
      have hi : i = 0 := by
        have := (List.getElem?_eq_some_iff.1 hc).1
        simpa using this
      subst hi
      cases hc
      decide +kernel) (by decide +kernel)
  obtain ⟨k1, L, k2, _, k3⟩ := h2 hsd
  obtain ⟨l0, k0⟩ := k3 0 (by decide)
  obtain ⟨i0, a0, b0⟩ := k0 (by rw [l0]; decide) (by decide) (fun _ _ => rfl)
  refine ⟨st, _, tr, h1, he, k1, ?_⟩
  rw [l0] at b0 a0
  rw [b0, k2] at a0
  exact a0

end AZ.S3
