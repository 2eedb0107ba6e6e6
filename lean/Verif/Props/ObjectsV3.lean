import Verif.Props.Objects
import Verif.Props.Crash
import Verif.Lemmas.FilesV3Meta

set_option linter.unusedSimpArgs false

/-!
# C53, C54: the documents and objects of a finished V3 dataset
-/

namespace AZ
open Spec

/-- Frames per append chunk, and chunks per append shard, of level `i`. -/
def framesPerAt (i : Nat) (a : DimProps) (inner : List DimProps) : Nat :=
  levelChunk a.isChannel a.arraySize a.chunkSize i * prod (sizesAt i inner)
def shardAt (i : Nat) (a : DimProps) : Nat := levelShard a.isChannel a.arraySize a.chunkSize a.shardSize i

section
variable {w : World} {env : Env} {fuel : Nat} {s : Settings} {cfg : WConfig} {cfgs : List WConfig}
  {a y x : DimProps} {inner : List DimProps} {root : Text} {calls : List (List Bytes)}

theorem LevelShape.framesPer {c : WConfig} {i : Nat} (hL : LevelShape s c a y x inner i) :
    c.dims.framesPerChunk = framesPerAt i a inner := by
  unfold ArrayDims.framesPerChunk framesPerAt
  rw [hL.append, hL.innerSizes]

theorem LevelShape.shardSize {c : WConfig} {i : Nat} (hL : LevelShape s c a y x inner i) :
    c.dims.append.shardSize = shardAt i a := by
  have := hL.shards
  unfold kShape shardsAt ArrayDims.toList at this
  simp only [List.map_cons, List.cons.injEq] at this
  exact this.1

/-- The files of a level of a finished V3 dataset. -/
theorem level_fileV3 (h : Setup w fuel s cfg cfgs) (hfr : Fresh w s root)
    {frames : List Bytes} {tr : List Ev} (hs : SessionV3 env cfg cfgs frames tr)
    {i : Nat} {c : WConfig} (hc : cfgs[i]? = some c) {q : Text} (hq : Owned c (root ++ '/' :: q)) :
    fileInStore w cfg (root ++ '/' :: q) tr = fileAfter (root ++ '/' :: q)
      (runEventsV3 env c (framesOfLevel cfg i frames).flatten (framesOfLevel cfg i frames).length) := by
  rw [fileInStore_fresh h.commit hfr]
  exact fileAfter_about (hs.level i c hc _ hq)

/-- The array document of every level of a finished V3 dataset, exactly: it covers `docFrames` of the level's frames
(all of them if the last chunk is incomplete, otherwise only those in full shards), and it exists exactly if that is not
zero. -/
theorem v3_final_document (h : Setup w fuel s cfg cfgs) (h3 : cfg.dims.FitsV3) (hz : SizesInRange s) (hr : RealCodec s)
    (hE : StorageOk env s) (ho : SmallOverhead env)
    (hV : s.version = 3) (hd : s.dimensions = some (a :: (inner ++ [y, x]))) (hl : StoredAt s root)
    (hfr : Fresh w s root) (hn : calls.flatten.length < 2 ^ 32)
    (hf : ∀ c ∈ calls, ∀ f ∈ c, f.length = y.arraySize * x.arraySize * itemSize s.dataType) :
    ∃ st tr, runStream w env fuel s (calls.map List.flatten) =
        some (.ok (st, calls.map (fun c => c.flatten.length), tr)) ∧ st.error = [] ∧
      ∀ i, i < cfgs.length → ∀ m, m = docFrames (framesPerAt i a inner) (shardAt i a) (calls.flatten.length / 2 ^ i) →
        (m = 0 → fileInStore w cfg (root ++ '/' :: arrayDocName 3 i) tr = none) ∧
        (m ≠ 0 → ∃ b v, fileInStore w cfg (root ++ '/' :: arrayDocName 3 i) tr = some b ∧
          JsonFile b v ∧ LevelDoc s (a :: (inner ++ [y, x])) i (ceilDiv m (prod (sizesAt i inner))) v) := by
  have hD := dimsOf h.valid h.commit hd
  rw [← hD.frame] at hf
  obtain ⟨st, tr, h1, h2, hs⟩ := session_v3 h h3 hE ho hV hn hf
  refine ⟨st, tr, h1, h2, ?_⟩
  intro i hi m hm
  have hc : cfgs[i]? = some cfgs[i] := List.getElem?_eq_getElem hi
  generalize cfgs[i] = c at hc
  obtain ⟨d1, d2⟩ := h.levelDims.1 c (List.mem_of_getElem? hc)
  have d3 := h.levelFitsV3 h3 c (List.mem_of_getElem? hc)
  have hp := (show LocatedAt s root from .inl hl).arrayDoc h hc
  rw [hV] at hp
  have hown : Owned c (root ++ '/' :: arrayDocName 3 i) := .inl hp.symm
  have hL := h.levelShape hz hd hc
  rw [level_fileV3 h hfr hs hc hown, ← hp, fileAfter_meta_v3 d1 d2 d3, framesOfLevel_length, hL.innerSizes, hL.framesPer,
    hL.shardSize, ← hm]
  constructor
  · intro hz; rw [if_pos hz]
  · intro hz'
    rw [if_neg hz']
    obtain ⟨v, v1, v2⟩ := level_doc h hz hr hd hc (ceilDiv m (prod (sizesAt i inner)))
    exact ⟨_, v, rfl, v1, v2⟩

/-- **C53**, the part that holds: in a finished V3 dataset the array document of a level that received frames describes
all of them, provided they do not end on a chunk boundary inside an append shard. Missing: that case, in which it is
false (`v3_document_behind`, `v3_document_violated`). -/
theorem v3_document_complete_partial (h : Setup w fuel s cfg cfgs) (h3 : cfg.dims.FitsV3) (hz : SizesInRange s) (hr : RealCodec s)
    (hE : StorageOk env s) (ho : SmallOverhead env)
    (hV : s.version = 3) (hd : s.dimensions = some (a :: (inner ++ [y, x]))) (hl : StoredAt s root)
    (hfr : Fresh w s root) (hn : calls.flatten.length < 2 ^ 32)
    (hf : ∀ c ∈ calls, ∀ f ∈ c, f.length = y.arraySize * x.arraySize * itemSize s.dataType) :
    ∃ st tr, runStream w env fuel s (calls.map List.flatten) =
        some (.ok (st, calls.map (fun c => c.flatten.length), tr)) ∧ st.error = [] ∧
      ∀ i, i < cfgs.length → ∀ n, n = calls.flatten.length / 2 ^ i → 0 < n →
        (n % framesPerAt i a inner ≠ 0 ∨ n % (framesPerAt i a inner * shardAt i a) = 0) →
        ∃ b v, fileInStore w cfg (root ++ '/' :: arrayDocName 3 i) tr = some b ∧
          JsonFile b v ∧ LevelDoc s (a :: (inner ++ [y, x])) i (ceilDiv n (prod (sizesAt i inner))) v := by
  obtain ⟨st, tr, h1, h2, h4⟩ := v3_final_document h h3 hz hr hE ho hV hd hl hfr hn hf
  refine ⟨st, tr, h1, h2, ?_⟩
  intro i hi n hn' hpos hcase
  have hm : docFrames (framesPerAt i a inner) (shardAt i a) n = n := by
    unfold docFrames
    split
    · rfl
    · rename_i hne
      rcases hcase with hc | hc
      · exact absurd hc hne
      · exact Nat.div_mul_cancel (Nat.dvd_of_mod_eq_zero hc)
  have := (h4 i hi n (by rw [← hn']; exact hm.symm)).2 (by omega)
  exact this

/-- **C53 is false**: whenever the frames of level 0 end on a chunk boundary inside an append shard, the document
describes fewer frames than were appended, or is missing altogether if there is no full shard. -/
theorem v3_document_behind (h : Setup w fuel s cfg cfgs) (h3 : cfg.dims.FitsV3) (hz : SizesInRange s) (hr : RealCodec s)
    (hE : StorageOk env s) (ho : SmallOverhead env)
    (hV : s.version = 3) (hd : s.dimensions = some (a :: (inner ++ [y, x]))) (hl : StoredAt s root)
    (hfr : Fresh w s root) (hn : calls.flatten.length < 2 ^ 32)
    (hf : ∀ c ∈ calls, ∀ f ∈ c, f.length = y.arraySize * x.arraySize * itemSize s.dataType)
    (hb : calls.flatten.length % framesPer a inner = 0) (hs : calls.flatten.length % (framesPer a inner * a.shardSize) ≠ 0) :
    ∃ st tr, runStream w env fuel s (calls.map List.flatten) =
        some (.ok (st, calls.map (fun c => c.flatten.length), tr)) ∧ st.error = [] ∧
      ((calls.flatten.length < framesPer a inner * a.shardSize ∧
        fileInStore w cfg (root ++ '/' :: arrayDocName 3 0) tr = none) ∨
       ∃ b v m, fileInStore w cfg (root ++ '/' :: arrayDocName 3 0) tr = some b ∧ JsonFile b v ∧
        LevelDoc s (a :: (inner ++ [y, x])) 0 m v ∧ m * prod (inner.map (·.arraySize)) < calls.flatten.length) := by
  obtain ⟨st, tr, h1, h2, h4⟩ := v3_final_document h h3 hz hr hE ho hV hd hl hfr hn hf
  refine ⟨st, tr, h1, h2, ?_⟩
  obtain ⟨rest, hrest⟩ := levelConfigs_head h.levels
  have hlen : 0 < cfgs.length := by rw [hrest]; simp
  have h0 : cfgs[0]? = some cfg := by rw [hrest]; rfl
  have hL := h.levelShape hz hd h0
  have hD := dimsOf h.valid h.commit hd
  have e1 : framesPerAt 0 a inner = framesPer a inner := by
    rw [← hL.framesPer]; exact hD.perChunk
  have e2 : shardAt 0 a = a.shardSize := by
    rw [← hL.shardSize]; exact (shards_of h.commit hd).2
  have e3 : sizesAt 0 inner = inner.map (·.arraySize) := by
    rw [← hL.innerSizes]; exact hD.innerSizes
  have h5 := h4 0 hlen _ rfl
  rw [e1, e2, e3, Nat.pow_zero, Nat.div_one] at h5
  have hdf : docFrames (framesPer a inner) a.shardSize calls.flatten.length =
      calls.flatten.length / (framesPer a inner * a.shardSize) * (framesPer a inner * a.shardSize) := by
    unfold docFrames
    rw [if_neg (not_not.2 hb)]
  rw [hdf] at h5
  have hdm := Nat.div_add_mod calls.flatten.length (framesPer a inner * a.shardSize)
  have hpc : cfg.dims.framesPerChunk = framesPer a inner := hD.perChunk
  obtain ⟨d1, d2⟩ := h.levelDims.1 cfg (List.mem_of_getElem? h0)
  have hfp : 0 < framesPer a inner := by rw [← hpc]; exact ArrayDims.framesPerChunk_pos d1 d2
  have hSpos : 0 < a.shardSize := by
    rw [← e2, ← hL.shardSize]; exact h3.pos cfg.dims.append (by simp [ArrayDims.toList])
  have hpos : 0 < framesPer a inner * a.shardSize := Nat.mul_pos hfp hSpos
  by_cases hm : calls.flatten.length / (framesPer a inner * a.shardSize) * (framesPer a inner * a.shardSize) = 0
  · left
    refine ⟨?_, h5.1 hm⟩
    rcases Nat.mul_eq_zero.1 hm with k | k
    · exact Nat.lt_of_div_eq_zero hpos k
    · omega
  · right
    obtain ⟨b, v, k1, k2, k3⟩ := h5.2 hm
    refine ⟨b, v, _, k1, k2, k3, ?_⟩
    have hin : 0 < prod (inner.map (·.arraySize)) := by
      unfold framesPer at hfp
      exact Nat.pos_of_mul_pos_left hfp
    have hdvd : prod (inner.map (·.arraySize)) ∣
        calls.flatten.length / (framesPer a inner * a.shardSize) * (framesPer a inner * a.shardSize) := by
      unfold framesPer
      exact ⟨calls.flatten.length / (a.chunkSize * prod (inner.map (·.arraySize)) * a.shardSize) * (a.chunkSize * a.shardSize),
        by ring⟩
    rw [ceilDiv_of_dvd hin (Nat.mod_eq_zero_of_dvd hdvd), Nat.div_mul_cancel hdvd, Nat.mul_comm]
    omega

/-- `q` is the name (relative to the store) of an object of a V3 dataset of `levels` levels after `n` frames: the stream
documents; per level its array document if it covers any frame; and one shard file per position of the shard grid that
covers the level's frames. -/
def ExpectedV3 (a : DimProps) (inner : List DimProps) (y x : DimProps) (levels n : Nat) (q : Text) : Prop :=
  (∃ name ∈ streamDocNames 3, q = name.toList) ∨
  ∃ i, i < levels ∧
    ((0 < docFrames (framesPerAt i a inner) (shardAt i a) (n / 2 ^ i) ∧
      q = "meta/root/".toList ++ decimal i ++ ".array.json".toList) ∨
     ∃ G l, q = "data/root/".toList ++ decimal i ++ "/c".toList ++ chunkKey (G :: l) ∧
      G < ceilDiv (ceilDiv (n / 2 ^ i) (framesPerAt i a inner)) (shardAt i a) ∧
      InBounds (shardGridAt i (inner ++ [y, x])) l)

/-- **C54.** After a session of whole frames on a filesystem store, the files under a V3 store are exactly the expected
ones. -/
theorem v3_objects_exact (h : Setup w fuel s cfg cfgs) (h3 : cfg.dims.FitsV3) (hz : SizesInRange s)
    (hE : StorageOk env s) (ho : SmallOverhead env)
    (hV : s.version = 3) (hd : s.dimensions = some (a :: (inner ++ [y, x]))) (hl : StoredAt s root)
    (hfr : Fresh w s root) (hn : calls.flatten.length < 2 ^ 32)
    (hf : ∀ c ∈ calls, ∀ f ∈ c, f.length = y.arraySize * x.arraySize * itemSize s.dataType) :
    ∃ st tr, runStream w env fuel s (calls.map List.flatten) =
        some (.ok (st, calls.map (fun c => c.flatten.length), tr)) ∧
      ∀ q, (∃ b, fileInStore w cfg (root ++ '/' :: q) tr = some b) ↔
        ExpectedV3 a inner y x cfgs.length calls.flatten.length q := by
  have hD := dimsOf h.valid h.commit hd
  have hF : bytesOfFrame cfg.dims = cfg.dims.frameBytes := ArrayDims.bytesOfFrame_eq h.dimsValid h.fits
  rw [← hD.frame] at hf
  obtain ⟨st, tr, h1, _, hs⟩ := session_v3 h h3 hE ho hV hn hf
  refine ⟨st, tr, h1, ?_⟩
  have hloc : LocatedAt s root := .inl hl
  have arr : ∀ (i : Nat) (c : WConfig), cfgs[i]? = some c → arrayMetaPath c =
      root ++ '/' :: ("meta/root/".toList ++ decimal i ++ ".array.json".toList) := by
    intro i c hc
    have hp := hloc.arrayDoc h hc
    rw [hV] at hp
    exact hp
  have dat : ∀ (i : Nat) (c : WConfig), cfgs[i]? = some c → ∀ g l, objectPath c g l =
      root ++ '/' :: ("data/root/".toList ++ decimal i ++ "/c".toList ++ chunkKey (g :: l)) := by
    intro i c hc g l
    rw [objectPath_keyV3 (h.versionV3 hV c (List.mem_of_getElem? hc)), levelDirV3_eq h hl hc]
    unfold levelDirV3
    rw [List.append_assoc, List.cons_append]
  have chunk : ∀ (i : Nat) (c : WConfig), cfgs[i]? = some c → ∀ G l,
      ((∃ b, fileInStore w cfg (root ++ '/' :: ("data/root/".toList ++ decimal i ++ "/c".toList ++ chunkKey (G :: l))) tr = some b) ↔
        G < ceilDiv (ceilDiv (calls.flatten.length / 2 ^ i) (framesPerAt i a inner)) (shardAt i a) ∧
        InBounds (shardGridAt i (inner ++ [y, x])) l) := by
    intro i c hc G l
    have hL := h.levelShape hz hd hc
    obtain ⟨d1, d2⟩ := h.levelDims.1 c (List.mem_of_getElem? hc)
    have d3 := h.levelFitsV3 h3 c (List.mem_of_getElem? hc)
    have hkp : 0 < c.dims.append.shardSize := d3.pos c.dims.append (by simp [ArrayDims.toList])
    rw [level_fileV3 h hfr hs hc (.inr ⟨G, l, (dat i c hc G l).symm⟩), ← dat i c hc, ← hL.shardGrid]
    by_cases hin : InBounds (mShape c.dims.tailDims) l
    · have hp : objectPath c G l = shardPath c G (ravel (mShape c.dims.tailDims) l) := by
        unfold shardPath
        rw [unravel_ravel hin]
      rw [hp, fileAfter_shard d1 d2 d3 _ (ravel_lt hin), framesOfLevel_length]
      have e : groups c (calls.flatten.length / 2 ^ i) ≤ G * c.dims.append.shardSize ↔
          ¬ G < ceilDiv (ceilDiv (calls.flatten.length / 2 ^ i) (framesPerAt i a inner)) (shardAt i a) := by
        unfold groups
        rw [hL.framesPer, ← hL.shardSize, lt_ceilDiv_iff hkp]
        omega
      by_cases hg : groups c (calls.flatten.length / 2 ^ i) ≤ G * c.dims.append.shardSize
      · rw [if_pos hg]
        refine ⟨fun hb => by obtain ⟨b, hb⟩ := hb; simp at hb, fun hb => absurd hb.1 (e.1 hg)⟩
      · rw [if_neg hg]
        exact ⟨fun _ => ⟨not_not.1 fun hh => hg (e.2 hh), hin⟩, fun _ => ⟨_, rfl⟩⟩
    · have hnone : fileAfter (objectPath c G l)
          (runEventsV3 env c (framesOfLevel cfg i calls.flatten).flatten (framesOfLevel cfg i calls.flatten).length) = none := by
        have hab : about (objectPath c G l)
            (runEventsV3 env c (framesOfLevel cfg i calls.flatten).flatten (framesOfLevel cfg i calls.flatten).length) = [] := by
          apply about_none
          intro e he hpe
          rcases runEventsV3_path he with k1 | ⟨G', k, hk, k1⟩
          · rw [hpe] at k1
            exact objectPath_ne_meta c G l k1
          · rw [hpe] at k1
            unfold shardPath at k1
            obtain ⟨e1, e2⟩ := objectPath_inj k1
            apply hin
            rw [e2]
            exact unravel_inBounds hk
        rw [fileAfter_filter]
        unfold about at hab
        rw [hab]
        rfl
      rw [hnone]
      exact ⟨fun hb => by obtain ⟨b, hb⟩ := hb; simp at hb, fun hb => absurd hb.2 hin⟩
  have meta_ : ∀ (i : Nat) (c : WConfig), cfgs[i]? = some c →
      ((∃ b, fileInStore w cfg (root ++ '/' :: ("meta/root/".toList ++ decimal i ++ ".array.json".toList)) tr = some b) ↔
        0 < docFrames (framesPerAt i a inner) (shardAt i a) (calls.flatten.length / 2 ^ i)) := by
    intro i c hc
    have hL := h.levelShape hz hd hc
    obtain ⟨d1, d2⟩ := h.levelDims.1 c (List.mem_of_getElem? hc)
    have d3 := h.levelFitsV3 h3 c (List.mem_of_getElem? hc)
    rw [level_fileV3 h hfr hs hc (.inl (arr i c hc).symm), ← arr i c hc, fileAfter_meta_v3 d1 d2 d3, framesOfLevel_length,
      hL.framesPer, hL.shardSize]
    split
    · rename_i hh
      rw [hh]
      exact ⟨fun hb => by obtain ⟨b, hb⟩ := hb; simp at hb, fun hb => absurd hb (by omega)⟩
    · rename_i hh
      exact ⟨fun _ => Nat.pos_of_ne_zero hh, fun _ => ⟨_, rfl⟩⟩
  intro q
  constructor
  · rintro ⟨b, hb⟩
    have hex : ∃ e ∈ tr, e.path = root ++ '/' :: q := by
      apply Classical.byContradiction
      intro hne
      rw [fileInStore_fresh h.commit hfr, fileAfter, stepFile_none fun e he hp => hne ⟨e, he, hp⟩] at hb
      simp at hb
    obtain ⟨e, he, hep⟩ := hex
    rcases hs.rest e he with ⟨c, hcm, hown⟩ | ⟨key, hk, hkp⟩
    · obtain ⟨i, hi, hic⟩ := List.mem_iff_getElem.1 hcm
      have hc : cfgs[i]? = some c := by rw [List.getElem?_eq_getElem hi, hic]
      right
      refine ⟨i, hi, ?_⟩
      rw [hep] at hown
      rcases hown with hown | ⟨g, l, hown⟩
      · rw [arr i c hc] at hown
        have hq : q = "meta/root/".toList ++ decimal i ++ ".array.json".toList := by
          have := List.append_cancel_left hown
          exact (List.cons.inj this).2
        exact .inl ⟨(meta_ i c hc).1 ⟨b, by rw [← hq]; exact hb⟩, hq⟩
      · rw [dat i c hc] at hown
        have hq : q = "data/root/".toList ++ decimal i ++ "/c".toList ++ chunkKey (g :: l) := by
          have := List.append_cancel_left hown
          exact (List.cons.inj this).2
        exact .inr ⟨g, l, hq, (chunk i c hc g l).1 ⟨b, by rw [← hq]; exact hb⟩⟩
    · left
      rw [metaKeys_eq h.commit, hV] at hk
      obtain ⟨name, hname, rfl⟩ := List.mem_map.1 hk
      rw [hep, hloc.streamDoc h.commit] at hkp
      exact ⟨name, hname, (List.cons.inj (List.append_cancel_left hkp)).2⟩
  · rintro (⟨name, hname, rfl⟩ | ⟨i, hi, ⟨hpos, rfl⟩ | ⟨g, l, rfl, hg⟩⟩)
    · have hk : name.toList ∈ metaKeys cfg.version := by
        rw [metaKeys_eq h.commit, hV]; exact List.mem_map_of_mem hname
      have hd' := session_docs h.commit h.levels (by
        rw [hF]; exact ArrayDims.frameBytes_pos h.dimsValid h.fits) (by rw [hF]; exact hf) h1 hk
      rw [hloc.streamDoc h.commit] at hd'
      rw [fileInStore_fresh h.commit hfr, fileAfter_filter]
      change ∃ b, fileAfter _ (about _ tr) = some b
      rw [hd', ← Option.isSome_iff_exists]
      unfold fileAfter
      rw [List.cons_append, List.foldl_cons]
      apply fold_isSome
      rw [stepFile, if_neg (by simp [Ev.path])]
      rfl
    · have hc : cfgs[i]? = some cfgs[i] := List.getElem?_eq_getElem hi
      exact (meta_ i _ hc).2 hpos
    · have hc : cfgs[i]? = some cfgs[i] := List.getElem?_eq_getElem hi
      exact (chunk i _ hc g l).2 hg

end

/-! ### Violation and examples -/

namespace Sample

theorem slabSetup12 : Setup Sample.world 9 (slab 1 2) (slabCfg 1 2) [slabCfg 1 2] :=
  ⟨rfl, rfl, rfl, rfl, by decide, fun h => by cases h⟩

theorem slabSizes (k m : Nat) : SizesInRange (slab k m) := by
  intro d hd
  have : d ∈ [(⟨some "t".toList, 2, 0, k, m⟩ : DimProps), ⟨some "y".toList, 0, 1, 1, 1⟩, ⟨some "x".toList, 0, 1, 1, 1⟩] := hd
  simp only [List.mem_cons, List.not_mem_nil, or_false] at this
  rcases this with rfl | rfl | rfl <;> dsimp only <;> decide

theorem slabCodec (k m : Nat) : RealCodec (slab k m) := by intro c hc; cases hc

theorem slabStored (k m : Nat) : StoredAt (slab k m) "/tmp/a".toList := ⟨rfl, _, rfl, .inr (by decide)⟩
theorem slabFresh (k m : Nat) : Fresh Sample.world (slab k m) "/tmp/a".toList := .inl ⟨_, rfl, by decide⟩

end Sample

/-- **C53 is violated.** One frame per chunk, two chunks per shard. After one frame a successful session leaves no array
document at all; after three frames it leaves one that describes two. -/
theorem v3_document_violated :
    (∃ st tr, runStream Sample.world Sample.env 9 (Sample.slab 1 2) [[5]] = some (.ok (st, [1], tr)) ∧ st.error = [] ∧
      fileInStore Sample.world (Sample.slabCfg 1 2) "/tmp/a/meta/root/0.array.json".toList tr = none) ∧
    (∃ st tr b v, runStream Sample.world Sample.env 9 (Sample.slab 1 2) [[5, 6, 7]] = some (.ok (st, [3], tr)) ∧ st.error = [] ∧
      fileInStore Sample.world (Sample.slabCfg 1 2) "/tmp/a/meta/root/0.array.json".toList tr = some b ∧ JsonFile b v ∧
      LevelDoc (Sample.slab 1 2) ((Sample.slab 1 2).dimensions.getD []) 0 2 v) := by
  constructor
  · obtain ⟨st, tr, h1, h2, h3⟩ := v3_final_document (calls := [[[5]]]) Sample.slabSetup12 (by decide)
      (Sample.slabSizes 1 2) (Sample.slabCodec 1 2) Sample.storageOk Sample.overhead rfl
      (inner := []) rfl (Sample.slabStored 1 2) (Sample.slabFresh 1 2) (by decide) (by decide)
    exact ⟨st, tr, h1, h2, (h3 0 (by decide) 0 (by decide)).1 rfl⟩
  · obtain ⟨st, tr, h1, h2, h3⟩ := v3_final_document (calls := [[[5], [6], [7]]]) Sample.slabSetup12 (by decide)
      (Sample.slabSizes 1 2) (Sample.slabCodec 1 2) Sample.storageOk Sample.overhead rfl
      (inner := []) rfl (Sample.slabStored 1 2) (Sample.slabFresh 1 2) (by decide) (by decide)
    obtain ⟨b, v, k1, k2, k3⟩ := (h3 0 (by decide) 2 (by decide)).2 (by decide)
    exact ⟨st, tr, b, v, h1, h2, k1, k2, k3⟩

/-- The hypotheses of `v3_document_complete_partial` can be met: three frames, two per chunk and two chunks per shard. -/
example : ∃ st tr b v, runStream Sample.world Sample.env 9 (Sample.slab 2 2) [[5, 6], [7]] = some (.ok (st, [2, 1], tr)) ∧
    fileInStore Sample.world (Sample.slabCfg 2 2) "/tmp/a/meta/root/0.array.json".toList tr = some b ∧ JsonFile b v ∧
    LevelDoc (Sample.slab 2 2) ((Sample.slab 2 2).dimensions.getD []) 0 3 v := by
  obtain ⟨st, tr, h1, _, h3⟩ := v3_document_complete_partial (calls := [[[5], [6]], [[7]]]) Sample.slabSetup (by decide)
    (Sample.slabSizes 2 2) (Sample.slabCodec 2 2) Sample.storageOk Sample.overhead rfl
    (inner := []) rfl (Sample.slabStored 2 2) (Sample.slabFresh 2 2) (by decide) (by decide)
  obtain ⟨b, v, k1, k2, k3⟩ := h3 0 (by decide) 3 (by decide) (by decide) (.inl (by decide))
  exact ⟨st, tr, b, v, h1, k1, k2, k3⟩

/-- A non-trivial instance of `v3_objects_exact`: the second shard exists after three frames, a third does not. -/
example : ∃ st tr, runStream Sample.world Sample.env 9 (Sample.slab 1 2) [[5, 6, 7]] = some (.ok (st, [3], tr)) ∧
    (∃ b, fileInStore Sample.world (Sample.slabCfg 1 2) "/tmp/a/data/root/0/c1/0/0".toList tr = some b) ∧
    ∀ q, (∃ b, fileInStore Sample.world (Sample.slabCfg 1 2) ("/tmp/a".toList ++ '/' :: q) tr = some b) ↔
      ExpectedV3 ⟨some "t".toList, 2, 0, 1, 2⟩ [] ⟨some "y".toList, 0, 1, 1, 1⟩ ⟨some "x".toList, 0, 1, 1, 1⟩ 1 3 q := by
  obtain ⟨st, tr, h1, h3⟩ := v3_objects_exact (calls := [[[5], [6], [7]]]) Sample.slabSetup12 (by decide)
    (Sample.slabSizes 1 2) Sample.storageOk Sample.overhead rfl
    (inner := []) rfl (Sample.slabStored 1 2) (Sample.slabFresh 1 2) (by decide) (by decide)
  refine ⟨st, tr, h1, ?_, h3⟩
  have := (h3 ("data/root/".toList ++ decimal 0 ++ "/c".toList ++ chunkKey [1, 0, 0])).2
    (.inr ⟨0, by decide, .inr ⟨1, [0, 0], rfl, by decide, by decide⟩⟩)
  have e : "/tmp/a".toList ++ '/' :: ("data/root/".toList ++ decimal 0 ++ "/c".toList ++ chunkKey [1, 0, 0]) =
      "/tmp/a/data/root/0/c1/0/0".toList := by decide
  rw [e] at this
  exact this

end AZ
