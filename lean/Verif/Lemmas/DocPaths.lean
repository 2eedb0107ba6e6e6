import Verif.Lemmas.Documents

set_option linter.unusedSimpArgs false

/-! # Names of the documents; documents of a session in terms of the settings -/

namespace AZ
open Spec

/-- The dataset's objects are named relative to `root`: the store path of a filesystem store with or
without `file://`, or the key prefix in the bucket. -/
def LocatedAt (s : Settings) (root : Text) : Prop :=
  StoredAt s root ∨ (s.s3.isSome ∧ ∃ p, s.storePath = some p ∧ trim p = root)

theorem LocatedAt.base {s : Settings} {root : Text} (h : LocatedAt s root) {cfg c : WConfig}
    (hc : commitSettings s = .ok cfg) (hs : SameStore cfg c) : baseOf c.bucket.isSome c.storePath = root ++ ['/'] := by
  rcases h with h | ⟨h1, p, h2, h3⟩
  · exact storeAt_base (h.storeAt hc hs)
  · obtain ⟨_, k2, k3, _⟩ := commit_fields hc
    rw [← hs.bucket, ← hs.store, k2, k3, h2]
    have : (s.s3.map fun x => trim (x.bucketName.getD [])).isSome = true := by rw [Option.isSome_map]; exact h1
    rw [this]
    simp only [Option.getD_some, h3]
    unfold baseOf
    rw [Bool.not_true, Bool.false_and]
    rfl

theorem metaMid_eq {s : Settings} {cfg : WConfig} (hc : commitSettings s = .ok cfg) (i : Nat) :
    metaMid cfg.version i = arrayDocName s.version i := by
  rw [(commit_fields hc).2.2.2.2]
  unfold metaMid arrayDocName
  by_cases h : s.version = 2
  · rw [if_pos h, if_pos h]
  · rw [if_neg h, if_neg h]

theorem LocatedAt.arrayDoc {w : World} {fuel : Nat} {s : Settings} {root : Text} (h : LocatedAt s root)
    {cfg c : WConfig} {cfgs : List WConfig} (hS : Setup w fuel s cfg cfgs) {i : Nat} (hc : cfgs[i]? = some c) :
    arrayMetaPath c = root ++ '/' :: arrayDocName s.version i := by
  obtain ⟨h1, h2⟩ := levelConfigs_inherits hS.levels hc
  rw [arrayMetaPath_eq, h.base hS.commit h1.same, ← h1.same.version, h2, (commit_fields hS.commit).1, Nat.zero_add,
    metaMid_eq hS.commit]
  simp

theorem stripFile_located {cfg : WConfig} {root : Text} (h : StoreAt cfg root) : stripFile cfg.storePath = root := by
  obtain ⟨_, h⟩ := h
  unfold stripFile
  rcases h with h | ⟨h1, h2⟩
  · rw [h]
    have : "file://".toList.isPrefixOf ("file://".toList ++ root) = true := by
      rw [List.isPrefixOf_iff_prefix]; exact List.prefix_append _ _
    rw [this]
    rfl
  · rw [h1]
    have : "file://".toList.isPrefixOf root = false := by
      rw [Bool.eq_false_iff]
      intro hp
      have : "file:/".toList.isPrefixOf root = true := by
        rw [List.isPrefixOf_iff_prefix] at hp ⊢
        exact List.IsPrefix.trans ⟨['/'], by decide⟩ hp
      rw [this] at h2
      exact absurd h2 (by decide)
    rw [this]
    rfl

theorem LocatedAt.streamDoc {s : Settings} {root : Text} (h : LocatedAt s root) {cfg : WConfig}
    (hc : commitSettings s = .ok cfg) (key : Text) : metaSinkPath cfg key = root ++ '/' :: key := by
  unfold metaSinkPath
  rcases h with h | ⟨h1, p, h2, h3⟩
  · have hs := h.storeAt hc (SameStore.refl _)
    rw [stripFile_located hs, hs.1]
    rfl
  · obtain ⟨_, k2, k3, _⟩ := commit_fields hc
    rw [k2, k3, h2]
    have : (s.s3.map fun x => trim (x.bucketName.getD [])).isSome = true := by rw [Option.isSome_map]; exact h1
    rw [this, if_pos rfl]
    simp only [Option.getD_some, h3]

theorem metaKeys_eq {s : Settings} {cfg : WConfig} (hc : commitSettings s = .ok cfg) :
    metaKeys cfg.version = (streamDocNames s.version).map String.toList := by
  rw [(commit_fields hc).2.2.2.2]
  unfold metaKeys streamDocNames
  by_cases h : s.version = 2
  · rw [if_pos h, if_pos h]; rfl
  · rw [if_neg h, if_neg h]; rfl

/-! ### Levels in terms of the settings -/

theorem toDim_isChannel (d : DimProps) : d.toDim.isChannel = d.isChannel := by
  unfold Dim.isChannel DimProps.isChannel DimProps.toDim DimType.fromC
  dsimp only
  split <;> simp_all

/-- No array size is the largest 32-bit number (for which `downsample` overflows and throws). -/
def SizesInRange (s : Settings) : Prop := ∀ d ∈ s.dimensions.getD [], d.arraySize < 2 ^ 32 - 1

section
variable {w : World} {fuel : Nat} {s : Settings} {cfg : WConfig} {cfgs : List WConfig}
  {a y x : DimProps} {inner : List DimProps}

theorem sizesOk_of (hv : validateSettings w (some s) = .ok true) (hc : commitSettings s = .ok cfg)
    (hz : SizesInRange s) : SizesOk cfg.dims := by
  obtain ⟨ds, hds, hd⟩ := (validateSettings_ok hv).dims
  obtain ⟨a, inner, y, x, rfl⟩ := dimsAccepted_split hd
  obtain ⟨cfg', h1, h2⟩ := commit_dims hds
  rw [hc] at h1
  cases h1
  intro d hdm
  rw [h2] at hdm
  have : ∃ q ∈ a :: (inner ++ [y, x]), d = q.toDim := by
    simp only [ArrayDims.toList, List.mem_cons, List.mem_append, List.mem_map, List.not_mem_nil, or_false] at hdm ⊢
    rcases hdm with rfl | ⟨q, hq, rfl⟩ | rfl | rfl
    · exact ⟨a, .inl rfl, rfl⟩
    · exact ⟨q, .inr (.inl hq), rfl⟩
    · exact ⟨y, by simp, rfl⟩
    · exact ⟨x, by simp, rfl⟩
  obtain ⟨q, hq, rfl⟩ := this
  exact ⟨hz q (by rw [hds]; exact hq), (hd.each q hq).2.2.1⟩

theorem Setup0.sizesOk (h : Setup0 w fuel s cfg cfgs) (hz : SizesInRange s) : SizesOk cfg.dims :=
  sizesOk_of h.valid h.commit hz

theorem Setup.sizesOk (h : Setup w fuel s cfg cfgs) (hz : SizesInRange s) : SizesOk cfg.dims := h.base.sizesOk hz

/-- The configuration of level `i`. -/
theorem levelCfg_of (hs : SizesOk cfg.dims) (hl : levelConfigs fuel s.multiscale cfg = some (.ok cfgs))
    {i : Nat} {c : WConfig} (hc : cfgs[i]? = some c) : c = cfgAt i cfg := by
  cases hm : s.multiscale with
  | false =>
    rw [hm] at hl
    simp only [levelConfigs, Bool.false_eq_true, if_false, Option.some.injEq, Res.ok.injEq] at hl
    subst hl
    cases i with
    | zero => simp at hc; rw [← hc, cfgAt_zero]
    | succ i => simp at hc
  | true =>
    rw [hm] at hl
    obtain ⟨k, _, _, rfl⟩ := levelConfigs_closed hs hl
    rw [List.getElem?_map] at hc
    rcases Nat.lt_or_ge i (k + 2) with hlt | hge
    · rw [List.getElem?_range hlt] at hc
      simpa using hc.symm
    · rw [List.getElem?_eq_none (by simpa using hge)] at hc
      simp at hc

theorem Setup0.levelCfg (h : Setup0 w fuel s cfg cfgs) (hz : SizesInRange s) {i : Nat} {c : WConfig}
    (hc : cfgs[i]? = some c) : c = cfgAt i cfg := levelCfg_of (h.sizesOk hz) h.levels hc

theorem Setup.levelCfg (h : Setup w fuel s cfg cfgs) (hz : SizesInRange s) {i : Nat} {c : WConfig}
    (hc : cfgs[i]? = some c) : c = cfgAt i cfg := h.base.levelCfg hz hc

structure LevelShape (s : Settings) (c : WConfig) (a y x : DimProps) (inner : List DimProps) (i : Nat) : Prop where
  tail : aShape c.dims.tailDims = sizesAt i (inner ++ [y, x])
  innerSizes : aShape c.dims.inner = sizesAt i inner
  chunks : cShape c.dims.toList = chunksAt i (a :: (inner ++ [y, x]))
  tailChunks : cShape c.dims.tailDims = chunksAt i (inner ++ [y, x])
  shards : kShape c.dims.toList = shardsAt i (a :: (inner ++ [y, x]))
  append : c.dims.append.chunkSize = levelChunk a.isChannel a.arraySize a.chunkSize i
  height : c.dims.height.arraySize = levelSize y.isChannel y.arraySize i
  width : c.dims.width.arraySize = levelSize x.isChannel x.arraySize i
  dtype : c.dims.dtype = DType.fromC s.dataType

theorem levelShape_of (hcm : commitSettings s = .ok cfg)
    (hd : s.dimensions = some (a :: (inner ++ [y, x]))) (i : Nat) :
    LevelShape s (cfgAt i cfg) a y x inner i := by
  obtain ⟨cfg', h1, h2⟩ := commit_dims hd
  rw [hcm] at h1
  cases h1
  have e : ∀ d : DimProps, dimAt i d.toDim = { d.toDim with
      arraySize := levelSize d.isChannel d.arraySize i
      chunkSize := levelChunk d.isChannel d.arraySize d.chunkSize i
      shardSize := levelShard d.isChannel d.arraySize d.chunkSize d.shardSize i } := by
    intro d
    unfold dimAt
    rw [toDim_isChannel]
    rfl
  unfold cfgAt dimsAt
  rw [h2]
  refine ⟨?_, ?_, ?_, ?_, ?_, ?_, ?_, ?_, rfl⟩
  all_goals simp [aShape, cShape, kShape, ArrayDims.tailDims, ArrayDims.toList, sizesAt, chunksAt, shardsAt, e]

theorem Setup0.levelShape (h : Setup0 w fuel s cfg cfgs) (hz : SizesInRange s)
    (hd : s.dimensions = some (a :: (inner ++ [y, x]))) {i : Nat} {c : WConfig} (hc : cfgs[i]? = some c) :
    LevelShape s c a y x inner i := by
  rw [h.levelCfg hz hc]
  exact levelShape_of h.commit hd i

theorem Setup.levelShape (h : Setup w fuel s cfg cfgs) (hz : SizesInRange s)
    (hd : s.dimensions = some (a :: (inner ++ [y, x]))) {i : Nat} {c : WConfig} (hc : cfgs[i]? = some c) :
    LevelShape s c a y x inner i := h.base.levelShape hz hd hc

end

end AZ
