import Verif.Props.ReadBackV3

set_option linter.unusedSimpArgs false

/-!
# C07, C08: assignment of chunks to shards, and the form of shard files
-/

namespace Spec

/-- Where the sharding specification puts the chunk at grid position `g :: l` (`g` along the append dimension):
position of the shard, and number of the chunk inside it. -/
def shardPlace (shards : List Nat) (chunk : List Nat) : List Nat × Nat :=
  (gridOf shards chunk, ravel shards (withinOf shards chunk))

end Spec

namespace AZ
open Spec

namespace ArrayDims

variable {D : ArrayDims}

/-- **C07**, the two functions: called with the number of a chunk counted over all append layers, they compute
what the specification demands, for every chunk number representable in their `uint32_t` argument. -/
theorem shard_functions_follow_spec (hv : D.Valid) (hf : D.Fits) (h3 : D.FitsV3) (n : Nat) (hn : n < 2 ^ 32) :
    D.shardIndexForChunk n = ravel (mShape D.tailDims)
      (shardPlace (kShape D.toList) (n / D.chunkCount :: unravel (nShape D.tailDims) (n % D.chunkCount))).1.tail ∧
    D.shardInternalIndex n =
      (shardPlace (kShape D.toList) (n / D.chunkCount :: unravel (nShape D.tailDims) (n % D.chunkCount))).2 := by
  have hok := shardOk hv hf h3
  have hlt := shardCount_lt hv hf h3
  have hks : kShape D.toList = D.append.shardSize :: kShape D.tailDims := rfl
  have hkA : 0 < D.append.shardSize := h3.pos D.append (by simp [toList])
  have hcp : 0 < D.chunkCount := chunkCount_pos hv
  have hmod := Nat.mod_lt n hcp
  have hkt : prod (kShape D.tailDims) ≤ D.slotCount := Nat.le_mul_of_pos_left _ hkA
  have hs := h3.slots
  constructor
  · unfold shardIndexForChunk
    rw [Nat.zero_div, Nat.zero_mul]
    have e0 : u32 (0 + u32 0) = 0 := by decide
    rw [e0, shardIndexLoop_eq hok (lt_trans hf.count (by norm_num)) n (by
      unfold shardCount at hlt; omega), Nat.zero_add]
    rw [hks]
    rfl
  · unfold shardInternalIndex shardPlace
    rw [chunkStride_eq (fun x hx => (hok x hx).1) (lt_trans hf.count (by norm_num))]
    have hin := withinOf_inBounds (cs := kShape D.tailDims) (x := unravel (nShape D.tailDims) (n % D.chunkCount)) (by
        intro k hk
        obtain ⟨d, hd, rfl⟩ := List.mem_map.1 hk
        exact (hok d hd).2.1) (by
        rw [(unravel_inBounds hmod).length]; simp)
    have hrl := ravel_lt hin
    have hgm := Nat.mod_lt (n / D.chunkCount) hkA
    have hsum : n / D.chunkCount % D.append.shardSize * prod (kShape D.tailDims) +
        ravel (kShape D.tailDims) (withinOf (kShape D.tailDims) (unravel (nShape D.tailDims) (n % D.chunkCount))) <
        D.slotCount := by
      have : (n / D.chunkCount % D.append.shardSize + 1) * prod (kShape D.tailDims) ≤ D.slotCount :=
        Nat.mul_le_mul_right _ hgm
      rw [Nat.add_mul] at this
      omega
    have hs' : D.slotCount < 2 ^ 31 := hs
    have hst : slotStride D.tailDims = prod (kShape D.tailDims) := slotStride_eq (by
      intro d hd; exact (hok d hd).2.1) (by omega)
    rw [hst]
    have e0 : ∀ v, v < 2 ^ 64 → u64 (0 + u64 v) = v := by
      intro v hv'
      rw [u64_of_lt hv', Nat.zero_add, u64_of_lt hv']
    have hc2 : n / prod (nShape D.tailDims) = n / D.chunkCount := rfl
    simp only [hc2]
    rw [e0 _ (by omega), slotIndexLoop_eq hok (lt_trans hf.count (by norm_num)) n (by
      have hrl2 := hgm
      have : (n / D.chunkCount % D.append.shardSize + 1) * prod (kShape D.tailDims) ≤ D.slotCount :=
        Nat.mul_le_mul_right _ hgm
      rw [Nat.add_mul] at this
      omega)]
    have hm2 : n % prod (nShape D.tailDims) = n % D.chunkCount := rfl
    rw [hm2, u32_of_lt (by omega), hks]
    rfl

/-- **C07**, the assignment the writer uses for append layer `g` (missing: layers that are not the first of their
shard, see `shard_assignment_violated`). The writer calls the functions with the number of the chunk buffer, which
counts the chunks of one layer only. Shard and slot are in range, different chunks get different places, every shard
has a chunk, the shard is the specified one, and so is the slot for layers that are first in their shard. -/
theorem shard_assignment_partial (hv : D.Valid) (hf : D.Fits) (h3 : D.FitsV3) :
    (∀ c < D.chunkCount, D.shardIndexForChunk c < D.numberOfShards ∧ D.shardInternalIndex c < D.chunksPerShard) ∧
    (∀ c < D.chunkCount, ∀ c' < D.chunkCount, D.shardIndexForChunk c = D.shardIndexForChunk c' →
      D.shardInternalIndex c = D.shardInternalIndex c' → c = c') ∧
    (∀ i < D.numberOfShards, ∃ c < D.chunkCount, D.shardIndexForChunk c = i) ∧
    (∀ g, ∀ c < D.chunkCount, D.shardIndexForChunk c = ravel (mShape D.tailDims)
      (shardPlace (kShape D.toList) (g :: unravel (nShape D.tailDims) c)).1.tail) ∧
    (∀ g, g % D.append.shardSize = 0 → ∀ c < D.chunkCount,
      D.shardInternalIndex c = (shardPlace (kShape D.toList) (g :: unravel (nShape D.tailDims) c)).2) := by
  refine ⟨?_, ?_, ?_, ?_, ?_⟩
  · intro c hc
    rw [numberOfShards_eq hv hf h3, chunksPerShard_eq h3]
    exact ⟨shardIndex_lt hv hf h3 hc, slot_lt hv hf h3 hc⟩
  · exact fun c hc c' hc' => shard_slot_inj hv hf h3 hc hc'
  · intro i hi
    rw [numberOfShards_eq hv hf h3] at hi
    exact shard_nonempty hv hf h3 hi
  · intro g c hc
    rw [shardIndexForChunk_eq hv hf h3 hc]
    rfl
  · intro g hg c hc
    rw [shardInternalIndex_eq hv hf h3 hc]
    unfold shardPlace
    show _ = g % D.append.shardSize * _ + _
    rw [hg, Nat.zero_mul, Nat.zero_add]
    rfl

/-- **C07 is false of the writer** for every configuration with more than one append chunk per shard: in a layer that
is not the first of its shard, *every* chunk is given a slot other than the specified one — one that belongs to a
chunk of the first layer. -/
theorem shard_assignment_violated (hv : D.Valid) (hf : D.Fits) (h3 : D.FitsV3) {g : Nat}
    (hg : g % D.append.shardSize ≠ 0) : ∀ c < D.chunkCount,
      D.shardInternalIndex c ≠ (shardPlace (kShape D.toList) (g :: unravel (nShape D.tailDims) c)).2 ∧
      D.shardInternalIndex c = (shardPlace (kShape D.toList)
        (g / D.append.shardSize * D.append.shardSize :: unravel (nShape D.tailDims) c)).2 := by
  intro c hc
  constructor
  · have hsl := slot_lt_tail hv hf h3 hc
    have : prod (kShape D.tailDims) ≤ (shardPlace (kShape D.toList) (g :: unravel (nShape D.tailDims) c)).2 := by
      unfold shardPlace
      show _ ≤ g % D.append.shardSize * prod (kShape D.tailDims) + _
      have : 1 * prod (kShape D.tailDims) ≤ g % D.append.shardSize * prod (kShape D.tailDims) :=
        Nat.mul_le_mul_right _ (by omega)
      omega
    omega
  · exact (shard_assignment_partial hv hf h3).2.2.2.2 _ (Nat.mul_mod_left _ _) c hc

end ArrayDims

/-- The sample has 18 chunks per layer (2 × 3 × 3) in 1 × 1 × 3 shards of six slots. -/
example : Sample.cfg3.dims.numberOfShards = 1 * 1 * 3 ∧ Sample.cfg3.dims.chunkCount = 2 * 3 * 3 ∧
    Sample.cfg3.dims.chunksPerShard = 6 ∧ Sample.cfg3.dims.FitsV3 := by decide

/-- The hypothesis of the violation: layer 1 of the sample with two append chunks per shard. -/
example : Sample.cfg32.dims.Valid ∧ Sample.cfg32.dims.Fits ∧ Sample.cfg32.dims.FitsV3 ∧
    1 % Sample.cfg32.dims.append.shardSize ≠ 0 ∧ Sample.cfg32.dims.chunkCount = 18 := by decide

/-! ### Form of the shard files -/

/-- What the index says about a slot: nothing, or the range of the last chunk stored for it. -/
theorem setParts_entry {t : List Nat} {off : Nat} (ps : List (Nat × Bytes)) (s : Nat) (hs : 2 * s + 1 < t.length) :
    ((∀ x ∈ ps, x.1 ≠ s) ∧ (setParts t off ps)[2 * s]? = t[2 * s]? ∧
        (setParts t off ps)[2 * s + 1]? = t[2 * s + 1]?) ∨
    ∃ a d b, ps = a ++ (s, d) :: b ∧ (setParts t off ps)[2 * s]? = some (off + totalLen a) ∧
      (setParts t off ps)[2 * s + 1]? = some d.length := by
  by_cases h : ∃ x ∈ ps, x.1 = s
  · right
    -- the last part with slot `s`
    have key : ∃ a d b, ps = a ++ (s, d) :: b ∧ ∀ x ∈ b, x.1 ≠ s := by
      induction ps with
      | nil => obtain ⟨x, hx, _⟩ := h; cases hx
      | cons p ps ih =>
        by_cases h' : ∃ x ∈ ps, x.1 = s
        · obtain ⟨a, d, b, rfl, hb⟩ := ih h'
          exact ⟨p :: a, d, b, rfl, hb⟩
        · obtain ⟨x, hx, hxs⟩ := h
          rcases List.mem_cons.1 hx with rfl | hx
          · refine ⟨[], x.2, ps, ?_, fun z hz hzs => h' ⟨z, hz, hzs⟩⟩
            rw [← hxs]; rfl
          · exact absurd ⟨x, hx, hxs⟩ h'
    obtain ⟨a, d, b, rfl, hb⟩ := key
    obtain ⟨e1, e2⟩ := setParts_last (t := t) (off := off) (a := a) (d := d) hs hb
    exact ⟨a, d, b, rfl, e1, e2⟩
  · left
    have hne : ∀ x ∈ ps, x.1 ≠ s := fun x hx hxs => h ⟨x, hx, hxs⟩
    exact ⟨hne, setParts_other hne⟩

theorem parts_disjoint {a b a' b' : List (Nat × Bytes)} {s s' : Nat} {d d' : Bytes} (hss : s ≠ s')
    (h : a ++ (s, d) :: b = a' ++ (s', d') :: b') :
    totalLen a + d.length ≤ totalLen a' ∨ totalLen a' + d'.length ≤ totalLen a := by
  rcases List.append_eq_append_iff.1 h with ⟨r, h1, h2⟩ | ⟨r, h1, h2⟩
  · cases r with
    | nil =>
      simp only [List.nil_append, List.cons.injEq, Prod.mk.injEq] at h2
      exact absurd h2.1.1 hss
    | cons z r =>
      left
      simp only [List.cons_append, List.cons.injEq] at h2
      rw [h1, totalLen_append, totalLen_cons, ← h2.1]
      dsimp only
      omega
  · cases r with
    | nil =>
      simp only [List.nil_append, List.cons.injEq, Prod.mk.injEq] at h2
      exact absurd h2.1.1.symm hss
    | cons z r =>
      right
      simp only [List.cons_append, List.cons.injEq] at h2
      rw [h1, totalLen_append, totalLen_cons, ← h2.1]
      dsimp only
      omega

/-- A shard object of `slots` slots is well formed: it ends in 16 bytes per slot, every entry is a range before the
index, and the ranges of different slots do not overlap. -/
structure WellFormedShard (raw : Bytes) (slots : Nat) : Prop where
  size : 16 * slots ≤ raw.length
  entries : ∀ slot < slots, ∃ e, shardEntry raw slots slot = some e
  inside : ∀ slot < slots, ∀ off len, shardEntry raw slots slot = some (some (off, len)) →
    off + len ≤ raw.length - 16 * slots
  disjoint : ∀ slot < slots, ∀ slot' < slots, slot ≠ slot' → ∀ off len off' len',
    shardEntry raw slots slot = some (some (off, len)) → shardEntry raw slots slot' = some (some (off', len')) →
    off + len ≤ off' ∨ off' + len' ≤ off

/-- An object made of parts followed by their table. -/
theorem wellFormed_parts {D : ArrayDims} {ps : List (Nat × Bytes)} (htot : totalLen ps < 2 ^ 64) :
    WellFormedShard (ps.flatMap (·.2) ++ (tableOf D ps).flatMap u64le) D.slotCount ∧
    ∀ slot < D.slotCount, shardEntry (ps.flatMap (·.2) ++ (tableOf D ps).flatMap u64le) D.slotCount slot = some none ↔
      ∀ x ∈ ps, x.1 ≠ slot := by
  have hl : (tableOf D ps).length = 2 * D.slotCount := by simp [tableOf]
  have hlen : (ps.flatMap (·.2) ++ (tableOf D ps).flatMap u64le).length = totalLen ps + 16 * D.slotCount := by
    rw [List.length_append, totalLen_eq, tableBytes_length, hl]; omega
  have key : ∀ slot < D.slotCount,
      ((∀ x ∈ ps, x.1 ≠ slot) ∧
        shardEntry (ps.flatMap (·.2) ++ (tableOf D ps).flatMap u64le) D.slotCount slot = some none) ∨
      ∃ a d b, ps = a ++ (slot, d) :: b ∧
        shardEntry (ps.flatMap (·.2) ++ (tableOf D ps).flatMap u64le) D.slotCount slot =
          some (some (totalLen a, d.length)) := by
    intro slot hslot
    rcases setParts_entry (t := List.replicate (2 * D.slotCount) u64Max) (off := 0) ps slot (by simp; omega) with
      ⟨h0, h1, h2⟩ | ⟨a, d, b, hps, h1, h2⟩
    · left
      have r1 : (List.replicate (2 * D.slotCount) u64Max)[2 * slot]? = some u64Max := by
        rw [List.getElem?_replicate, if_pos (by omega)]
      have r2 : (List.replicate (2 * D.slotCount) u64Max)[2 * slot + 1]? = some u64Max := by
        rw [List.getElem?_replicate, if_pos (by omega)]
      rw [r1] at h1
      rw [r2] at h2
      refine ⟨h0, ?_⟩
      rw [shardEntry_table hl h1 h2 (by unfold u64Max; omega) (by unfold u64Max; omega), if_pos ⟨rfl, rfl⟩]
    · right
      rw [Nat.zero_add] at h1
      have : totalLen a + d.length ≤ totalLen ps := by
        rw [hps, totalLen_append, totalLen_cons]; dsimp only; omega
      refine ⟨a, d, b, hps, ?_⟩
      rw [shardEntry_table hl h1 h2 (by omega) (by omega), if_neg]
      unfold u64Max
      omega
  refine ⟨⟨by rw [hlen]; omega, ?_, ?_, ?_⟩, ?_⟩
  · intro slot hs
    rcases key slot hs with ⟨_, h⟩ | ⟨a, d, b, _, h⟩ <;> exact ⟨_, h⟩
  · intro slot hs off len he
    rcases key slot hs with ⟨_, h⟩ | ⟨a, d, b, hps, h⟩
    · rw [h] at he; cases he
    · rw [h] at he
      cases he
      rw [hlen, hps, totalLen_append, totalLen_cons]
      dsimp only
      omega
  · intro slot hs slot' hs' hne off len off' len' he he'
    rcases key slot hs with ⟨_, h⟩ | ⟨a, d, b, hps, h⟩
    · rw [h] at he; cases he
    rcases key slot' hs' with ⟨_, h'⟩ | ⟨a', d', b', hps', h'⟩
    · rw [h'] at he'; cases he'
    rw [h] at he
    rw [h'] at he'
    cases he
    cases he'
    exact parts_disjoint hne (hps.symm.trans hps')
  · intro slot hs
    rcases key slot hs with ⟨h0, h⟩ | ⟨a, d, b, hps, h⟩
    · exact ⟨fun _ => h0, fun _ => h⟩
    · rw [h]
      constructor
      · intro e; cases e
      · intro e
        exact absurd rfl (e (slot, d) (by rw [hps]; simp))

section
variable {w : World} {env : Env} {fuel : Nat} {s : Settings} {cfg : WConfig} {cfgs : List WConfig}
  {a y x : DimProps} {inner : List DimProps} {root : Text} {calls : List (List Bytes)}

theorem mem_shardParts_slot {c : WConfig} {S : Bytes} {G J i slot : Nat} (hJ : 0 < J) :
    (∀ z ∈ shardParts env c S G J i, z.1 ≠ slot) ↔
      ¬ ∃ k < c.dims.chunkCount, c.dims.shardIndexForChunk k = i ∧ c.dims.shardInternalIndex k = slot := by
  constructor
  · rintro h ⟨k, h1, h2, h3⟩
    refine h (c.dims.shardInternalIndex k, _) (List.mem_flatMap.2 ⟨0, List.mem_range.2 hJ,
      List.mem_map.2 ⟨k, mem_chunksInShard.2 ⟨h1, h2⟩, rfl⟩⟩) h3
  · intro h z hz hzs
    obtain ⟨q, _, hz⟩ := List.mem_flatMap.1 hz
    obtain ⟨k, hk, rfl⟩ := List.mem_map.1 hz
    obtain ⟨h1, h2⟩ := mem_chunksInShard.1 hk
    exact h ⟨k, h1, h2, hzs⟩

/-- The shards of any level after a V3 session: what exists, and the form of those with an index. -/
theorem level_shard_form (h : Setup w fuel s cfg cfgs) (h3 : cfg.dims.FitsV3)
    (ho : SmallOverhead env) (hV : s.version = 3) (hr : StoredAt s root) (hfr : Fresh w s root)
    {frames : List Bytes} {tr : List Ev} (hs : SessionV3 env cfg cfgs frames tr) {lv : Nat} {c : WConfig}
    (hc : cfgs[lv]? = some c) {G : Nat} {sp : List Nat} (hsp : InBounds (mShape c.dims.tailDims) sp) :
    (groups c (framesOfLevel cfg lv frames).length ≤ G * c.dims.append.shardSize →
      fileInStore w cfg (levelDirV3 root lv ++ chunkKey (G :: sp)) tr = none) ∧
    (G * c.dims.append.shardSize < groups c (framesOfLevel cfg lv frames).length →
      (G + 1) * c.dims.append.shardSize ≤ groups c (framesOfLevel cfg lv frames).length ∨
        (framesOfLevel cfg lv frames).length % c.dims.framesPerChunk ≠ 0 →
      ∃ raw, fileInStore w cfg (levelDirV3 root lv ++ chunkKey (G :: sp)) tr = some raw ∧
        WellFormedShard raw (prod (kShape c.dims.toList)) ∧
        ∀ slot < prod (kShape c.dims.toList), shardEntry raw (prod (kShape c.dims.toList)) slot = some none ↔
          ¬ ∃ l, InBounds (nShape c.dims.tailDims) l ∧ gridOf (kShape c.dims.tailDims) l = sp ∧
            ravel (kShape c.dims.tailDims) (withinOf (kShape c.dims.tailDims) l) = slot) := by
  obtain ⟨hv, hfit⟩ := h.levelDims.1 c (List.mem_of_getElem? hc)
  have h3c := h.levelFitsV3 h3 c (List.mem_of_getElem? hc)
  have hi : ravel (mShape c.dims.tailDims) sp < c.dims.shardCount := ravel_lt hsp
  have hp : levelDirV3 root lv ++ chunkKey (G :: sp) = shardPath c G (ravel (mShape c.dims.tailDims) sp) := by
    unfold shardPath
    rw [objectPath_keyV3 (h.versionV3 hV c (List.mem_of_getElem? hc)), levelDirV3_eq h hr hc, unravel_ravel hsp]
  have hkA : 0 < c.dims.append.shardSize := h3c.pos c.dims.append (by simp [ArrayDims.toList])
  rw [level_shard h hr hfr hs hV hc, hp, fileAfter_shard hv hfit h3c _ hi]
  refine ⟨fun hle => if_pos hle, fun hgt hidx => ?_⟩
  rw [if_neg (by omega), if_pos hidx]
  refine ⟨_, rfl, ?_⟩
  have hJ : 0 < layersIn c (framesOfLevel cfg lv frames).length G := by unfold layersIn; omega
  have hJ' : layersIn c (framesOfLevel cfg lv frames).length G ≤ c.dims.append.shardSize := by unfold layersIn; omega
  have htot := shardParts_total ho hv hfit h3c (framesOfLevel cfg lv frames).flatten (G := G)
    (i := ravel (mShape c.dims.tailDims) sp) hJ'
  obtain ⟨w1, w2⟩ := wellFormed_parts (D := c.dims) (ps := shardParts env c (framesOfLevel cfg lv frames).flatten G
    (layersIn c (framesOfLevel cfg lv frames).length G) (ravel (mShape c.dims.tailDims) sp)) (by omega)
  refine ⟨w1, fun slot hslot => ?_⟩
  refine (w2 slot hslot).trans ?_
  rw [mem_shardParts_slot hJ]
  apply not_congr
  constructor
  · rintro ⟨k, k1, k2, k3⟩
    refine ⟨c.dims.gridPos k, ArrayDims.gridPos_inBounds k1, ?_, ?_⟩
    · rw [ArrayDims.shardIndexForChunk_eq hv hfit h3c k1] at k2
      have hb := ArrayDims.shardPos_inBounds h3c (ArrayDims.gridPos_inBounds k1)
      rw [← unravel_ravel hb, k2, unravel_ravel hsp]
    · rw [← ArrayDims.shardInternalIndex_eq hv hfit h3c k1]; exact k3
  · rintro ⟨l, l1, l2, l3⟩
    have hk : ravel (nShape c.dims.tailDims) l < c.dims.chunkCount := ravel_lt l1
    have hg : c.dims.gridPos (ravel (nShape c.dims.tailDims) l) = l := by
      unfold ArrayDims.gridPos; exact unravel_ravel l1
    refine ⟨ravel (nShape c.dims.tailDims) l, hk, ?_, ?_⟩
    · rw [ArrayDims.shardIndexForChunk_eq hv hfit h3c hk, hg, l2]
    · rw [ArrayDims.shardInternalIndex_eq hv hfit h3c hk, hg, l3]

/-- Chunks and shards along the dimensions after the append dimension, from the settings. -/
def chunkGrid (ds : List DimProps) : List Nat := ds.map fun d => ceilDiv d.arraySize d.chunkSize
def shardGrid (ds : List DimProps) : List Nat := ds.map fun d => ceilDiv (ceilDiv d.arraySize d.chunkSize) d.shardSize

theorem grids_of (hc : commitSettings s = .ok cfg) (hd : s.dimensions = some (a :: (inner ++ [y, x]))) :
    nShape cfg.dims.tailDims = chunkGrid (inner ++ [y, x]) ∧ mShape cfg.dims.tailDims = shardGrid (inner ++ [y, x]) ∧
      kShape cfg.dims.tailDims = (inner ++ [y, x]).map (·.shardSize) := by
  obtain ⟨cfg', h1, h2⟩ := commit_dims hd
  rw [hc] at h1
  cases h1
  refine ⟨?_, ?_, ?_⟩
  · rw [h2]; simp [nShape, ArrayDims.tailDims, DimProps.toDim, chunkGrid]
  · rw [h2]; simp [mShape, ArrayDims.tailDims, DimProps.toDim, shardGrid]
  · rw [h2]; simp [kShape, ArrayDims.tailDims, DimProps.toDim]

/-- **C08** (missing: the last clause for append shard sizes above 1, where the slots of all layers but the first are
marked missing although their chunks were stored, see `shard_missing_violated`; and shards at the end of a stream that
stops on a chunk boundary inside a shard have no index, see `shard_without_index`). For every V3 session and every
shard position: nothing is stored for append shards not reached; every other shard that is complete, or any if the
last chunk is incomplete, is well formed; and a slot of the first layer is marked missing exactly if it lies outside
the chunk grid, every slot of another layer always. -/
theorem shard_files_well_formed_partial (h : Setup w fuel s cfg cfgs) (h3 : cfg.dims.FitsV3) (hE : StorageOk env s)
    (ho : SmallOverhead env) (hV : s.version = 3)
    (hd : s.dimensions = some (a :: (inner ++ [y, x]))) (hr : StoredAt s root) (hfr : Fresh w s root)
    (hn : calls.flatten.length < 2 ^ 32)
    (hf : ∀ c ∈ calls, ∀ f ∈ c, f.length = y.arraySize * x.arraySize * itemSize s.dataType) :
    ∃ st tr, runStream w env fuel s (calls.map List.flatten) =
        some (.ok (st, calls.map (fun c => c.flatten.length), tr)) ∧ st.error = [] ∧
      ∀ (G : Nat) (sp : List Nat), InBounds (shardGrid (inner ++ [y, x])) sp →
        ∀ slots, slots = prod ((a :: (inner ++ [y, x])).map (·.shardSize)) →
        (chunksFor a inner calls.flatten.length ≤ G * a.shardSize →
          fileInStore w cfg (levelDirV3 root 0 ++ chunkKey (G :: sp)) tr = none) ∧
        (G * a.shardSize < chunksFor a inner calls.flatten.length →
          (G + 1) * a.shardSize ≤ chunksFor a inner calls.flatten.length ∨
            calls.flatten.length % framesPer a inner ≠ 0 →
          ∃ raw, fileInStore w cfg (levelDirV3 root 0 ++ chunkKey (G :: sp)) tr = some raw ∧
            WellFormedShard raw slots ∧
            ∀ slot < slots, shardEntry raw slots slot = some none ↔
              ¬ ∃ l, InBounds (chunkGrid (inner ++ [y, x])) l ∧
                shardPlace ((a :: (inner ++ [y, x])).map (·.shardSize)) (G * a.shardSize :: l) = (G :: sp, slot)) := by
  have hD := dimsOf h.valid h.commit hd
  obtain ⟨hK, hka⟩ := shards_of h.commit hd
  obtain ⟨hN, hM, hKt⟩ := grids_of h.commit hd
  obtain ⟨rest, hrest⟩ := levelConfigs_head h.levels
  have h0 : cfgs[0]? = some cfg := by rw [hrest]; rfl
  rw [← hD.frame] at hf
  obtain ⟨st, tr, k1, k2, k3⟩ := session_v3 h h3 hE ho hV hn hf
  refine ⟨st, tr, k1, k2, ?_⟩
  intro G sp hsp slots hslots
  have hgr : ∀ m, groups cfg m = chunksFor a inner m := by
    intro m; unfold groups chunksFor framesPer; rw [hD.perChunk]
  have hkA : 0 < a.shardSize := by rw [← hka]; exact h3.pos cfg.dims.append (by simp [ArrayDims.toList])
  obtain ⟨f1, f2⟩ := level_shard_form h h3 ho hV hr hfr k3 h0 (G := G) (sp := sp) (by rw [hM]; exact hsp)
  rw [framesOfLevel_zero, hka, hgr] at f1 f2
  refine ⟨f1, fun hG hi => ?_⟩
  obtain ⟨raw, r1, r2, r3⟩ := f2 hG (by rw [hD.perChunk]; exact hi)
  rw [hK, ← hslots] at r2 r3
  refine ⟨raw, r1, r2, fun slot hs => (r3 slot hs).trans (not_congr ?_)⟩
  rw [hN, hKt]
  have e1 : ∀ l, shardPlace ((a :: (inner ++ [y, x])).map (·.shardSize)) (G * a.shardSize :: l) =
      (G :: gridOf ((inner ++ [y, x]).map (·.shardSize)) l,
        ravel ((inner ++ [y, x]).map (·.shardSize)) (withinOf ((inner ++ [y, x]).map (·.shardSize)) l)) := by
    intro l
    unfold shardPlace
    show (G * a.shardSize / a.shardSize :: _, G * a.shardSize % a.shardSize * _ + _) = _
    rw [Nat.mul_div_cancel _ hkA, Nat.mul_mod_left, Nat.zero_mul, Nat.zero_add]
  constructor
  · rintro ⟨l, l1, l2, l3⟩
    exact ⟨l, l1, by rw [e1, l2, l3]⟩
  · rintro ⟨l, l1, l2⟩
    rw [e1] at l2
    simp only [Prod.mk.injEq, List.cons.injEq, true_and] at l2
    exact ⟨l, l1, l2⟩

/-- With one append chunk per shard, every shard that exists is well formed and the missing entries are exactly the
slots outside the chunk grid. -/
theorem shard_files_well_formed_one (h : Setup w fuel s cfg cfgs) (h3 : cfg.dims.FitsV3) (hE : StorageOk env s)
    (ho : SmallOverhead env) (hV : s.version = 3)
    (hd : s.dimensions = some (a :: (inner ++ [y, x]))) (hr : StoredAt s root) (hfr : Fresh w s root)
    (hn : calls.flatten.length < 2 ^ 32)
    (hf : ∀ c ∈ calls, ∀ f ∈ c, f.length = y.arraySize * x.arraySize * itemSize s.dataType) (hone : a.shardSize = 1) :
    ∃ st tr, runStream w env fuel s (calls.map List.flatten) =
        some (.ok (st, calls.map (fun c => c.flatten.length), tr)) ∧ st.error = [] ∧
      ∀ (G : Nat) (sp : List Nat) (raw : Bytes), InBounds (shardGrid (inner ++ [y, x])) sp →
        ∀ slots, slots = prod ((a :: (inner ++ [y, x])).map (·.shardSize)) →
        fileInStore w cfg (levelDirV3 root 0 ++ chunkKey (G :: sp)) tr = some raw →
        WellFormedShard raw slots ∧
        ∀ slot < slots, shardEntry raw slots slot = some none ↔
          ¬ ∃ l, InBounds (chunkGrid (inner ++ [y, x])) l ∧
            shardPlace ((a :: (inner ++ [y, x])).map (·.shardSize)) (G :: l) = (G :: sp, slot) := by
  obtain ⟨st, tr, k1, k2, k3⟩ := shard_files_well_formed_partial h h3 hE ho hV hd hr hfr hn hf
  refine ⟨st, tr, k1, k2, ?_⟩
  intro G sp raw hsp slots hslots hraw
  obtain ⟨f1, f2⟩ := k3 G sp hsp slots hslots
  rw [hone, Nat.mul_one] at f1
  rw [hone, Nat.mul_one, Nat.mul_one] at f2
  rcases Nat.lt_or_ge G (chunksFor a inner calls.flatten.length) with hG | hG
  · obtain ⟨raw', r1, r2, r3⟩ := f2 hG (.inl hG)
    rw [hraw] at r1
    cases r1
    exact ⟨r2, r3⟩
  · rw [f1 hG] at hraw; cases hraw

theorem chunksInShard_length {D : ArrayDims} (hv : D.Valid) (hf : D.Fits) (h3 : D.FitsV3) {sp : List Nat}
    (hsp : InBounds (mShape D.tailDims) sp) :
    (chunksInShard D D.chunkCount (ravel (mShape D.tailDims) sp)).length =
      (List.range D.chunkCount).countP
        (fun k => decide (gridOf (kShape D.tailDims) (unravel (nShape D.tailDims) k) = sp)) := by
  unfold chunksInShard
  rw [← List.countP_eq_length_filter]
  apply List.countP_congr
  intro k hk
  have hk := List.mem_range.1 hk
  simp only [beq_iff_eq, decide_eq_true_eq]
  rw [ArrayDims.shardIndexForChunk_eq hv hf h3 hk]
  have hb := ArrayDims.shardPos_inBounds h3 (ArrayDims.gridPos_inBounds hk)
  constructor
  · intro h
    have := congrArg (unravel (mShape D.tailDims)) h
    rwa [unravel_ravel hb, unravel_ravel hsp] at this
  · intro h
    unfold ArrayDims.gridPos
    rw [h]

theorem totalLen_const {ps : List (Nat × Bytes)} {m : Nat} (h : ∀ z ∈ ps, z.2.length = m) :
    totalLen ps = ps.length * m := by
  induction ps with
  | nil => simp
  | cons z ps ih =>
    rw [totalLen_cons, h z (by simp), ih fun z hz => h z (by simp [hz]), List.length_cons, Nat.succ_mul, Nat.add_comm]

theorem shardParts_count {c : WConfig} (S : Bytes) (G J i : Nat) :
    (shardParts env c S G J i).length = J * (chunksInShard c.dims c.dims.chunkCount i).length := by
  induction J with
  | zero => simp
  | succ J ih => rw [shardParts_succ, List.length_append, ih, Nat.succ_mul]; simp [partsOf]

/-- The last shard of a stream that stops on a chunk boundary inside it consists of chunk data only, without an
index: its size is exactly that of the chunks stored in it (layers in it, times chunk positions of the grid in the
shard, times the chunk size). For every session of this kind. -/
theorem shard_without_index (h : Setup w fuel s cfg cfgs) (h3 : cfg.dims.FitsV3) (hE : StorageOk env s)
    (ho : SmallOverhead env) (hV : s.version = 3)
    (hd : s.dimensions = some (a :: (inner ++ [y, x]))) (hr : StoredAt s root) (hfr : Fresh w s root)
    (hcomp : s.compression = none) (hn : calls.flatten.length < 2 ^ 32)
    (hf : ∀ c ∈ calls, ∀ f ∈ c, f.length = y.arraySize * x.arraySize * itemSize s.dataType) :
    ∃ st tr, runStream w env fuel s (calls.map List.flatten) =
        some (.ok (st, calls.map (fun c => c.flatten.length), tr)) ∧ st.error = [] ∧
      ∀ (G : Nat) (sp : List Nat), InBounds (shardGrid (inner ++ [y, x])) sp →
        calls.flatten.length % framesPer a inner = 0 → G * a.shardSize < chunksFor a inner calls.flatten.length →
        chunksFor a inner calls.flatten.length < (G + 1) * a.shardSize →
        ∃ raw, fileInStore w cfg (levelDirV3 root 0 ++ chunkKey (G :: sp)) tr = some raw ∧
          raw.length = (chunksFor a inner calls.flatten.length - G * a.shardSize) *
            (List.range (prod (chunkGrid (inner ++ [y, x])))).countP (fun k => decide
              (gridOf ((inner ++ [y, x]).map (·.shardSize)) (unravel (chunkGrid (inner ++ [y, x])) k) = sp)) *
            (prod ((a :: (inner ++ [y, x])).map (·.chunkSize)) * itemSize s.dataType) := by
  have hD := dimsOf h.valid h.commit hd
  obtain ⟨hK, hka⟩ := shards_of h.commit hd
  obtain ⟨hN, hM, hKt⟩ := grids_of h.commit hd
  obtain ⟨rest, hrest⟩ := levelConfigs_head h.levels
  have h0 : cfgs[0]? = some cfg := by rw [hrest]; rfl
  have hv := h.dimsValid
  rw [← hD.frame] at hf
  obtain ⟨st, tr, k1, k2, k3⟩ := session_v3 h h3 hE ho hV hn hf
  refine ⟨st, tr, k1, k2, ?_⟩
  intro G sp hsp hmod hG hlt
  have hgr : ∀ m, groups cfg m = chunksFor a inner m := by
    intro m; unfold groups chunksFor framesPer; rw [hD.perChunk]
  rw [← hM] at hsp
  have hp : levelDirV3 root 0 ++ chunkKey (G :: sp) = shardPath cfg G (ravel (mShape cfg.dims.tailDims) sp) := by
    unfold shardPath
    rw [objectPath_keyV3 (h.versionV3 hV cfg (List.mem_of_getElem? h0)), levelDirV3_eq h hr h0, unravel_ravel hsp]
  rw [level_shard h hr hfr k3 hV h0, hp, framesOfLevel_zero, fileAfter_shard hv h.fits h3 _ (ravel_lt hsp), hgr, hka]
  rw [if_neg (by omega), if_neg (by
    rw [hD.perChunk]
    unfold framesPer at hmod
    omega), List.append_nil]
  refine ⟨_, rfl, ?_⟩
  have hmul : (G + 1) * a.shardSize = G * a.shardSize + a.shardSize := by rw [Nat.add_mul, Nat.one_mul]
  have hlay : layersIn cfg calls.flatten.length G = chunksFor a inner calls.flatten.length - G * a.shardSize := by
    unfold layersIn
    rw [hgr, hka]
    omega
  rw [totalLen_eq, totalLen_const (m := prod ((a :: (inner ++ [y, x])).map (·.chunkSize)) * itemSize s.dataType),
    shardParts_count, chunksInShard_length hv h.fits h3 hsp, hlay, hKt, hN]
  · unfold ArrayDims.chunkCount
    rw [hN]
  · intro z hz
    obtain ⟨q, _, hz⟩ := List.mem_flatMap.1 hz
    obtain ⟨k, hk, rfl⟩ := List.mem_map.1 hz
    dsimp only
    unfold storedForm
    rw [(commit_fields h.commit).2.2.2.1, hcomp]
    simp only [Option.map_none, Spec.chunkBytes, List.length_map, List.length_range]
    rw [← hD.chunks, ← hD.item]

end

/-- Six frames: one append chunk of a shard of two; the shard (0, 0, 0, 0) has 6 chunks of 48 bytes and no index
(a reader would take the last 192 bytes for it). -/
example : ∃ st ns tr raw, runStream Sample.world Sample.env 9 Sample.settings32
      ([[(List.range 6).map Sample.frame].flatten].map List.flatten) = some (.ok (st, ns, tr)) ∧
      fileInStore Sample.world Sample.cfg32 ("/tmp/a.zarr/data/root/0/c".toList ++ "0/0/0/0".toList) tr = some raw ∧
      raw.length = 6 * 48 := by
  obtain ⟨st, tr, h1, h2, h3⟩ := shard_without_index (calls := [[(List.range 6).map Sample.frame].flatten]) Sample.setup32
    (by decide) Sample.storageOk Sample.overhead rfl
    (a := Sample.dimT2) (inner := [Sample.dimC]) (y := Sample.dimY) (x := Sample.dimX) rfl
    (root := "/tmp/a.zarr".toList) ⟨rfl, _, rfl, .inr (by decide)⟩ (.inl ⟨_, rfl, by decide⟩) rfl (by decide) (by
      intro c hc f hf
      rw [List.mem_singleton] at hc
      subst hc
      rw [List.flatten_cons, List.flatten_nil, List.append_nil] at hf
      obtain ⟨k, _, rfl⟩ := List.mem_map.1 hf
      exact Sample.frame_length k)
  obtain ⟨raw, r1, r2⟩ := h3 0 [0, 0, 0] (by decide) (by decide) (by decide) (by decide)
  exact ⟨st, _, tr, raw, h1, r1, r2⟩

/-! The sample: shard (0, 0, 0, 1) of 11 frames is well formed, with no missing slot, its last chunk incomplete. -/

example : ∃ st ns tr raw, runStream Sample.world Sample.env 9 Sample.settings3 (Sample.calls.map List.flatten) =
        some (.ok (st, ns, tr)) ∧
      fileInStore Sample.world Sample.cfg3 ("/tmp/a.zarr/data/root/0/c".toList ++ "1/0/0/1".toList) tr = some raw ∧
      WellFormedShard raw 6 ∧ shardEntry raw 6 5 ≠ some none := by
  obtain ⟨st, tr, h1, _, h3⟩ := shard_files_well_formed_partial (calls := Sample.calls) Sample.setup3 Sample.fitsV3
    Sample.storageOk Sample.overhead rfl
    (a := Sample.dimT) (inner := [Sample.dimC]) (y := Sample.dimY) (x := Sample.dimX) rfl Sample.storedAt3 Sample.fresh3
    (by decide) Sample.calls_sized
  obtain ⟨raw, r1, r2, r3⟩ := (h3 1 [0, 0, 1] (by decide) 6 rfl).2 (by decide) (by decide)
  refine ⟨st, _, tr, raw, h1, r1, r2, fun hno => ?_⟩
  exact (r3 5 (by decide)).1 hno ⟨[1, 2, 1], by decide, by decide⟩

/-- **C08 is false of the code** with two append chunks per shard: the shard at (0, 0, 0, 0) of a complete session is
marked as not containing chunk (1, 0, 0, 0), which was stored (its first pixel is that of frame 6). -/
theorem shard_missing_violated :
    ∃ st ns tr raw, runStream Sample.world Sample.env 9 Sample.settings32 (Sample.calls12.map List.flatten) =
        some (.ok (st, ns, tr)) ∧ st.error = [] ∧
      fileInStore Sample.world Sample.cfg32 ("/tmp/a.zarr/data/root/0/c".toList ++ "0/0/0/0".toList) tr = some raw ∧
      shardPlace [2, 2, 3, 1] [1, 0, 0, 0] = ([0, 0, 0, 0], 6) ∧ shardEntry raw 12 6 = some none := by
  obtain ⟨st, tr, h1, h2, h3⟩ := shard_files_well_formed_partial (calls := Sample.calls12) Sample.setup32 (by decide)
    Sample.storageOk Sample.overhead rfl
    (a := Sample.dimT2) (inner := [Sample.dimC]) (y := Sample.dimY) (x := Sample.dimX) rfl
    (root := "/tmp/a.zarr".toList) ⟨rfl, _, rfl, .inr (by decide)⟩ (.inl ⟨_, rfl, by decide⟩) (by decide) (by
      intro c hc f hf
      rw [Sample.calls12, List.mem_singleton] at hc
      subst hc
      obtain ⟨k, _, rfl⟩ := List.mem_map.1 hf
      exact Sample.frame_length k)
  obtain ⟨raw, r1, r2, r3⟩ := (h3 0 [0, 0, 0] (by decide) 12 rfl).2 (by decide) (by decide)
  refine ⟨st, _, tr, raw, h1, h2, r1, by decide, (r3 6 (by decide)).2 ?_⟩
  rintro ⟨l, l1, l2⟩
  match l, l1, l2 with
  | [c0, y0, x0], l1, l2 =>
    simp [InBounds, chunkGrid, ceilDiv, Sample.dimC, Sample.dimY, Sample.dimX] at l1
    simp [shardPlace, gridOf, withinOf, ravel, prod, Sample.dimC, Sample.dimY, Sample.dimX, Sample.dimT2] at l2
    omega
  | [], l1, _ => simp [InBounds, chunkGrid] at l1
  | [_], l1, _ => simp [InBounds, chunkGrid] at l1
  | [_, _], l1, _ => simp [InBounds, chunkGrid] at l1
  | _ :: _ :: _ :: _ :: _, l1, _ => simp [InBounds, chunkGrid] at l1

end AZ
