import Verif.Lemmas.FilesV3
import Verif.Lemmas.ReadV2
import Verif.Spec.ZarrV3

set_option linter.unusedSimpArgs false

/-! # Reading a sharded array -/

namespace AZ
open Spec

theorem leNat_u64le {n : Nat} (h : n < 2 ^ 64) : leNat (u64le n) = n := by
  simp only [u64le, leNat, UInt8.toNat_ofNat']
  omega

theorem getElem?_split {t : List Nat} {i : Nat} (h : i < t.length) : ∃ v, t[i]? = some v :=
  ⟨_, List.getElem?_eq_getElem h⟩

/-- The index entry of a shard object made of data and table. -/
theorem shardEntry_table {data : Bytes} {table : List Nat} {slots slot o n : Nat} (hlen : table.length = 2 * slots)
    (h1 : table[2 * slot]? = some o) (h2 : table[2 * slot + 1]? = some n) (ho : o < 2 ^ 64) (hn : n < 2 ^ 64) :
    shardEntry (data ++ table.flatMap u64le) slots slot =
      some (if o = u64Max ∧ n = u64Max then none else some (o, n)) := by
  have hl : (table.flatMap u64le).length = 16 * slots := by rw [tableBytes_length, hlen]; omega
  unfold shardEntry
  rw [if_neg (by rw [List.length_append, hl]; omega)]
  have hd : (data ++ table.flatMap u64le).drop ((data ++ table.flatMap u64le).length - 16 * slots) =
      table.flatMap u64le := by
    rw [List.length_append, hl, Nat.add_sub_cancel, List.drop_left]
  rw [hd]
  have s1 := tableBytes_slice h1
  have s2 := tableBytes_slice h2
  unfold slice at s1 s2
  rw [show 8 * (2 * slot) = 16 * slot by omega] at s1
  rw [show 8 * (2 * slot + 1) = 16 * slot + 8 by omega] at s2
  dsimp only
  rw [s1, s2, leNat_u64le ho, leNat_u64le hn]
  unfold u64Max
  by_cases hc : o = 2 ^ 64 - 1 ∧ n = 2 ^ 64 - 1
  · rw [if_pos hc, if_pos hc]
  · rw [if_neg hc, if_neg hc]

section
variable {env : Env} {cfg : WConfig}

theorem tableOf_length (ps : List (Nat × Bytes)) : (tableOf cfg.dims ps).length = 2 * cfg.dims.slotCount := by
  simp [tableOf]

/-- Splitting the chunks of a shard at a chunk. -/
theorem partsOf_split (hv : cfg.dims.Valid) (hf : cfg.dims.Room) (h3 : cfg.dims.FitsV3) (S : Bytes) (g : Nat)
    {c : Nat} (hc : c < cfg.dims.chunkCount) :
    ∃ a b, partsOf env cfg S g (cfg.dims.shardIndexForChunk c) = a ++ (cfg.dims.shardInternalIndex c,
      storedForm env cfg (Spec.chunkBytes (aShape cfg.dims.tailDims) (cShape cfg.dims.toList)
        cfg.dims.dtype.bytes S (g :: cfg.dims.gridPos c))) :: b ∧
      (∀ x ∈ a, x.1 ≠ cfg.dims.shardInternalIndex c) ∧ ∀ x ∈ b, x.1 ≠ cfg.dims.shardInternalIndex c := by
  have hm : c ∈ chunksInShard cfg.dims cfg.dims.chunkCount (cfg.dims.shardIndexForChunk c) :=
    mem_chunksInShard.2 ⟨hc, rfl⟩
  obtain ⟨l1, l2, hl⟩ := List.append_of_mem hm
  have hnd := chunksInShard_nodup cfg.dims cfg.dims.chunkCount (cfg.dims.shardIndexForChunk c)
  rw [hl] at hnd
  unfold partsOf
  rw [hl, List.map_append, List.map_cons]
  have key : ∀ c', (c' ∈ l1 ∨ c' ∈ l2) → cfg.dims.shardInternalIndex c' ≠ cfg.dims.shardInternalIndex c := by
    intro c' hm' he
    have hmm : c' ∈ chunksInShard cfg.dims cfg.dims.chunkCount (cfg.dims.shardIndexForChunk c) := by
      rw [hl]; simp; tauto
    obtain ⟨hc', hs⟩ := mem_chunksInShard.1 hmm
    have := ArrayDims.shard_slot_inj hv hf h3 hc' hc hs he
    subst this
    rw [List.nodup_append] at hnd
    obtain ⟨_, hn2, hn3⟩ := hnd
    rcases hm' with h | h
    · exact hn3 c' h c' (by simp) rfl
    · exact (List.nodup_cons.1 hn2).1 h
  refine ⟨_, _, rfl, ?_, ?_⟩
  · intro x hx
    obtain ⟨c', hc', rfl⟩ := List.mem_map.1 hx
    exact key c' (.inl hc')
  · intro x hx
    obtain ⟨c', hc', rfl⟩ := List.mem_map.1 hx
    exact key c' (.inr hc')

/-- The index entry of a chunk's slot of the first append layer: the chunk of the layer stored last. -/
theorem entry_last (ho : SmallOverhead env) (hv : cfg.dims.Valid) (hf : cfg.dims.Room) (h3 : cfg.dims.FitsV3)
    (S : Bytes) {G j c : Nat} (hj : j < cfg.dims.append.shardSize) (hc : c < cfg.dims.chunkCount) :
    ∃ off, off + (storedForm env cfg (Spec.chunkBytes (aShape cfg.dims.tailDims) (cShape cfg.dims.toList)
        cfg.dims.dtype.bytes S ((G * cfg.dims.append.shardSize + j) :: cfg.dims.gridPos c))).length ≤
        totalLen (shardParts env cfg S G (j + 1) (cfg.dims.shardIndexForChunk c)) ∧
      slice ((shardParts env cfg S G (j + 1) (cfg.dims.shardIndexForChunk c)).flatMap (·.2) ++
        (tableOf cfg.dims (shardParts env cfg S G (j + 1) (cfg.dims.shardIndexForChunk c))).flatMap u64le) off
        (storedForm env cfg (Spec.chunkBytes (aShape cfg.dims.tailDims) (cShape cfg.dims.toList)
        cfg.dims.dtype.bytes S ((G * cfg.dims.append.shardSize + j) :: cfg.dims.gridPos c))).length =
        storedForm env cfg (Spec.chunkBytes (aShape cfg.dims.tailDims) (cShape cfg.dims.toList)
        cfg.dims.dtype.bytes S ((G * cfg.dims.append.shardSize + j) :: cfg.dims.gridPos c)) ∧
      shardEntry ((shardParts env cfg S G (j + 1) (cfg.dims.shardIndexForChunk c)).flatMap (·.2) ++
        (tableOf cfg.dims (shardParts env cfg S G (j + 1) (cfg.dims.shardIndexForChunk c))).flatMap u64le)
        cfg.dims.slotCount (cfg.dims.shardInternalIndex c) =
      some (some (off, (storedForm env cfg (Spec.chunkBytes (aShape cfg.dims.tailDims) (cShape cfg.dims.toList)
        cfg.dims.dtype.bytes S ((G * cfg.dims.append.shardSize + j) :: cfg.dims.gridPos c))).length)) := by
  have htot := shardParts_total ho hv hf h3 S (G := G) (j := j + 1) (i := cfg.dims.shardIndexForChunk c) hj
  obtain ⟨a, b, hab, _, hb⟩ := partsOf_split (env := env) hv hf h3 S (G * cfg.dims.append.shardSize + j) hc
  rw [shardParts_succ, hab] at htot ⊢
  clear hab
  generalize storedForm env cfg (Spec.chunkBytes (aShape cfg.dims.tailDims) (cShape cfg.dims.toList)
        cfg.dims.dtype.bytes S ((G * cfg.dims.append.shardSize + j) :: cfg.dims.gridPos c)) = d at *
  generalize shardParts env cfg S G j (cfg.dims.shardIndexForChunk c) = ps at *
  rw [← List.append_assoc] at htot ⊢
  have hslot := ArrayDims.slot_lt hv hf h3 hc
  have hle : totalLen (ps ++ a) + d.length ≤ totalLen (ps ++ a ++ (cfg.dims.shardInternalIndex c, d) :: b) := by
    rw [totalLen_append (ps ++ a), totalLen_cons]; dsimp only; omega
  obtain ⟨e1, e2⟩ := setParts_last (t := List.replicate (2 * cfg.dims.slotCount) u64Max) (off := 0) (a := ps ++ a)
    (d := d) (b := b) (s := cfg.dims.shardInternalIndex c) (by simp; omega) hb
  rw [Nat.zero_add] at e1
  refine ⟨totalLen (ps ++ a), hle, slice_parts _ _ _ _ _, ?_⟩
  rw [shardEntry_table (tableOf_length _) e1 e2 (by omega) (by omega), if_neg]
  unfold u64Max
  omega

/-- Slots of later append positions are never filled. -/
theorem entry_other (hv : cfg.dims.Valid) (hf : cfg.dims.Room) (h3 : cfg.dims.FitsV3)
    (S : Bytes) {G J i slot : Nat} (h1 : prod (kShape cfg.dims.tailDims) ≤ slot) (h2 : slot < cfg.dims.slotCount) :
    shardEntry ((shardParts env cfg S G J i).flatMap (·.2) ++
        (tableOf cfg.dims (shardParts env cfg S G J i)).flatMap u64le) cfg.dims.slotCount slot = some none := by
  have hne : ∀ x ∈ shardParts env cfg S G J i, x.1 ≠ slot := by
    intro x hx
    unfold shardParts at hx
    obtain ⟨q, _, hx⟩ := List.mem_flatMap.1 hx
    obtain ⟨c, hc, rfl⟩ := List.mem_map.1 hx
    have := ArrayDims.slot_lt_tail hv hf h3 (mem_chunksInShard.1 hc).1
    dsimp only
    omega
  obtain ⟨e1, e2⟩ := setParts_other (t := List.replicate (2 * cfg.dims.slotCount) u64Max) (off := 0) hne
  have r1 : (List.replicate (2 * cfg.dims.slotCount) u64Max)[2 * slot]? = some u64Max := by
    rw [List.getElem?_replicate, if_pos (by omega)]
  have r2 : (List.replicate (2 * cfg.dims.slotCount) u64Max)[2 * slot + 1]? = some u64Max := by
    rw [List.getElem?_replicate, if_pos (by omega)]
  rw [r1] at e1
  rw [r2] at e2
  rw [shardEntry_table (tableOf_length _) e1 e2 (by unfold u64Max; omega) (by unfold u64Max; omega),
    if_pos ⟨rfl, rfl⟩]

/-- Chunk prefix of the array of a V3 writer. -/
def arrayDirV3 (cfg : WConfig) : Text :=
  baseOf cfg.bucket.isSome cfg.storePath ++ ("data/root/".toList ++ decimal cfg.level ++ "/c".toList)

theorem objectPath_keyV3 (hV : cfg.version = .v3) (g : Nat) (l : List Nat) :
    objectPath cfg g l = arrayDirV3 cfg ++ chunkKey (g :: l) := by
  unfold objectPath arrayDirV3 dataMid
  rw [hV, chunkKey_cons]
  simp only [List.append_assoc]

/-- Elements of append layers that have not been started are zero. -/
theorem logicalByte_beyond (hv : cfg.dims.Valid) (hf : cfg.dims.Room) (S : Bytes) (n : Nat)
    (hS : S.length = n * cfg.dims.frameBytes) {t : Nat} {y : List Nat}
    (hy : InBounds (aShape cfg.dims.tailDims) y) (hg : groups cfg n ≤ t / cfg.dims.append.chunkSize) (s : Nat) :
    logicalByte (aShape cfg.dims.tailDims) cfg.dims.dtype.bytes S (t :: y) s = 0 := by
  have hFB := ArrayDims.framesPerChunk_pos hv hf
  unfold logicalByte
  rw [if_pos (by simpa using hy)]
  rw [List.getD_eq_getElem?_getD, List.getElem?_eq_none]
  · rfl
  · have hlt : n ≤ (t / cfg.dims.append.chunkSize) * cfg.dims.framesPerChunk := by
      have hg' : ¬ t / cfg.dims.append.chunkSize < groups cfg n := by omega
      unfold groups at hg'
      rw [lt_ceilDiv_iff hFB] at hg'
      omega
    have ht : (t / cfg.dims.append.chunkSize) * cfg.dims.framesPerChunk ≤ t * prod (aShape cfg.dims.inner) := by
      unfold ArrayDims.framesPerChunk
      rw [← Nat.mul_assoc]
      exact Nat.mul_le_mul_right _ (Nat.div_mul_le_self _ _)
    have hF : cfg.dims.frameBytes = cfg.dims.height.arraySize * cfg.dims.width.arraySize *
      cfg.dims.dtype.bytes := rfl
    have hprod : prod (aShape cfg.dims.tailDims) = prod (aShape cfg.dims.inner) *
        (cfg.dims.height.arraySize * cfg.dims.width.arraySize) := by
      simp [ArrayDims.tailDims, aShape_append, prod_append]
    rw [hS]
    calc n * cfg.dims.frameBytes ≤ (t * prod (aShape cfg.dims.inner)) * cfg.dims.frameBytes :=
          Nat.mul_le_mul_right _ (Nat.le_trans hlt ht)
      _ = t * prod (aShape cfg.dims.tailDims) * cfg.dims.dtype.bytes := by rw [hF, hprod]; ring
      _ ≤ ravel (0 :: aShape cfg.dims.tailDims) (t :: y) * cfg.dims.dtype.bytes := by
          apply Nat.mul_le_mul_right
          simp only [ravel]
          omega
      _ ≤ _ := Nat.le_add_right _ _

/-- The append coordinate that a reader of append coordinate `t` is actually given: the same position in
the last layer stored in the shard. -/
def shownT (cfg : WConfig) (n t : Nat) : Nat :=
  (t / cfg.dims.append.chunkSize + (layersIn cfg n (t / cfg.dims.append.chunkSize / cfg.dims.append.shardSize) - 1)) *
    cfg.dims.append.chunkSize + t % cfg.dims.append.chunkSize

/-- Exactly what a reader sees of a completed V3 run, for shards that have an index: layers that are not the
first of their shard read as zero, the first one shows the last one stored. -/
theorem readV3_run (ho : SmallOverhead env) (hV : cfg.version = .v3) (hv : cfg.dims.Valid)
    (hf : cfg.dims.Room) (h3 : cfg.dims.FitsV3) (S : Bytes) (n : Nat) (hS : S.length = n * cfg.dims.frameBytes)
    {file : Text → Option Bytes}
    (hfile : ∀ p, (∃ g l, p = arrayDirV3 cfg ++ chunkKey (g :: l)) → file p = fileAfter p (runEventsV3 env cfg S n))
    {decode : Bytes → Option Bytes}
    (hdec : ∀ b : Bytes, b.length = cfg.dims.chunkBytes → decode (storedForm env cfg b) = some b)
    {t : Nat} {y : List Nat} (hy : InBounds (aShape cfg.dims.tailDims) y)
    (hend : (t / cfg.dims.append.chunkSize / cfg.dims.append.shardSize + 1) * cfg.dims.append.shardSize ≤ groups cfg n ∨
      n % cfg.dims.framesPerChunk ≠ 0 ∨
      groups cfg n ≤ t / cfg.dims.append.chunkSize / cfg.dims.append.shardSize * cfg.dims.append.shardSize) :
    readV3 file (arrayDirV3 cfg) decode
      (cShape cfg.dims.toList) (kShape cfg.dims.toList) cfg.dims.dtype.bytes (t :: y) =
    some ((List.range cfg.dims.dtype.bytes).map fun s =>
      if t / cfg.dims.append.chunkSize % cfg.dims.append.shardSize = 0 then
        logicalByte (aShape cfg.dims.tailDims) cfg.dims.dtype.bytes S (shownT cfg n t :: y) s
      else 0) := by
  have hcs : cShape cfg.dims.toList = cfg.dims.append.chunkSize :: cShape cfg.dims.tailDims := rfl
  have hks : kShape cfg.dims.toList = cfg.dims.append.shardSize :: kShape cfg.dims.tailDims := rfl
  have hkA : 0 < cfg.dims.append.shardSize := h3.pos cfg.dims.append (by simp [ArrayDims.toList])
  have hcA := hv.append_chunk
  have hcp : ∀ c ∈ cShape cfg.dims.tailDims, 0 < c := by
    intro c hc
    obtain ⟨d, hd, rfl⟩ := List.mem_map.1 hc
    exact hv.tail_chunk d hd
  have hcp' : ∀ c ∈ cShape cfg.dims.toList, 0 < c := by
    rw [hcs]
    intro c hc
    rcases List.mem_cons.1 hc with rfl | hc
    · exact hv.append_chunk
    · exact hcp c hc
  have hyl : y.length = (cShape cfg.dims.tailDims).length := by rw [hy.length]; simp
  have hgrid : gridOf (cShape cfg.dims.toList) (t :: y) =
      (t / cfg.dims.append.chunkSize) :: gridOf (cShape cfg.dims.tailDims) y := by
    rw [hcs]; rfl
  have hgb := gridOf_inBounds (cs := cShape cfg.dims.tailDims) hcp (by simp) hy
  rw [zipWith_ceilDiv] at hgb
  have hwb := withinOf_inBounds (cs := cShape cfg.dims.toList) (x := t :: y) hcp' (by rw [hcs]; simp [hyl])
  have hzero : some (List.replicate cfg.dims.dtype.bytes (0 : UInt8)) =
      some ((List.range cfg.dims.dtype.bytes).map fun _ => (0 : UInt8)) := by
    simp [List.map_const']
  generalize hgl : gridOf (cShape cfg.dims.tailDims) y = gl at *
  -- the chunk buffer of the element
  obtain ⟨c, hcdef⟩ : ∃ c, c = ravel (nShape cfg.dims.tailDims) gl := ⟨_, rfl⟩
  have hc : c < cfg.dims.chunkCount := by rw [hcdef]; exact ravel_lt hgb
  have hpos : cfg.dims.gridPos c = gl := by
    unfold ArrayDims.gridPos; rw [hcdef]; exact unravel_ravel hgb
  have hsi := ArrayDims.shardIndexForChunk_eq hv hf h3 hc
  have hii := ArrayDims.shardInternalIndex_eq hv hf h3 hc
  rw [hpos] at hsi hii
  have hsb := ArrayDims.shardPos_inBounds h3 hgb
  have hgk : gridOf (kShape cfg.dims.toList) ((t / cfg.dims.append.chunkSize) :: gl) =
      (t / cfg.dims.append.chunkSize / cfg.dims.append.shardSize) :: gridOf (kShape cfg.dims.tailDims) gl := by
    rw [hks]; rfl
  have hslot : ravel (kShape cfg.dims.toList) (withinOf (kShape cfg.dims.toList) ((t / cfg.dims.append.chunkSize) :: gl)) =
      t / cfg.dims.append.chunkSize % cfg.dims.append.shardSize * prod (kShape cfg.dims.tailDims) +
        cfg.dims.shardInternalIndex c := by
    rw [hks, hii]; rfl
  have hpath : objectPath cfg (t / cfg.dims.append.chunkSize / cfg.dims.append.shardSize)
      (gridOf (kShape cfg.dims.tailDims) gl) = shardPath cfg
        (t / cfg.dims.append.chunkSize / cfg.dims.append.shardSize) (cfg.dims.shardIndexForChunk c) := by
    unfold shardPath
    rw [hsi, unravel_ravel hsb]
  have hsl := ArrayDims.slot_lt_tail hv hf h3 hc
  have hmod := Nat.mod_lt (t / cfg.dims.append.chunkSize) hkA
  have hdm := Nat.div_add_mod (t / cfg.dims.append.chunkSize) cfg.dims.append.shardSize
  have hdt := Nat.div_add_mod t cfg.dims.append.chunkSize
  unfold readV3
  dsimp only
  rw [hgrid, hgk, hfile _ ⟨_, _, rfl⟩, ← objectPath_keyV3 hV, hpath,
    fileAfter_shard hv hf h3 S (ArrayDims.shardIndex_lt hv hf h3 hc), hslot]
  unfold shownT layersIn
  generalize hg : t / cfg.dims.append.chunkSize = g at *
  generalize hG : g / cfg.dims.append.shardSize = G at *
  have hGg : G * cfg.dims.append.shardSize ≤ g := by rw [Nat.mul_comm]; omega
  by_cases hnone : groups cfg n ≤ G * cfg.dims.append.shardSize
  · rw [if_pos hnone]
    dsimp only
    rw [hzero]
    congr 1
    apply List.map_congr_left
    intro s _
    split
    · rename_i hz
      rw [logicalByte_beyond hv hf S n hS hy]
      rw [Nat.le_div_iff_mul_le hcA]
      refine Nat.le_trans (Nat.mul_le_mul_right _ ?_) (Nat.le_add_right _ _)
      exact Nat.le_trans (Nat.le_trans hnone hGg) (Nat.le_add_right _ _)
    · rfl
  · rw [if_neg hnone]
    have hcl : (G + 1) * cfg.dims.append.shardSize ≤ groups cfg n ∨ n % cfg.dims.framesPerChunk ≠ 0 := by
      rcases hend with h | h | h
      · exact .inl h
      · exact .inr h
      · exact absurd h hnone
    rw [if_pos hcl]
    have hJ : ∃ j, min cfg.dims.append.shardSize (groups cfg n - G * cfg.dims.append.shardSize) = j + 1 ∧
        j < cfg.dims.append.shardSize := by
      refine ⟨min cfg.dims.append.shardSize (groups cfg n - G * cfg.dims.append.shardSize) - 1, ?_, ?_⟩ <;> omega
    obtain ⟨j, hj, hjlt⟩ := hJ
    rw [hj]
    dsimp only
    have hslc : prod (kShape cfg.dims.toList) = cfg.dims.slotCount := rfl
    rw [hslc]
    by_cases hz : g % cfg.dims.append.shardSize = 0
    · rw [hz, Nat.zero_mul, Nat.zero_add]
      have hgG : g = G * cfg.dims.append.shardSize := by rw [Nat.mul_comm]; omega
      obtain ⟨off, o1, o2, o3⟩ := entry_last ho hv hf h3 S (G := G) hjlt hc
      rw [o3]
      dsimp only
      unfold slice at o2
      rw [hpos, ← hgG] at o1 o2
      rw [hpos, ← hgG]
      rw [if_pos (by rw [List.length_append, totalLen_eq]; omega), o2]
      have hlen : (Spec.chunkBytes (aShape cfg.dims.tailDims) (cShape cfg.dims.toList)
          cfg.dims.dtype.bytes S ((g + j) :: gl)).length =
        prod (cShape cfg.dims.toList) * cfg.dims.dtype.bytes := by simp [Spec.chunkBytes]
      simp only [hdec _ hlen, hlen, if_true]
      rw [chunkBytes_slice (ArrayDims.dtype_pos _) _ _ hwb]
      congr 1
      apply List.map_congr_left
      intro s _
      congr 1
      have e1 : globalCoord (cShape cfg.dims.toList) ((g + j) :: gl) (withinOf (cShape cfg.dims.toList) (t :: y)) =
          ((g + j) * cfg.dims.append.chunkSize + t % cfg.dims.append.chunkSize) ::
            globalCoord (cShape cfg.dims.tailDims) gl (withinOf (cShape cfg.dims.tailDims) y) := by
        rw [hcs]; rfl
      rw [e1, ← hgl, globalCoord_grid_within hyl]
      simp
    · rw [entry_other hv hf h3 S (by
          have : 1 * prod (kShape cfg.dims.tailDims) ≤ g % cfg.dims.append.shardSize * prod (kShape cfg.dims.tailDims) :=
            Nat.mul_le_mul_right _ (by omega)
          omega) (by
          have : (g % cfg.dims.append.shardSize + 1) * prod (kShape cfg.dims.tailDims) ≤ cfg.dims.slotCount :=
            Nat.mul_le_mul_right _ hmod
          rw [Nat.add_mul] at this
          omega)]
      dsimp only
      rw [hzero]
      simp only [if_neg hz]

end
end AZ
