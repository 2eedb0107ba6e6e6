import Verif.Lemmas.WriterCommon

set_option linter.unusedSimpArgs false

/-! # Shard and slot of a chunk -/

namespace AZ
open Spec

namespace ArrayDims

/-- What `validate_dimension` adds for version 3 (`src/streaming/zarr.stream.cpp:177-187`: shard sizes are
positive) and the sizes for which the sharding arithmetic does not wrap: `along` (the `uint32_t` ceiling
division), `slots` (`2 * chunks_per_shard` in `uint32_t`), `rollover` (`chunk_size * shard_size` in
`uint32_t`), `frames` (frames per shard in `size_t`), `bytes` (the size of a shard, allowing Blosc's
overhead of 16 bytes per chunk). -/
structure FitsV3 (D : ArrayDims) : Prop where
  pos : ∀ d ∈ D.toList, 0 < d.shardSize
  along : ∀ d ∈ D.tailDims, ceilDiv d.arraySize d.chunkSize + d.shardSize ≤ 2 ^ 32
  slots : prod (kShape D.toList) < 2 ^ 31
  rollover : D.append.chunkSize * D.append.shardSize < 2 ^ 32
  frames : D.framesPerChunk * D.append.shardSize < 2 ^ 64
  bytes : prod (kShape D.toList) * (D.chunkBytes + 16) < 2 ^ 64
  append_array : D.append.arraySize < 2 ^ 32

instance (D : ArrayDims) : Decidable D.FitsV3 :=
  decidable_of_iff ((∀ d ∈ D.toList, 0 < d.shardSize) ∧
      (∀ d ∈ D.tailDims, ceilDiv d.arraySize d.chunkSize + d.shardSize ≤ 2 ^ 32) ∧
      prod (kShape D.toList) < 2 ^ 31 ∧ D.append.chunkSize * D.append.shardSize < 2 ^ 32 ∧
      D.framesPerChunk * D.append.shardSize < 2 ^ 64 ∧ prod (kShape D.toList) * (D.chunkBytes + 16) < 2 ^ 64 ∧
      D.append.arraySize < 2 ^ 32)
    ⟨fun ⟨a, b, c, d, e, f, g⟩ => ⟨a, b, c, d, e, f, g⟩, fun ⟨a, b, c, d, e, f, g⟩ => ⟨a, b, c, d, e, f, g⟩⟩

/-- Chunks per shard, shards per append layer (exact). -/
def slotCount (D : ArrayDims) : Nat := prod (kShape D.toList)
def shardCount (D : ArrayDims) : Nat := prod (mShape D.tailDims)

/-- Grid position of chunk buffer `c` in its append layer. -/
def gridPos (D : ArrayDims) (c : Nat) : List Nat := unravel (nShape D.tailDims) c

end ArrayDims

/-- A dimension for which chunk and shard counts are exact. -/
def ShardOk (d : Dim) : Prop :=
  DimOk d ∧ 0 < d.shardSize ∧ ceilDiv d.arraySize d.chunkSize + d.shardSize ≤ 2 ^ 32

theorem shardsAlong_eq {d : Dim} (h : ShardOk d) :
    shardsAlong d = ceilDiv (ceilDiv d.arraySize d.chunkSize) d.shardSize := by
  obtain ⟨h1, h2, h3⟩ := h
  unfold shardsAlong
  rw [if_neg (by omega), chunksAlong_eq h1, u32_of_lt (by omega)]
  rfl

theorem prodK_pos {ds : List Dim} (h : ∀ d ∈ ds, 0 < d.shardSize) : 0 < prod (kShape ds) := by
  apply prod_pos
  intro x hx
  obtain ⟨d, hd, rfl⟩ := List.mem_map.1 hx
  exact h d hd

theorem prodM_pos {ds : List Dim} (h : ∀ d ∈ ds, ShardOk d) : 0 < prod (mShape ds) := by
  apply prod_pos
  intro x hx
  obtain ⟨d, hd, rfl⟩ := List.mem_map.1 hx
  exact ceilDiv_pos (ceilDiv_pos (h d hd).1.2.1 (h d hd).1.1) (h d hd).2.1

theorem prodM_le {ds : List Dim} (h : ∀ d ∈ ds, ShardOk d) : prod (mShape ds) ≤ prod (nShape ds) := by
  induction ds with
  | nil => simp
  | cons d ds ih =>
    simp only [mShape_cons, nShape_cons, prod_cons]
    exact Nat.mul_le_mul (ceilDiv_le (h d (by simp)).2.1) (ih fun x hx => h x (by simp [hx]))

theorem shardStride_eq {ds : List Dim} (h : ∀ d ∈ ds, ShardOk d) (hb : prod (mShape ds) < 2 ^ 32) :
    ArrayDims.shardStride ds = prod (mShape ds) := by
  have hm : ds.map shardsAlong = mShape ds := List.map_congr_left fun d hd => shardsAlong_eq (h d hd)
  unfold ArrayDims.shardStride
  rw [foldr_u32_eq shardsAlong ds, hm]
  · intro d hd
    rw [shardsAlong_eq (h d hd)]
    exact ceilDiv_pos (ceilDiv_pos (h d hd).1.2.1 (h d hd).1.1) (h d hd).2.1
  · rw [hm]; exact hb

theorem slotStride_eq {ds : List Dim} (h : ∀ d ∈ ds, 0 < d.shardSize) (hb : prod (kShape ds) < 2 ^ 64) :
    ArrayDims.slotStride ds = prod (kShape ds) :=
  foldr_u64_eq (fun d : Dim => d.shardSize) ds h hb

theorem unravel_mod (d : Dim) (ds : List Dim) (c : Nat) :
    unravel (nShape (d :: ds)) (c % prod (nShape (d :: ds))) =
      c % prod (nShape (d :: ds)) / prod (nShape ds) :: unravel (nShape ds) (c % prod (nShape ds)) := by
  simp only [nShape_cons, unravel]
  congr 2
  simp only [prod_cons]
  exact Nat.mod_mul_left_mod ..

theorem shardIndexLoop_eq {ds : List Dim} (h : ∀ d ∈ ds, ShardOk d) (hn : prod (nShape ds) < 2 ^ 32)
    (c : Nat) {acc : Nat} (hacc : acc + prod (mShape ds) ≤ 2 ^ 32) :
    ArrayDims.shardIndexLoop c ds acc =
      acc + ravel (mShape ds) (gridOf (kShape ds) (unravel (nShape ds) (c % prod (nShape ds)))) := by
  induction ds generalizing acc with
  | nil => simp [ArrayDims.shardIndexLoop, ravel]
  | cons d ds ih =>
    have hds := fun x hx => h x (List.mem_cons_of_mem _ hx)
    obtain ⟨h1, h2, h3⟩ := h d (by simp)
    have hnd := ceilDiv_pos h1.2.1 h1.1
    have hmd := ceilDiv_pos hnd h2
    have hpm := prodM_pos hds
    have hpn := prodN_pos fun x hx => (hds x hx).1
    have hml := prodM_le h
    have hn' : prod (nShape ds) < 2 ^ 32 :=
      lt_of_le_of_lt (by simp only [nShape_cons, prod_cons]; exact Nat.le_mul_of_pos_left _ hnd) hn
    have hml' := prodM_le hds
    have hlat : c % prod (nShape (d :: ds)) / prod (nShape ds) < ceilDiv d.arraySize d.chunkSize := by
      rw [Nat.div_lt_iff_lt_mul hpn]
      have : c % prod (nShape (d :: ds)) < prod (nShape (d :: ds)) :=
        Nat.mod_lt _ (prodN_pos fun x hx => (h x hx).1)
      simpa using this
    rw [ArrayDims.shardIndexLoop, chunkStride_eq (fun x hx => (h x hx).1) (lt_trans hn (by norm_num)),
      chunkStride_eq (fun x hx => (hds x hx).1) (lt_trans hn' (by norm_num)),
      shardStride_eq hds (by omega), unravel_mod]
    simp only [mShape_cons, kShape_cons, gridOf, ravel]
    generalize c % prod (nShape (d :: ds)) / prod (nShape ds) = lat at *
    have hlat32 : lat < 2 ^ 32 := by omega
    rw [u32_of_lt hlat32]
    have hg := div_lt_ceilDiv h2 hlat
    have hgm : (lat / d.shardSize + 1) * prod (mShape ds) ≤
        ceilDiv (ceilDiv d.arraySize d.chunkSize) d.shardSize * prod (mShape ds) :=
      Nat.mul_le_mul_right _ hg
    simp only [mShape_cons, prod_cons] at hacc
    generalize ceilDiv (ceilDiv d.arraySize d.chunkSize) d.shardSize * prod (mShape ds) = M at *
    rw [Nat.add_mul, Nat.one_mul] at hgm
    generalize hq : lat / d.shardSize * prod (mShape ds) = q at *
    rw [u32_of_lt (n := q) (by omega), u32_of_lt (n := acc + q) (by omega), ih hds hn' (by omega)]
    omega

theorem slotIndexLoop_eq {ds : List Dim} (h : ∀ d ∈ ds, ShardOk d) (hn : prod (nShape ds) < 2 ^ 32)
    (c : Nat) {acc : Nat} (hacc : acc + prod (kShape ds) ≤ 2 ^ 32) :
    ArrayDims.slotIndexLoop c ds acc =
      acc + ravel (kShape ds) (withinOf (kShape ds) (unravel (nShape ds) (c % prod (nShape ds)))) := by
  induction ds generalizing acc with
  | nil => simp [ArrayDims.slotIndexLoop, ravel]
  | cons d ds ih =>
    have hds := fun x hx => h x (List.mem_cons_of_mem _ hx)
    obtain ⟨h1, h2, h3⟩ := h d (by simp)
    have hnd := ceilDiv_pos h1.2.1 h1.1
    have hpk := prodK_pos fun x hx => (hds x hx).2.1
    have hpn := prodN_pos fun x hx => (hds x hx).1
    have hn' : prod (nShape ds) < 2 ^ 32 :=
      lt_of_le_of_lt (by simp only [nShape_cons, prod_cons]; exact Nat.le_mul_of_pos_left _ hnd) hn
    have hkl : prod (kShape ds) ≤ prod (kShape (d :: ds)) := by
      simp only [kShape_cons, prod_cons]; exact Nat.le_mul_of_pos_left _ h2
    have hlt : prod (kShape ds) < 2 ^ 64 :=
      lt_of_le_of_lt (Nat.le_trans (Nat.le_trans hkl (Nat.le_add_left _ acc)) hacc) (by norm_num)
    rw [ArrayDims.slotIndexLoop, chunkStride_eq (fun x hx => (h x hx).1) (lt_trans hn (by norm_num)),
      chunkStride_eq (fun x hx => (hds x hx).1) (lt_trans hn' (by norm_num)),
      slotStride_eq (fun x hx => (hds x hx).2.1) hlt, unravel_mod]
    simp only [kShape_cons, withinOf, ravel]
    generalize c % prod (nShape (d :: ds)) / prod (nShape ds) = lat at *
    have hw : lat % d.shardSize < d.shardSize := Nat.mod_lt _ h2
    have hgm : (lat % d.shardSize + 1) * prod (kShape ds) ≤ d.shardSize * prod (kShape ds) :=
      Nat.mul_le_mul_right _ hw
    simp only [kShape_cons, prod_cons] at hacc
    generalize d.shardSize * prod (kShape ds) = M at *
    rw [Nat.add_mul, Nat.one_mul] at hgm
    generalize hq : lat % d.shardSize * prod (kShape ds) = q at *
    rw [u64_of_lt (n := q) (by omega), u64_of_lt (n := acc + q) (by omega), ih hds hn' (by omega)]
    omega

namespace ArrayDims
variable {D : ArrayDims}

theorem shardOk (hv : D.Valid) (hf : D.Room) (h3 : D.FitsV3) : ∀ d ∈ D.tailDims, ShardOk d :=
  fun d hd => ⟨dimOk hv hf d hd, h3.pos d (List.mem_cons_of_mem _ hd), h3.along d hd⟩

theorem shardCount_lt (hv : D.Valid) (hf : D.Room) (h3 : D.FitsV3) : D.shardCount < 2 ^ 31 :=
  lt_of_le_of_lt (prodM_le (shardOk hv hf h3)) hf.count

theorem shardCount_pos (hv : D.Valid) (hf : D.Room) (h3 : D.FitsV3) : 0 < D.shardCount :=
  prodM_pos (shardOk hv hf h3)

theorem slotCount_pos (h3 : D.FitsV3) : 0 < D.slotCount := prodK_pos h3.pos

theorem numberOfShards_eq (hv : D.Valid) (hf : D.Room) (h3 : D.FitsV3) : D.numberOfShards = D.shardCount := by
  have hok := shardOk hv hf h3
  have hlt := shardCount_lt hv hf h3
  have hm : D.tailDims.map shardsAlong = mShape D.tailDims :=
    List.map_congr_left fun d hd => shardsAlong_eq (hok d hd)
  unfold numberOfShards
  rw [foldl_u64_eq shardsAlong D.tailDims 1, hm, Nat.one_mul]
  · exact u32_of_lt (lt_trans hlt (by norm_num))
  · intro d hd
    rw [shardsAlong_eq (hok d hd)]
    exact ceilDiv_pos (ceilDiv_pos (hok d hd).1.2.1 (hok d hd).1.1) (hok d hd).2.1
  · rw [hm, Nat.one_mul]; exact lt_trans hlt (by norm_num)

theorem chunksPerShard_eq (h3 : D.FitsV3) : D.chunksPerShard = D.slotCount := by
  have hs := h3.slots
  have hm : D.toList.map (fun d => d.shardSize) = kShape D.toList := rfl
  unfold chunksPerShard
  rw [foldl_u64_eq (fun d : Dim => d.shardSize) D.toList 1 h3.pos, hm, Nat.one_mul]
  · exact u32_of_lt (lt_trans hs (by norm_num))
  · rw [hm, Nat.one_mul]; exact lt_trans hs (by norm_num)

theorem emptyTable_eq (h3 : D.FitsV3) : emptyTable D = List.replicate (2 * D.slotCount) u64Max := by
  have hs := h3.slots
  unfold emptyTable
  rw [chunksPerShard_eq h3, u32_of_lt (by unfold slotCount; omega)]

theorem shardIndexForChunk_eq (hv : D.Valid) (hf : D.Room) (h3 : D.FitsV3) {c : Nat}
    (hc : c < D.chunkCount) :
    D.shardIndexForChunk c = ravel (mShape D.tailDims) (gridOf (kShape D.tailDims) (D.gridPos c)) := by
  have hok := shardOk hv hf h3
  have hlt := shardCount_lt hv hf h3
  unfold shardIndexForChunk
  rw [Nat.zero_div, Nat.zero_mul]
  have e0 : u32 (0 + u32 0) = 0 := by decide
  rw [e0, shardIndexLoop_eq hok (lt_trans hf.count (by norm_num)) c (by
    unfold shardCount at hlt; omega), Nat.zero_add, Nat.mod_eq_of_lt (b := prod (nShape D.tailDims)) hc]
  rfl

theorem shardInternalIndex_eq (hv : D.Valid) (hf : D.Room) (h3 : D.FitsV3) {c : Nat}
    (hc : c < D.chunkCount) :
    D.shardInternalIndex c = ravel (kShape D.tailDims) (withinOf (kShape D.tailDims) (D.gridPos c)) := by
  have hok := shardOk hv hf h3
  have hkt : prod (kShape D.tailDims) ≤ D.slotCount :=
    Nat.le_mul_of_pos_left _ (h3.pos D.append (by simp [toList]))
  have hs := h3.slots
  unfold shardInternalIndex
  rw [chunkStride_eq (fun x hx => (hok x hx).1) (lt_trans hf.count (by norm_num))]
  have e : c / prod (nShape D.tailDims) = 0 := Nat.div_eq_of_lt hc
  simp only [e, Nat.zero_mod, Nat.zero_mul]
  have e0 : u64 (0 + u64 0) = 0 := by decide
  rw [e0, slotIndexLoop_eq hok (lt_trans hf.count (by norm_num)) c (by
    unfold slotCount at hkt; omega), Nat.zero_add, Nat.mod_eq_of_lt (b := prod (nShape D.tailDims)) hc]
  apply u32_of_lt
  have hin := withinOf_inBounds (cs := kShape D.tailDims) (x := D.gridPos c) (by
      intro k hk
      obtain ⟨d, hd, rfl⟩ := List.mem_map.1 hk
      exact (hok d hd).2.1) (by
      rw [gridPos, (unravel_inBounds hc).length]; simp)
  have := ravel_lt hin
  show ravel (kShape D.tailDims) (withinOf (kShape D.tailDims) (D.gridPos c)) < _
  unfold slotCount at hkt
  omega

theorem gridPos_inBounds {c : Nat} (hc : c < D.chunkCount) : InBounds (nShape D.tailDims) (D.gridPos c) :=
  unravel_inBounds hc

theorem kTail_pos (h3 : D.FitsV3) : ∀ k ∈ kShape D.tailDims, 0 < k := by
  intro k hk
  obtain ⟨d, hd, rfl⟩ := List.mem_map.1 hk
  exact h3.pos d (List.mem_cons_of_mem _ hd)

theorem mShape_zip (ds : List Dim) : List.zipWith ceilDiv (nShape ds) (kShape ds) = mShape ds := by
  induction ds with
  | nil => rfl
  | cons d ds ih =>
    unfold nShape kShape mShape at *
    simp [ih]

theorem shardPos_inBounds (h3 : D.FitsV3) {l : List Nat} (hl : InBounds (nShape D.tailDims) l) :
    InBounds (mShape D.tailDims) (gridOf (kShape D.tailDims) l) := by
  have := gridOf_inBounds (cs := kShape D.tailDims) (kTail_pos h3) (by simp) hl
  rwa [mShape_zip] at this

theorem slotPos_inBounds (h3 : D.FitsV3) {l : List Nat} (hl : InBounds (nShape D.tailDims) l) :
    InBounds (kShape D.tailDims) (withinOf (kShape D.tailDims) l) :=
  withinOf_inBounds (kTail_pos h3) (by rw [hl.length]; simp)

theorem shardIndex_lt (hv : D.Valid) (hf : D.Room) (h3 : D.FitsV3) {c : Nat} (hc : c < D.chunkCount) :
    D.shardIndexForChunk c < D.shardCount := by
  rw [shardIndexForChunk_eq hv hf h3 hc]
  exact ravel_lt (shardPos_inBounds h3 (gridPos_inBounds hc))

theorem slot_lt_tail (hv : D.Valid) (hf : D.Room) (h3 : D.FitsV3) {c : Nat} (hc : c < D.chunkCount) :
    D.shardInternalIndex c < prod (kShape D.tailDims) := by
  rw [shardInternalIndex_eq hv hf h3 hc]
  exact ravel_lt (slotPos_inBounds h3 (gridPos_inBounds hc))

theorem slot_lt (hv : D.Valid) (hf : D.Room) (h3 : D.FitsV3) {c : Nat} (hc : c < D.chunkCount) :
    D.shardInternalIndex c < D.slotCount :=
  lt_of_lt_of_le (slot_lt_tail hv hf h3 hc)
    (Nat.le_mul_of_pos_left _ (h3.pos D.append (by simp [toList])))

theorem shard_slot_inj (hv : D.Valid) (hf : D.Room) (h3 : D.FitsV3) {c c' : Nat} (hc : c < D.chunkCount)
    (hc' : c' < D.chunkCount) (h1 : D.shardIndexForChunk c = D.shardIndexForChunk c')
    (h2 : D.shardInternalIndex c = D.shardInternalIndex c') : c = c' := by
  have hb := gridPos_inBounds hc
  have hb' := gridPos_inBounds hc'
  rw [shardIndexForChunk_eq hv hf h3 hc, shardIndexForChunk_eq hv hf h3 hc'] at h1
  rw [shardInternalIndex_eq hv hf h3 hc, shardInternalIndex_eq hv hf h3 hc'] at h2
  have e1 := ravel_inj (shardPos_inBounds h3 hb) (shardPos_inBounds h3 hb') h1
  have e2 := ravel_inj (slotPos_inBounds h3 hb) (slotPos_inBounds h3 hb') h2
  have g1 := globalCoord_grid_within (cs := kShape D.tailDims) (x := D.gridPos c) (by rw [hb.length]; simp)
  have g2 := globalCoord_grid_within (cs := kShape D.tailDims) (x := D.gridPos c') (by rw [hb'.length]; simp)
  have : D.gridPos c = D.gridPos c' := by rw [← g1, ← g2, e1, e2]
  rw [← ravel_unravel (s := nShape D.tailDims) hc, ← ravel_unravel (s := nShape D.tailDims) hc']
  exact congrArg _ this

/-- The first chunk of a shard position. -/
theorem exists_chunk_of_shard {ds : List Dim} (hk : ∀ d ∈ ds, 0 < d.shardSize) {sp : List Nat}
    (h : InBounds (mShape ds) sp) :
    ∃ l, InBounds (nShape ds) l ∧ gridOf (kShape ds) l = sp := by
  induction ds generalizing sp with
  | nil => cases sp with
    | nil => exact ⟨[], trivial, rfl⟩
    | cons => exact h.elim
  | cons d ds ih =>
    cases sp with
    | nil => exact h.elim
    | cons p ps =>
      obtain ⟨l, h1, h2⟩ := ih (fun x hx => hk x (by simp [hx])) h.2
      have hd := hk d (by simp)
      refine ⟨p * d.shardSize :: l, ⟨(lt_ceilDiv_iff hd).1 h.1, h1⟩, ?_⟩
      simp only [kShape_cons, gridOf, h2]
      rw [Nat.mul_div_cancel _ hd]

theorem shard_nonempty (hv : D.Valid) (hf : D.Room) (h3 : D.FitsV3) {i : Nat} (hi : i < D.shardCount) :
    ∃ c, c < D.chunkCount ∧ D.shardIndexForChunk c = i := by
  obtain ⟨l, h1, h2⟩ := exists_chunk_of_shard (ds := D.tailDims)
    (fun d hd => h3.pos d (List.mem_cons_of_mem _ hd)) (unravel_inBounds hi)
  refine ⟨ravel (nShape D.tailDims) l, ravel_lt h1, ?_⟩
  rw [shardIndexForChunk_eq hv hf h3 (ravel_lt h1)]
  unfold gridPos
  rw [unravel_ravel h1, h2, ravel_unravel hi]

end ArrayDims
end AZ
