import Verif.Lemmas.ShardFile
import Verif.Lemmas.WriterV2
import Mathlib.Data.List.Nodup
import Batteries.Data.List.Perm

set_option linter.unusedSimpArgs false

/-! # A whole run of a V3 array writer -/

namespace AZ
open Spec

/-- Path of shard `i` (in sink order) of append-shard `G`. -/
def shardPath (cfg : WConfig) (G i : Nat) : Text :=
  objectPath cfg G (unravel (mShape cfg.dims.tailDims) i)

def shardPaths (cfg : WConfig) (G : Nat) : List Text := (List.range cfg.dims.shardCount).map (shardPath cfg G)

/-- Blosc's output is at most 16 bytes longer than its input (`BLOSC_MAX_OVERHEAD`, the size of the output
buffer at `src/streaming/array.writer.cpp:357-359`). -/
def SmallOverhead (env : Env) : Prop :=
  ∀ q n b out, env.compress q n b = some out → out.length ≤ b.length + 16

theorem storedForm_length {env : Env} (h : SmallOverhead env) (cfg : WConfig) (b : Bytes) :
    (storedForm env cfg b).length ≤ b.length + 16 := by
  unfold storedForm
  cases cfg.compression with
  | none => simp
  | some q =>
    simp only
    cases hc : env.compress q cfg.dims.dtype.bytes b with
    | none => simp
    | some out => exact h _ _ _ _ hc

theorem dataPathsV3 {cfg : WConfig} (hV : cfg.version = .v3) (hv : cfg.dims.Valid) (hf : cfg.dims.Room)
    (h3 : cfg.dims.FitsV3) (G : Nat) : dataPaths cfg G = some (shardPaths cfg G) := by
  have hok := ArrayDims.shardOk hv hf h3
  have hp : cfg.dims.tailDims.map (partsAlong cfg.version) = mShape cfg.dims.tailDims := by
    unfold mShape
    apply List.map_congr_left
    intro d hd
    rw [hV]
    exact shardsAlong_eq (hok d hd)
  rw [dataPaths_eq, hp]
  · rfl
  · intro d hd
    rw [hV]
    show 0 < shardsAlong d
    rw [shardsAlong_eq (hok d hd)]
    exact ceilDiv_pos (ceilDiv_pos (hok d hd).1.2.1 (hok d hd).1.1) (hok d hd).2.1

/-- The chunk loop of a shard job in an environment where every write is stored. -/
theorem shardLoop_eq {env : Env} {D : ArrayDims} (hw : ∀ p o d, env.write p o d = .stored) (p : Text)
    (bufs : List Bytes) (cs : List Nat) (j : ShardJob) (hcs : ∀ c ∈ cs, c < bufs.length)
    (hsl : ∀ c ∈ cs, D.shardInternalIndex c < 2 ^ 31 ∧ 2 * D.shardInternalIndex c + 1 < j.table.length)
    (htot : j.offset + totalLen (cs.map fun c => (D.shardInternalIndex c, bufs.getD c [])) < 2 ^ 64) :
    shardLoop env D p bufs cs j = { j with
      table := setParts j.table j.offset (cs.map fun c => (D.shardInternalIndex c, bufs.getD c []))
      offset := j.offset + totalLen (cs.map fun c => (D.shardInternalIndex c, bufs.getD c []))
      success := j.success || !cs.isEmpty
      trace := j.trace ++ writesAt p j.offset (cs.map fun c => (D.shardInternalIndex c, bufs.getD c [])) } := by
  induction cs generalizing j with
  | nil => simp [shardLoop, setParts, writesAt]
  | cons c cs ih =>
    have hc := hcs c (by simp)
    obtain ⟨hs1, hs2⟩ := hsl c (by simp)
    have hg : bufs.getD c [] = bufs[c] := by simp [List.getD_eq_getElem?_getD, hc]
    simp only [List.map_cons, totalLen_cons] at htot
    rw [shardLoop, List.getElem?_eq_getElem hc]
    simp only [hw, if_true]
    have hp : u32 (2 * D.shardInternalIndex c) = 2 * D.shardInternalIndex c := u32_of_lt (by omega)
    rw [hp, if_pos hs2]
    rw [hg] at htot
    rw [u64_of_lt (n := j.offset + bufs[c].length) (by omega)]
    rw [ih]
    · simp only [List.map_cons, setParts, writesAt, totalLen_cons, hg, Nat.add_assoc, List.isEmpty_cons,
        Bool.not_false, Bool.or_true, Bool.true_or, List.append_assoc, List.cons_append, List.nil_append]
    · exact fun x hx => hcs x (by simp [hx])
    · intro x hx
      simpa using hsl x (by simp [hx])
    · dsimp only
      omega

/-- One shard job in such an environment. -/
theorem shardJob_eq {env : Env} {D : ArrayDims} (hw : ∀ p o d, env.write p o d = .stored) (p : Text)
    (bufs : List Bytes) {cs : List Nat} {ps : List (Nat × Bytes)} (table : List Nat) (off : Nat) (wt : Bool)
    (hps : (cs.map fun c => (D.shardInternalIndex c, bufs.getD c [])) = ps)
    (hne : cs ≠ []) (hcs : ∀ c ∈ cs, c < bufs.length)
    (hsl : ∀ c ∈ cs, D.shardInternalIndex c < 2 ^ 31 ∧ 2 * D.shardInternalIndex c + 1 < table.length)
    (htot : off + totalLen ps < 2 ^ 64) :
    shardJob env D p bufs cs table off wt =
      ⟨setParts table off ps, off + totalLen ps, true, false, [],
        writesAt p off ps ++ if wt then [Ev.wrote p (off + totalLen ps) ((setParts table off ps).flatMap u64le)] else []⟩ := by
  unfold shardJob
  have hl := shardLoop_eq (D := D) hw p bufs cs ⟨table, off, false, false, [], []⟩ hcs hsl (by rw [hps]; exact htot)
  rw [hl, hps]
  have : cs.isEmpty = false := by cases cs with
    | nil => exact absurd rfl hne
    | cons => rfl
  cases wt <;> simp [this, hw]

/-- The chunks of shard `i` of append layer `g`, in the order they are stored. -/
def partsOf (env : Env) (cfg : WConfig) (S : Bytes) (g i : Nat) : List (Nat × Bytes) :=
  (chunksInShard cfg.dims cfg.dims.chunkCount i).map fun c => (cfg.dims.shardInternalIndex c,
    storedForm env cfg (Spec.chunkBytes (aShape cfg.dims.tailDims) (cShape cfg.dims.toList)
      cfg.dims.dtype.bytes S (g :: cfg.dims.gridPos c)))

/-- The chunks stored in shard `i` of append-shard `G` after `j` layers of it. -/
def shardParts (env : Env) (cfg : WConfig) (S : Bytes) (G j i : Nat) : List (Nat × Bytes) :=
  (List.range j).flatMap fun q => partsOf env cfg S (G * cfg.dims.append.shardSize + q) i

/-- The table of a shard that holds the given chunks. -/
def tableOf (D : ArrayDims) (ps : List (Nat × Bytes)) : List Nat :=
  setParts (List.replicate (2 * D.slotCount) u64Max) 0 ps

theorem shardParts_succ (env : Env) (cfg : WConfig) (S : Bytes) (G j i : Nat) :
    shardParts env cfg S G (j + 1) i = shardParts env cfg S G j i ++
      partsOf env cfg S (G * cfg.dims.append.shardSize + j) i := by
  simp [shardParts, List.range_succ]

@[simp] theorem shardParts_zero (env : Env) (cfg : WConfig) (S : Bytes) (G i : Nat) :
    shardParts env cfg S G 0 i = [] := rfl

theorem mem_chunksInShard {D : ArrayDims} {n i c : Nat} :
    c ∈ chunksInShard D n i ↔ c < n ∧ D.shardIndexForChunk c = i := by
  simp [chunksInShard]

theorem chunksInShard_nodup (D : ArrayDims) (n i : Nat) : (chunksInShard D n i).Nodup :=
  List.Nodup.filter _ List.nodup_range

theorem nodup_map_on {α β : Type} {f : α → β} {l : List α} (h : ∀ x ∈ l, ∀ y ∈ l, f x = f y → x = y)
    (hn : l.Nodup) : (l.map f).Nodup := by
  induction l with
  | nil => simp
  | cons a l ih =>
    rw [List.nodup_cons] at hn
    rw [List.map_cons, List.nodup_cons]
    refine ⟨?_, ih (fun x hx y hy => h x (by simp [hx]) y (by simp [hy])) hn.2⟩
    intro hm
    obtain ⟨b, hb, he⟩ := List.mem_map.1 hm
    have := h b (by simp [hb]) a (by simp) he
    subst this
    exact hn.1 hb

theorem length_le_of_nodup_lt {l : List Nat} {n : Nat} (hn : l.Nodup) (h : ∀ x ∈ l, x < n) : l.length ≤ n := by
  have := (List.subperm_of_subset hn (l₂ := List.range n) fun x hx => List.mem_range.2 (h x hx)).length_le
  simpa using this

section
variable {env : Env} {cfg : WConfig}

theorem partsOf_length (hv : cfg.dims.Valid) (hf : cfg.dims.Room) (h3 : cfg.dims.FitsV3) (S : Bytes) (g i : Nat) :
    (partsOf env cfg S g i).length ≤ prod (kShape cfg.dims.tailDims) := by
  have h1 : ((chunksInShard cfg.dims cfg.dims.chunkCount i).map cfg.dims.shardInternalIndex).length ≤
      prod (kShape cfg.dims.tailDims) := by
    apply length_le_of_nodup_lt
    · apply nodup_map_on _ (chunksInShard_nodup _ _ _)
      intro x hx y hy he
      obtain ⟨x1, x2⟩ := mem_chunksInShard.1 hx
      obtain ⟨y1, y2⟩ := mem_chunksInShard.1 hy
      exact ArrayDims.shard_slot_inj hv hf h3 x1 y1 (by rw [x2, y2]) he
    · intro x hx
      obtain ⟨c, hc, rfl⟩ := List.mem_map.1 hx
      exact ArrayDims.slot_lt_tail hv hf h3 (mem_chunksInShard.1 hc).1
  simpa [partsOf] using h1

theorem shardParts_length (hv : cfg.dims.Valid) (hf : cfg.dims.Room) (h3 : cfg.dims.FitsV3) (S : Bytes)
    (G j i : Nat) : (shardParts env cfg S G j i).length ≤ j * prod (kShape cfg.dims.tailDims) := by
  induction j with
  | zero => simp
  | succ j ih =>
    rw [shardParts_succ, List.length_append, Nat.succ_mul]
    exact Nat.add_le_add ih (partsOf_length hv hf h3 S _ i)

theorem mem_partsOf_length (ho : SmallOverhead env) {S : Bytes} {g i : Nat} {x : Nat × Bytes}
    (h : x ∈ partsOf env cfg S g i) : x.2.length ≤ cfg.dims.chunkBytes + 16 := by
  obtain ⟨c, _, rfl⟩ := List.mem_map.1 h
  have := storedForm_length ho cfg (Spec.chunkBytes (aShape cfg.dims.tailDims) (cShape cfg.dims.toList)
      cfg.dims.dtype.bytes S (g :: cfg.dims.gridPos c))
  have hl : (Spec.chunkBytes (aShape cfg.dims.tailDims) (cShape cfg.dims.toList)
      cfg.dims.dtype.bytes S (g :: cfg.dims.gridPos c)).length = cfg.dims.chunkBytes := by
    simp [Spec.chunkBytes, ArrayDims.chunkBytes]
  rw [hl] at this
  exact this

/-- The data of a shard never reaches `2^64` bytes. -/
theorem shardParts_total (ho : SmallOverhead env) (hv : cfg.dims.Valid) (hf : cfg.dims.Room)
    (h3 : cfg.dims.FitsV3) (S : Bytes) (G i : Nat) {j : Nat} (hj : j ≤ cfg.dims.append.shardSize) :
    totalLen (shardParts env cfg S G j i) < 2 ^ 64 := by
  have h1 := totalLen_le (ps := shardParts env cfg S G j i) (m := cfg.dims.chunkBytes + 16) (by
    intro x hx
    obtain ⟨q, _, hq⟩ := List.mem_flatMap.1 hx
    exact mem_partsOf_length ho hq)
  have h2 := shardParts_length (env := env) hv hf h3 S G j i
  have h4 : j * prod (kShape cfg.dims.tailDims) ≤ cfg.dims.slotCount := Nat.mul_le_mul_right _ hj
  refine lt_of_le_of_lt h1 (lt_of_le_of_lt (Nat.mul_le_mul_right _ (Nat.le_trans h2 h4)) h3.bytes)

theorem mem_partsOf_slot (hv : cfg.dims.Valid) (hf : cfg.dims.Room) (h3 : cfg.dims.FitsV3) {S : Bytes}
    {g i : Nat} {x : Nat × Bytes} (h : x ∈ partsOf env cfg S g i) : x.1 < cfg.dims.slotCount := by
  obtain ⟨c, hc, rfl⟩ := List.mem_map.1 h
  exact ArrayDims.slot_lt hv hf h3 (mem_chunksInShard.1 hc).1

theorem shouldRollover_v3 (hV : cfg.version = .v3) (hv : cfg.dims.Valid) (hf : cfg.dims.Room)
    (h3 : cfg.dims.FitsV3) (st : WState) : shouldRollover cfg st =
      .ok (st.framesWritten % (cfg.dims.framesPerChunk * cfg.dims.append.shardSize) == 0) := by
  have hk := h3.pos cfg.dims.append (by simp [ArrayDims.toList])
  have hfr := h3.frames
  have e : cfg.dims.append.chunkSize * cfg.dims.append.shardSize *
      prod (cfg.dims.inner.map fun d => d.arraySize) = cfg.dims.framesPerChunk * cfg.dims.append.shardSize := by
    unfold ArrayDims.framesPerChunk aShape
    ring
  unfold shouldRollover
  rw [hV]
  dsimp only
  unfold innerFrames
  rw [u32_of_lt h3.rollover, foldl_u64_eq (fun d : Dim => d.arraySize) cfg.dims.inner _
    (fun d hd => (ArrayDims.innerOk hv hf d hd).2.1) (by rw [e]; exact hfr), e]
  have : decide (cfg.dims.framesPerChunk * cfg.dims.append.shardSize > 0) = true := by
    simpa using ⟨ArrayDims.framesPerChunk_pos hv hf, hk⟩
  rw [this]
  rfl

/-- Writes of one layer `G * k + q` to the shards of append-shard `G`. -/
def layerWrites (env : Env) (cfg : WConfig) (S : Bytes) (G q : Nat) (wt : Bool) : List Ev :=
  (List.range cfg.dims.shardCount).flatMap fun i =>
    writesAt (shardPath cfg G i) (totalLen (shardParts env cfg S G q i))
      (partsOf env cfg S (G * cfg.dims.append.shardSize + q) i) ++
    if wt then [Ev.wrote (shardPath cfg G i) (totalLen (shardParts env cfg S G (q + 1) i))
      ((tableOf cfg.dims (shardParts env cfg S G (q + 1) i)).flatMap u64le)] else []

/-- The events of one V3 flush: layer `q` of append-shard `G`, with the table if `wt`, with rollover if
`roll`, with metadata for `n` frames if `wt`. -/
def flushEventsV3 (env : Env) (cfg : WConfig) (S : Bytes) (G q n : Nat) (wt roll : Bool) : List Ev :=
  (if q = 0 then (shardPaths cfg G).map Ev.opened else []) ++ layerWrites env cfg S G q wt ++
  (if roll then (shardPaths cfg G).map Ev.finalized else []) ++
  (if wt then metaEvents cfg (G == 0) n else [])

/-- Sinks, offsets and tables while `j` layers of append-shard `G` are stored. -/
structure ShardsOk (env : Env) (cfg : WConfig) (S : Bytes) (G j : Nat) (st : WState) : Prop where
  app : st.appendIdx = G
  sinks : st.dataSinks = if j = 0 then [] else shardPaths cfg G
  offs : st.shardOffsets = (List.range cfg.dims.shardCount).map fun i => totalLen (shardParts env cfg S G j i)
  tabs : st.shardTables = (List.range cfg.dims.shardCount).map fun i => tableOf cfg.dims (shardParts env cfg S G j i)
  ms : st.metaSink = !(G == 0)

theorem getD_map_range {α : Type} (f : Nat → α) {n i : Nat} (d : α) (h : i < n) :
    ((List.range n).map f).getD i d = f i := by
  simp [List.getD_eq_getElem?_getD, h]

theorem map_const_replicate {α β : Type} (l : List α) (b : β) : l.map (fun _ => b) = List.replicate l.length b := by
  rw [List.map_const']

theorem flushImpl_v3 (hE : GoodEnv env cfg) (ho : SmallOverhead env) (hV : cfg.version = .v3)
    (hv : cfg.dims.Valid) (hf : cfg.dims.Room) (h3 : cfg.dims.FitsV3) {st : WState} {S : Bytes} {G q : Nat}
    {roll : Bool} (hq : q < cfg.dims.append.shardSize)
    (hb : st.bufs = (layer cfg.dims S (G * cfg.dims.append.shardSize + q)).map (storedForm env cfg))
    (hs : ShardsOk env cfg S G q st) (hr : shouldRollover cfg st = .ok roll) :
    flushImplV3 env cfg st = .ok { st with
      dataSinks := shardPaths cfg G
      shardOffsets := if st.finalizing || roll then List.replicate cfg.dims.shardCount 0 else
        (List.range cfg.dims.shardCount).map fun i => totalLen (shardParts env cfg S G (q + 1) i)
      shardTables := if st.finalizing || roll then
          List.replicate cfg.dims.shardCount (List.replicate (2 * cfg.dims.slotCount) u64Max) else
        (List.range cfg.dims.shardCount).map fun i => tableOf cfg.dims (shardParts env cfg S G (q + 1) i)
      trace := st.trace ++ ((if q = 0 then (shardPaths cfg G).map Ev.opened else []) ++
        layerWrites env cfg S G q (st.finalizing || roll)) } := by
  have hmk : (if st.dataSinks.isEmpty then makeDataSinks env cfg st else some st) = some { st with
      dataSinks := shardPaths cfg G
      trace := st.trace ++ (if q = 0 then (shardPaths cfg G).map Ev.opened else []) } := by
    have hpos := ArrayDims.shardCount_pos hv hf h3
    rw [hs.sinks]
    by_cases h0 : q = 0
    · simp only [h0, if_true, List.isEmpty_nil]
      unfold makeDataSinks
      rw [hs.app, dataPathsV3 hV hv hf h3]
      simp [hE.sinks]
    · have hne : (shardPaths cfg G).isEmpty = false := by
        unfold shardPaths
        cases h : cfg.dims.shardCount with
        | zero => omega
        | succ n => simp [List.range_succ]
      simp only [h0, if_false, hne, Bool.false_eq_true, List.append_nil]
      have := hs.sinks
      rw [if_neg h0] at this
      rw [← this]
  have hlen : st.bufs.length = cfg.dims.chunkCount := by
    rw [hb, List.length_map, (layer_sized _ _ _).1]
  have hroll : ∀ a b, shouldRollover cfg { st with
      dataSinks := a
      trace := b } = .ok roll := by
    intro a b
    rw [← hr]
    rfl
  unfold flushImplV3
  rw [hmk]
  dsimp only
  rw [ArrayDims.numberOfShards_eq hv hf h3]
  have hsl : ((shardPaths cfg G).length == cfg.dims.shardCount) = true := by simp [shardPaths]
  have hidx : shardIndicesOk cfg.dims st.bufs.length = true := by
    unfold shardIndicesOk
    rw [List.all_eq_true]
    intro c hc
    rw [hlen] at hc
    rw [ArrayDims.numberOfShards_eq hv hf h3]
    simpa using ArrayDims.shardIndex_lt hv hf h3 (List.mem_range.1 hc)
  have htl : (st.shardTables.length == cfg.dims.shardCount && st.shardOffsets.length == cfg.dims.shardCount) = true := by
    rw [hs.tabs, hs.offs]; simp
  rw [hsl, hidx, hroll, htl]
  simp only [check_true, Res.bind_ok, Bool.not_true, Bool.false_eq_true, if_false, Res.pure_eq]
  rw [hlen]
  have hjobs : ((List.range cfg.dims.shardCount).map fun i =>
      shardJob env cfg.dims ((shardPaths cfg G).getD i []) st.bufs (chunksInShard cfg.dims cfg.dims.chunkCount i)
        (st.shardTables.getD i []) (st.shardOffsets.getD i 0) (st.finalizing || roll)) =
      (List.range cfg.dims.shardCount).map fun i =>
        (⟨tableOf cfg.dims (shardParts env cfg S G (q + 1) i), totalLen (shardParts env cfg S G (q + 1) i), true, false,
          [], writesAt (shardPath cfg G i) (totalLen (shardParts env cfg S G q i))
            (partsOf env cfg S (G * cfg.dims.append.shardSize + q) i) ++
            if st.finalizing || roll then [Ev.wrote (shardPath cfg G i) (totalLen (shardParts env cfg S G (q + 1) i))
              ((tableOf cfg.dims (shardParts env cfg S G (q + 1) i)).flatMap u64le)] else []⟩ : ShardJob) := by
    apply List.map_congr_left
    intro i hi
    have hi := List.mem_range.1 hi
    rw [hs.tabs, hs.offs, getD_map_range _ _ hi, getD_map_range _ _ hi]
    have hpi : (shardPaths cfg G).getD i [] = shardPath cfg G i := getD_map_range _ _ hi
    rw [hpi]
    have hps : ((chunksInShard cfg.dims cfg.dims.chunkCount i).map fun c =>
        (cfg.dims.shardInternalIndex c, st.bufs.getD c [])) =
        partsOf env cfg S (G * cfg.dims.append.shardSize + q) i := by
      apply List.map_congr_left
      intro c hc
      have hc := (mem_chunksInShard.1 hc).1
      rw [hb]
      unfold layer
      rw [List.map_map, getD_map_range _ _ hc]
      rfl
    have ht1 : totalLen (shardParts env cfg S G (q + 1) i) = totalLen (shardParts env cfg S G q i) +
        totalLen (partsOf env cfg S (G * cfg.dims.append.shardSize + q) i) := by
      rw [shardParts_succ, totalLen_append]
    have ht2 : tableOf cfg.dims (shardParts env cfg S G (q + 1) i) =
        setParts (tableOf cfg.dims (shardParts env cfg S G q i)) (totalLen (shardParts env cfg S G q i))
          (partsOf env cfg S (G * cfg.dims.append.shardSize + q) i) := by
      unfold tableOf
      rw [shardParts_succ, setParts_append, Nat.zero_add]
    have htot := shardParts_total ho hv hf h3 S G i (j := q + 1) (by omega)
    rw [shardJob_eq hE.write _ _ _ _ _ hps]
    · rw [ht1, ht2]
    · obtain ⟨c, hc, hci⟩ := ArrayDims.shard_nonempty hv hf h3 hi
      exact List.ne_nil_of_mem (mem_chunksInShard.2 ⟨hc, hci⟩)
    · intro c hc
      rw [hlen]
      exact (mem_chunksInShard.1 hc).1
    · intro c hc
      have hsl := ArrayDims.slot_lt hv hf h3 (mem_chunksInShard.1 hc).1
      have hs3 := h3.slots
      unfold tableOf
      rw [setParts_length, List.length_replicate]
      unfold ArrayDims.slotCount at *
      omega
    · rw [← ht1]; exact htot
  rw [hjobs]
  simp only [List.flatMap_map, List.map_map, Function.comp_def, if_true]
  rw [ArrayDims.emptyTable_eq h3, map_const_replicate, map_const_replicate, hs.tabs, hs.offs]
  simp only [List.length_map, List.length_range]
  congr 2
  · simp [layerWrites, List.append_assoc]
  · simp


/-- One V3 flush; the append index is 32 bits wide. -/
theorem flush_v3_wrap (hE : GoodEnv env cfg) (ho : SmallOverhead env) (hV : cfg.version = .v3)
    (hv : cfg.dims.Valid) (hf : cfg.dims.Room) (h3 : cfg.dims.FitsV3) {st : WState} {S : Bytes} {G q n : Nat}
    {roll wt : Bool} (hq : q < cfg.dims.append.shardSize)
    (hb : st.bufs = layer cfg.dims S (G * cfg.dims.append.shardSize + q)) (hbt : st.bytesToFlush ≠ 0)
    (hs : ShardsOk env cfg S G q st) (hr : shouldRollover cfg st = .ok roll)
    (hwt : (st.finalizing || roll) = wt) (hfw : st.framesWritten = n) (hn : n < 2 ^ 32) :
    flush env cfg st = .ok { st with
      bufs := makeBuffers cfg.dims
      bytesToFlush := 0
      appendIdx := if roll then u32 (G + 1) else G
      dataSinks := if roll then [] else shardPaths cfg G
      metaSink := wt || st.metaSink
      shardOffsets := if wt then List.replicate cfg.dims.shardCount 0 else
        (List.range cfg.dims.shardCount).map fun i => totalLen (shardParts env cfg S G (q + 1) i)
      shardTables := if wt then
          List.replicate cfg.dims.shardCount (List.replicate (2 * cfg.dims.slotCount) u64Max) else
        (List.range cfg.dims.shardCount).map fun i => tableOf cfg.dims (shardParts env cfg S G (q + 1) i)
      trace := st.trace ++ flushEventsV3 env cfg S G q n wt roll } := by
  have hsz : Sized cfg.dims st.bufs := by rw [hb]; exact layer_sized _ _ _
  have hms := hs.ms
  unfold flush
  rw [if_neg hbt, compressBuffers_eq hE hsz]
  simp only [hV]
  rw [flushImpl_v3 hE ho hV hv hf h3 hq (by simp only [hb]) (st := { st with bufs := st.bufs.map (storedForm env cfg) })
    ⟨hs.app, hs.sinks, hs.offs, hs.tabs, hs.ms⟩ (roll := roll) (by rw [← hr]; rfl)]
  simp only [Res.bind_ok]
  rw [shouldRollover_v3 hV hv hf h3] at hr ⊢
  dsimp only
  rw [hr]
  simp only [Res.bind_ok]
  have hwr : (roll || st.finalizing) = wt := by rw [Bool.or_comm]; exact hwt
  cases roll
  · simp only [Bool.or_false, Bool.false_or] at hwt hwr
    simp only [Bool.false_eq_true, if_false, Res.bind_ok, Bool.false_or, Bool.or_false, hwt]
    cases wt
    · simp [flushEventsV3, hs.app, Res.pure_eq]
    · simp only [if_true]
      rw [writeArrayMetadata_eq hE hv hf (by simpa [hfw] using hn)]
      simp [flushEventsV3, hs.app, Res.pure_eq, hms, hfw]
  · have hw : wt = true := by rw [← hwr]; rfl
    subst hw
    simp only [if_true, Bool.or_true, Bool.true_or]
    unfold rollover
    simp only [finalizeSinks_eq hE, Res.bind_ok, Res.pure_eq]
    rw [writeArrayMetadata_eq hE hv hf (by simpa [hfw] using hn)]
    simp [flushEventsV3, hs.app, Res.pure_eq, hms, hfw]

/-- One V3 flush. -/
theorem flush_v3 (hE : GoodEnv env cfg) (ho : SmallOverhead env) (hV : cfg.version = .v3)
    (hv : cfg.dims.Valid) (hf : cfg.dims.Room) (h3 : cfg.dims.FitsV3) {st : WState} {S : Bytes} {G q n : Nat}
    {roll wt : Bool} (hq : q < cfg.dims.append.shardSize)
    (hb : st.bufs = layer cfg.dims S (G * cfg.dims.append.shardSize + q)) (hbt : st.bytesToFlush ≠ 0)
    (hs : ShardsOk env cfg S G q st) (hr : shouldRollover cfg st = .ok roll) (hG : G + 1 < 2 ^ 32)
    (hwt : (st.finalizing || roll) = wt) (hfw : st.framesWritten = n) (hn : n < 2 ^ 32) :
    flush env cfg st = .ok { st with
      bufs := makeBuffers cfg.dims
      bytesToFlush := 0
      appendIdx := if roll then G + 1 else G
      dataSinks := if roll then [] else shardPaths cfg G
      metaSink := wt || st.metaSink
      shardOffsets := if wt then List.replicate cfg.dims.shardCount 0 else
        (List.range cfg.dims.shardCount).map fun i => totalLen (shardParts env cfg S G (q + 1) i)
      shardTables := if wt then
          List.replicate cfg.dims.shardCount (List.replicate (2 * cfg.dims.slotCount) u64Max) else
        (List.range cfg.dims.shardCount).map fun i => tableOf cfg.dims (shardParts env cfg S G (q + 1) i)
      trace := st.trace ++ flushEventsV3 env cfg S G q n wt roll } := by
  rw [flush_v3_wrap hE ho hV hv hf h3 hq hb hbt hs hr hwt hfw hn, u32_of_lt hG]

/-- Everything emitted for the first `k` append layers. -/
def eventsV3 (env : Env) (cfg : WConfig) (S : Bytes) (k : Nat) : List Ev :=
  (List.range k).flatMap fun g =>
    flushEventsV3 env cfg S (g / cfg.dims.append.shardSize) (g % cfg.dims.append.shardSize)
      ((g + 1) * cfg.dims.framesPerChunk) ((g + 1) % cfg.dims.append.shardSize == 0)
      ((g + 1) % cfg.dims.append.shardSize == 0)

/-- Writer state after `n` whole frames `S`. -/
structure Inv3 (env : Env) (cfg : WConfig) (S : Bytes) (n : Nat) (st : WState) : Prop where
  len : S.length = n * cfg.dims.frameBytes
  fw : st.framesWritten = n
  btf : st.bytesToFlush = n % cfg.dims.framesPerChunk * cfg.dims.frameBytes
  fin : st.finalizing = false
  shards : ShardsOk env cfg S (n / cfg.dims.framesPerChunk / cfg.dims.append.shardSize)
    (n / cfg.dims.framesPerChunk % cfg.dims.append.shardSize) st
  bufs : BufsOk cfg.dims S n st.bufs
  errs : st.errors = []
  tr : st.trace = eventsV3 env cfg S (n / cfg.dims.framesPerChunk)

theorem partsOf_stable (hv : cfg.dims.Valid) (hf : cfg.dims.Room) {S1 S2 : Bytes} {g : Nat}
    (hlen : (g + 1) * cfg.dims.framesPerChunk * cfg.dims.frameBytes ≤ S1.length) (i : Nat) :
    partsOf env cfg (S1 ++ S2) g i = partsOf env cfg S1 g i := by
  have h := ArrayDims.layer_stable hv hf (s2 := S2) hlen
  unfold layer at h
  apply List.map_congr_left
  intro c hc
  have h2 := List.map_inj_left.1 h c (List.mem_range.2 (mem_chunksInShard.1 hc).1)
  unfold ArrayDims.gridPos
  rw [h2]

theorem shardParts_stable (hv : cfg.dims.Valid) (hf : cfg.dims.Room) {S1 S2 : Bytes} {G j : Nat}
    (hlen : (G * cfg.dims.append.shardSize + j) * cfg.dims.framesPerChunk * cfg.dims.frameBytes ≤ S1.length)
    (i : Nat) : shardParts env cfg (S1 ++ S2) G j i = shardParts env cfg S1 G j i := by
  unfold shardParts
  apply flatMap_congr'
  intro q hq
  have hq := List.mem_range.1 hq
  apply partsOf_stable hv hf
  refine Nat.le_trans (Nat.mul_le_mul_right _ (Nat.mul_le_mul_right _ ?_)) hlen
  omega

theorem flushEventsV3_stable (hv : cfg.dims.Valid) (hf : cfg.dims.Room) {S1 S2 : Bytes} {G q n : Nat}
    {wt roll : Bool}
    (hlen : (G * cfg.dims.append.shardSize + q + 1) * cfg.dims.framesPerChunk * cfg.dims.frameBytes ≤ S1.length) :
    flushEventsV3 env cfg (S1 ++ S2) G q n wt roll = flushEventsV3 env cfg S1 G q n wt roll := by
  have hq : (G * cfg.dims.append.shardSize + q) * cfg.dims.framesPerChunk * cfg.dims.frameBytes ≤ S1.length :=
    Nat.le_trans (Nat.mul_le_mul_right _ (Nat.mul_le_mul_right _ (by omega))) hlen
  unfold flushEventsV3
  have : layerWrites env cfg (S1 ++ S2) G q wt = layerWrites env cfg S1 G q wt := by
    unfold layerWrites
    apply flatMap_congr'
    intro i _
    rw [shardParts_stable hv hf hq, shardParts_stable hv hf (j := q + 1) (by rw [← Nat.add_assoc]; exact hlen),
      partsOf_stable hv hf hlen]
  rw [this]

theorem eventsV3_stable (hv : cfg.dims.Valid) (hf : cfg.dims.Room) {S1 S2 : Bytes} {k : Nat}
    (hlen : k * cfg.dims.framesPerChunk * cfg.dims.frameBytes ≤ S1.length) :
    eventsV3 env cfg (S1 ++ S2) k = eventsV3 env cfg S1 k := by
  unfold eventsV3
  apply flatMap_congr'
  intro g hg
  have hg := List.mem_range.1 hg
  apply flushEventsV3_stable hv hf
  rw [Nat.mul_comm (g / _), Nat.div_add_mod]
  exact Nat.le_trans (Nat.mul_le_mul_right _ (Nat.mul_le_mul_right _ hg)) hlen

theorem inv3_init (hV : cfg.version = .v3) (hv : cfg.dims.Valid) (hf : cfg.dims.Room) (h3 : cfg.dims.FitsV3) :
    Inv3 env cfg [] 0 (WState.init cfg) := by
  constructor
  · simp
  · rfl
  · simp [WState.init]
  · rfl
  · constructor
    · simp [WState.init]
    · simp [WState.init]
    · simp [WState.init, hV, ArrayDims.numberOfShards_eq hv hf h3]
    · simp [WState.init, hV, ArrayDims.numberOfShards_eq hv hf h3, ArrayDims.emptyTable_eq h3, tableOf, setParts]
    · simp [WState.init]
  · exact .inl ⟨rfl, rfl⟩
  · rfl
  · simp [WState.init, eventsV3]

/-- `n % (b * k) = 0` in terms of the quotient by `b`. -/
theorem mod_mul_zero_iff {n b k : Nat} (h : n % b = 0) : n % (b * k) = 0 ↔ n / b % k = 0 := by
  obtain ⟨m, rfl⟩ := Nat.dvd_of_mod_eq_zero h
  rcases Nat.eq_zero_or_pos b with rfl | hb
  · simp
  · rw [Nat.mul_mod_mul_left, Nat.mul_div_cancel_left _ hb, Nat.mul_eq_zero]
    omega

theorem mod_mul_ne_zero {n b k : Nat} (h : n % b ≠ 0) : n % (b * k) ≠ 0 := by
  intro h0
  exact h (Nat.mod_eq_zero_of_dvd (Nat.dvd_trans ⟨k, rfl⟩ (Nat.dvd_of_mod_eq_zero h0)))

theorem mod_succ_of_ne {g k : Nat} (hk : 0 < k) (h : (g + 1) % k ≠ 0) :
    (g + 1) / k = g / k ∧ (g + 1) % k = g % k + 1 := by
  obtain ⟨h1, h2⟩ := div_succ_of_not_dvd hk h
  exact ⟨h1, h2⟩


theorem rollover_layer (hV : cfg.version = .v3) (hv : cfg.dims.Valid) (hf : cfg.dims.Room)
    (h3 : cfg.dims.FitsV3) {st : WState} {n : Nat} (hfw : st.framesWritten = n)
    (hdv : n % cfg.dims.framesPerChunk = 0) : shouldRollover cfg st =
      .ok (n / cfg.dims.framesPerChunk % cfg.dims.append.shardSize == 0) := by
  rw [shouldRollover_v3 hV hv hf h3, hfw]
  congr 1
  rw [Bool.eq_iff_iff]
  simp only [beq_iff_eq]
  exact mod_mul_zero_iff hdv

theorem shardsOk_fresh {S : Bytes} {G : Nat} {st : WState} (h1 : st.appendIdx = G) (h2 : st.dataSinks = [])
    (h4 : st.shardOffsets = List.replicate cfg.dims.shardCount 0)
    (h5 : st.shardTables = List.replicate cfg.dims.shardCount (List.replicate (2 * cfg.dims.slotCount) u64Max))
    (h6 : st.metaSink = !(G == 0)) : ShardsOk env cfg S G 0 st := by
  refine ⟨h1, by simpa using h2, ?_, ?_, h6⟩
  · rw [h4]; simp
  · rw [h5]; simp [tableOf, setParts]

theorem shardsOk_stable (hv : cfg.dims.Valid) (hf : cfg.dims.Room) {S1 S2 : Bytes} {G j : Nat} {st st' : WState}
    (hlen : (G * cfg.dims.append.shardSize + j) * cfg.dims.framesPerChunk * cfg.dims.frameBytes ≤ S1.length)
    (h : ShardsOk env cfg S1 G j st) (e1 : st'.appendIdx = st.appendIdx) (e2 : st'.dataSinks = st.dataSinks)
    (e3 : st'.shardOffsets = st.shardOffsets) (e4 : st'.shardTables = st.shardTables)
    (e5 : st'.metaSink = st.metaSink) : ShardsOk env cfg (S1 ++ S2) G j st' := by
  refine ⟨by rw [e1, h.app], by rw [e2, h.sinks], ?_, ?_, by rw [e5, h.ms]⟩
  · rw [e3, h.offs]
    apply List.map_congr_left
    intro i _
    rw [shardParts_stable hv hf hlen]
  · rw [e4, h.tabs]
    apply List.map_congr_left
    intro i _
    rw [shardParts_stable hv hf hlen]

theorem layers_le {n b k F : Nat} : (n / b / k * k + n / b % k) * b * F ≤ n * F := by
  apply Nat.mul_le_mul_right
  rw [Nat.mul_comm (n / b / k), Nat.div_add_mod]
  exact Nat.div_mul_le_self _ _

theorem writeFrame_inv3_seen (hE : GoodEnv env cfg) (ho : SmallOverhead env) (hV : cfg.version = .v3)
    (hv : cfg.dims.Valid) (hf : cfg.dims.Room) (h3 : cfg.dims.FitsV3) {st : WState} {S data : Bytes} {n : Nat}
    (hn : n + 1 < 2 ^ 32) (hd : data.length = cfg.dims.frameBytes) (hi : Inv3 env cfg S n st) :
    ∃ st', writeFrame env cfg data st = .ok (st', cfg.dims.frameBytes) ∧
      Inv3 env cfg (S ++ cfg.dims.seen data) (n + 1) st' := by
  have hd' := (ArrayDims.seen_length (D := cfg.dims) data).trans hd
  rw [writeFrame_seen_eq hv hf hn hi.len hd hi.fw hi.bufs hi.btf]
  generalize cfg.dims.seen data = d at hd' ⊢
  have hF := ArrayDims.frameBytes_pos hv hf
  have hFB := ArrayDims.framesPerChunk_pos hv hf
  have hk : 0 < cfg.dims.append.shardSize := h3.pos cfg.dims.append (by simp [ArrayDims.toList])
  have hstab := shardsOk_stable (S2 := d) hv hf (st' := { st with
        bufs := layer cfg.dims (S ++ d) (n / cfg.dims.framesPerChunk)
        bytesToFlush := (n % cfg.dims.framesPerChunk + 1) * cfg.dims.frameBytes
        framesWritten := n + 1 }) (by rw [hi.len]; exact layers_le) hi.shards rfl rfl rfl rfl rfl
  have hevs := eventsV3_stable (env := env) (S2 := d) hv hf (k := n / cfg.dims.framesPerChunk) (by
        rw [hi.len]
        exact Nat.mul_le_mul_right _ (Nat.div_mul_le_self _ _))
  have hlen' : (S ++ d).length = (n + 1) * cfg.dims.frameBytes := by
    rw [List.length_append, hi.len, hd']; ring
  simp only
  split
  · rename_i hdv
    obtain ⟨e1, e2⟩ := div_succ_of_dvd hFB hdv
    have hEq : (n + 1) = (n / cfg.dims.framesPerChunk + 1) * cfg.dims.framesPerChunk := by
      have := Nat.div_add_mod (n + 1) cfg.dims.framesPerChunk
      rw [hdv, e1] at this
      rw [Nat.mul_comm]; omega
    have hG : n / cfg.dims.framesPerChunk / cfg.dims.append.shardSize + 1 < 2 ^ 32 := by
      have a1 : n / cfg.dims.framesPerChunk ≤ n := Nat.div_le_self _ _
      have a2 : n / cfg.dims.framesPerChunk / cfg.dims.append.shardSize ≤ n / cfg.dims.framesPerChunk :=
        Nat.div_le_self _ _
      omega
    have hroll := rollover_layer hV hv hf h3 (st := { st with
        bufs := layer cfg.dims (S ++ d) (n / cfg.dims.framesPerChunk)
        bytesToFlush := (n % cfg.dims.framesPerChunk + 1) * cfg.dims.frameBytes
        framesWritten := n + 1 }) (n := n + 1) rfl hdv
    rw [e1] at hroll
    have hlay : n / cfg.dims.framesPerChunk / cfg.dims.append.shardSize * cfg.dims.append.shardSize +
        n / cfg.dims.framesPerChunk % cfg.dims.append.shardSize = n / cfg.dims.framesPerChunk := by
      rw [Nat.mul_comm, Nat.div_add_mod]
    rw [flush_v3 hE ho hV hv hf h3 (st := { st with
        bufs := layer cfg.dims (S ++ d) (n / cfg.dims.framesPerChunk)
        bytesToFlush := (n % cfg.dims.framesPerChunk + 1) * cfg.dims.frameBytes
        framesWritten := n + 1 }) (S := S ++ d)
      (G := n / cfg.dims.framesPerChunk / cfg.dims.append.shardSize)
      (q := n / cfg.dims.framesPerChunk % cfg.dims.append.shardSize) (n := n + 1)
      (wt := ((n / cfg.dims.framesPerChunk + 1) % cfg.dims.append.shardSize == 0)) (Nat.mod_lt _ hk)
      (by rw [hlay]) (Nat.ne_of_gt (Nat.mul_pos (by omega) hF)) hstab hroll hG
      (by rw [hi.fin, Bool.false_or]) rfl hn]
    refine ⟨_, rfl, ?_⟩
    have htrace : st.trace ++ flushEventsV3 env cfg (S ++ d)
        (n / cfg.dims.framesPerChunk / cfg.dims.append.shardSize)
        (n / cfg.dims.framesPerChunk % cfg.dims.append.shardSize) (n + 1)
        ((n / cfg.dims.framesPerChunk + 1) % cfg.dims.append.shardSize == 0)
        ((n / cfg.dims.framesPerChunk + 1) % cfg.dims.append.shardSize == 0) =
        eventsV3 env cfg (S ++ d) (n / cfg.dims.framesPerChunk + 1) := by
      rw [hi.tr, ← hevs]
      conv_rhs => rw [eventsV3, List.range_succ, List.flatMap_append]
      simp only [List.flatMap_cons, List.flatMap_nil, List.append_nil, ← hEq]
      rfl
    constructor
    · exact hlen'
    · rfl
    · simp [hdv]
    · exact hi.fin
    · rw [e1]
      by_cases hr : (n / cfg.dims.framesPerChunk + 1) % cfg.dims.append.shardSize = 0
      · obtain ⟨k1, k2⟩ := div_succ_of_dvd hk hr
        rw [hr, k1]
        simp only [beq_self_eq_true, if_true]
        exact shardsOk_fresh rfl rfl (by simp) (by simp) (by simp)
      · obtain ⟨k1, k2⟩ := div_succ_of_not_dvd hk hr
        rw [k1]
        have hb : ((n / cfg.dims.framesPerChunk + 1) % cfg.dims.append.shardSize == 0) = false := by
          simpa using hr
        rw [hb, k2]
        simp only [Bool.false_eq_true, if_false, Bool.false_or]
        exact ⟨rfl, by simp, rfl, rfl, hi.shards.ms⟩
    · right
      rw [e1]
      apply ArrayDims.makeBuffers_eq hv hf
      rw [hlen', ← hEq]
    · exact hi.errs
    · rw [e1]; exact htrace
  · rename_i hdv
    obtain ⟨e1, e2⟩ := div_succ_of_not_dvd hFB hdv
    refine ⟨_, rfl, ?_⟩
    constructor
    · exact hlen'
    · rfl
    · rw [e2]
    · exact hi.fin
    · rw [e1]; exact hstab
    · right; rw [e1]
    · exact hi.errs
    · show st.trace = _
      rw [hi.tr, e1, hevs]

theorem writeFrames_inv3_seen (hE : GoodEnv env cfg) (ho : SmallOverhead env) (hV : cfg.version = .v3)
    (hv : cfg.dims.Valid) (hf : cfg.dims.Room) (h3 : cfg.dims.FitsV3) (frames : List Bytes) {st : WState}
    {S : Bytes} {n : Nat} (hn : n + frames.length < 2 ^ 32)
    (hd : ∀ f ∈ frames, f.length = cfg.dims.frameBytes) (hi : Inv3 env cfg S n st) :
    ∃ st', writeFrames env cfg frames st = .ok st' ∧
      Inv3 env cfg (S ++ (frames.map cfg.dims.seen).flatten) (n + frames.length) st' := by
  induction frames generalizing st S n with
  | nil => exact ⟨st, rfl, by simpa using hi⟩
  | cons f fs ih =>
    simp only [List.length_cons] at hn
    obtain ⟨st1, h1, h2⟩ := writeFrame_inv3_seen hE ho hV hv hf h3 (by omega) (hd f (by simp)) hi
    obtain ⟨st2, h4, h5⟩ := ih (n := n + 1) (by omega) (fun x hx => hd x (by simp [hx])) h2
    refine ⟨st2, ?_, ?_⟩
    · have hF := ArrayDims.frameBytes_pos hv hf
      have : (cfg.dims.frameBytes != 0) = true := by simp; omega
      simp [writeFrames, h1, h4, this]
    · rw [List.map_cons, List.flatten_cons, ← List.append_assoc, List.length_cons]
      have e : n + (fs.length + 1) = n + 1 + fs.length := by omega
      rw [e]
      exact h5

theorem writeFrames_inv3 (hE : GoodEnv env cfg) (ho : SmallOverhead env) (hV : cfg.version = .v3)
    (hv : cfg.dims.Valid) (hf : cfg.dims.Fits) (h3 : cfg.dims.FitsV3) (frames : List Bytes) {st : WState}
    {S : Bytes} {n : Nat} (hn : n + frames.length < 2 ^ 32)
    (hd : ∀ f ∈ frames, f.length = cfg.dims.frameBytes) (hi : Inv3 env cfg S n st) :
    ∃ st', writeFrames env cfg frames st = .ok st' ∧
      Inv3 env cfg (S ++ frames.flatten) (n + frames.length) st' := by
  have h := writeFrames_inv3_seen hE ho hV hv hf h3 frames hn hd hi
  rwa [map_seen hf hd] at h

/-- What the finalization of a V3 writer does after `n` frames: store the incomplete layer with its table
and update the metadata; nothing if the stream ends on a chunk boundary, whether or not the shard is
complete. Then close the metadata sink and drop the shards that are still open. -/
def finishEventsV3 (env : Env) (cfg : WConfig) (S : Bytes) (n : Nat) : List Ev :=
  let g := n / cfg.dims.framesPerChunk
  let G := g / cfg.dims.append.shardSize
  let q := g % cfg.dims.append.shardSize
  if n % cfg.dims.framesPerChunk = 0 then
    (if G = 0 then [] else [Ev.finalized (arrayMetaPath cfg)]) ++
    (if q = 0 then [] else (shardPaths cfg G).map Ev.dropped)
  else flushEventsV3 env cfg S G q n true false ++ [Ev.finalized (arrayMetaPath cfg)] ++
    (shardPaths cfg G).map Ev.dropped

/-- All events of a complete run over the frame stream `S` (`n` frames). -/
def runEventsV3 (env : Env) (cfg : WConfig) (S : Bytes) (n : Nat) : List Ev :=
  eventsV3 env cfg S (n / cfg.dims.framesPerChunk) ++ finishEventsV3 env cfg S n

theorem finalizeArray_v3 (hE : GoodEnv env cfg) (ho : SmallOverhead env) (hV : cfg.version = .v3)
    (hv : cfg.dims.Valid) (hf : cfg.dims.Room) (h3 : cfg.dims.FitsV3) {st : WState} {S : Bytes} {n : Nat}
    (hn : n < 2 ^ 32) (hi : Inv3 env cfg S n st) :
    ∃ st', finalizeArray env cfg st = .ok st' ∧ st'.errors = [] ∧ st'.trace = runEventsV3 env cfg S n := by
  have hF := ArrayDims.frameBytes_pos hv hf
  have hFB := ArrayDims.framesPerChunk_pos hv hf
  have hk : 0 < cfg.dims.append.shardSize := h3.pos cfg.dims.append (by simp [ArrayDims.toList])
  unfold finalizeArray runEventsV3 finishEventsV3
  by_cases h0 : n % cfg.dims.framesPerChunk = 0
  · have hb0 : st.bytesToFlush = 0 := by rw [hi.btf, h0, Nat.zero_mul]
    have hfl : flush env cfg { st with finalizing := true } = .ok { st with finalizing := true } := by
      unfold flush; rw [if_pos hb0]
    rw [hfl]
    simp only [Res.bind_ok, Res.pure_eq, hi.shards.ms, hi.shards.sinks, h0, if_true]
    by_cases hz : n / cfg.dims.framesPerChunk / cfg.dims.append.shardSize = 0
    · simp only [hz, beq_self_eq_true, Bool.not_true, Bool.false_eq_true, if_false, Res.bind_ok, if_true]
      refine ⟨_, rfl, hi.errs, ?_⟩
      simp only [hi.tr, List.nil_append]
      split <;> simp
    · have hb : (n / cfg.dims.framesPerChunk / cfg.dims.append.shardSize == 0) = false := by simpa using hz
      simp only [hb, Bool.not_false, if_true, hE.finalize, check_true, Res.bind_ok, if_neg hz]
      refine ⟨_, rfl, hi.errs, ?_⟩
      simp only [hi.tr, List.append_assoc]
      split <;> simp
  · have hbn : st.bytesToFlush ≠ 0 := by
      rw [hi.btf]
      exact Nat.ne_of_gt (Nat.mul_pos (by omega) hF)
    have hnz : n ≠ 0 := by rintro rfl; simp at h0
    have hb : st.bufs = layer cfg.dims S (n / cfg.dims.framesPerChunk) := by
      rcases hi.bufs with ⟨h, _⟩ | h
      · exact absurd h hnz
      · exact h
    have hG : n / cfg.dims.framesPerChunk / cfg.dims.append.shardSize + 1 < 2 ^ 32 := by
      have h1 := Nat.div_add_mod n cfg.dims.framesPerChunk
      have h2 : n / cfg.dims.framesPerChunk ≤ cfg.dims.framesPerChunk * (n / cfg.dims.framesPerChunk) :=
        Nat.le_mul_of_pos_left _ hFB
      have h4 : n / cfg.dims.framesPerChunk / cfg.dims.append.shardSize ≤ n / cfg.dims.framesPerChunk :=
        Nat.div_le_self _ _
      omega
    have hroll : shouldRollover cfg { st with finalizing := true } = .ok false := by
      rw [shouldRollover_v3 hV hv hf h3]
      simp only [hi.fw]
      congr 1
      simpa using mod_mul_ne_zero h0
    have hs : ShardsOk env cfg S (n / cfg.dims.framesPerChunk / cfg.dims.append.shardSize)
        (n / cfg.dims.framesPerChunk % cfg.dims.append.shardSize) { st with finalizing := true } :=
      ⟨hi.shards.app, hi.shards.sinks, hi.shards.offs, hi.shards.tabs, hi.shards.ms⟩
    rw [flush_v3 hE ho hV hv hf h3 (st := { st with finalizing := true }) (wt := true) (n := n) (Nat.mod_lt _ hk)
      (by rw [Nat.mul_comm, Nat.div_add_mod]; exact hb) hbn hs hroll hG rfl hi.fw hn]
    simp [h0, hE.finalize, hi.errs, hi.tr]

/-- **Whole run of a V3 array writer**: it succeeds, reports no error, and its storage history is
determined by the frames. -/
theorem runArray_v3_seen (hE : GoodEnv env cfg) (ho : SmallOverhead env) (hV : cfg.version = .v3)
    (hv : cfg.dims.Valid) (hf : cfg.dims.Room) (h3 : cfg.dims.FitsV3) (frames : List Bytes)
    (hn : frames.length < 2 ^ 32) (hd : ∀ f ∈ frames, f.length = cfg.dims.frameBytes) :
    ∃ st, runArray env cfg frames = .ok st ∧ st.errors = [] ∧
      st.trace = runEventsV3 env cfg (frames.map cfg.dims.seen).flatten frames.length := by
  obtain ⟨st1, h1, h2⟩ := writeFrames_inv3_seen hE ho hV hv hf h3 frames (n := 0) (by omega) hd (inv3_init hV hv hf h3)
  obtain ⟨st2, h4, h5⟩ := finalizeArray_v3 hE ho hV hv hf h3 (by omega) h2
  rw [List.nil_append, Nat.zero_add] at h5
  refine ⟨st2, ?_, h5⟩
  unfold runArray
  rw [h1]
  exact h4

theorem runArray_v3 (hE : GoodEnv env cfg) (ho : SmallOverhead env) (hV : cfg.version = .v3)
    (hv : cfg.dims.Valid) (hf : cfg.dims.Fits) (h3 : cfg.dims.FitsV3) (frames : List Bytes)
    (hn : frames.length < 2 ^ 32) (hd : ∀ f ∈ frames, f.length = cfg.dims.frameBytes) :
    ∃ st, runArray env cfg frames = .ok st ∧ st.errors = [] ∧
      st.trace = runEventsV3 env cfg frames.flatten frames.length := by
  have h := runArray_v3_seen hE ho hV hv hf h3 frames hn hd
  rwa [map_seen hf hd] at h

end
end AZ
