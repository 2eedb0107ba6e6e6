import Verif.Lemmas.WriterV3
import Verif.Lemmas.FilesV2

set_option linter.unusedSimpArgs false

/-! # The files of a completed V3 run -/

namespace AZ
open Spec

section
variable {env : Env} {cfg : WConfig}

theorem shardPath_inj {G G' i i' : Nat} (hi : i < cfg.dims.shardCount) (hi' : i' < cfg.dims.shardCount)
    (h : shardPath cfg G i = shardPath cfg G' i') : G = G' ∧ i = i' := by
  obtain ⟨h1, h2⟩ := objectPath_inj h
  refine ⟨h1, ?_⟩
  rw [← ravel_unravel (s := mShape cfg.dims.tailDims) hi, h2, ravel_unravel hi']

/-- Closing or dropping sinks does not change contents. -/
theorem foldl_close (p : Text) {evs : List Ev} (h : ∀ e ∈ evs, ∃ q, e = Ev.finalized q ∨ e = Ev.dropped q)
    (cur : Option Bytes) : evs.foldl (stepFile p) cur = cur := by
  induction evs with
  | nil => rfl
  | cons e es ih =>
    have hst : stepFile p cur e = cur := by
      obtain ⟨q, he⟩ := h e (by simp)
      unfold stepFile
      rcases he with rfl | rfl <;> split <;> rfl
    rw [List.foldl_cons, hst]
    exact ih fun e he => h e (by simp [he])

theorem foldl_finalized (p : Text) (ps : List Text) (cur) : (ps.map Ev.finalized).foldl (stepFile p) cur = cur :=
  foldl_close p (by
    intro e he
    obtain ⟨q, _, rfl⟩ := List.mem_map.1 he
    exact ⟨q, .inl rfl⟩) cur

theorem foldl_dropped (p : Text) (ps : List Text) (cur) : (ps.map Ev.dropped).foldl (stepFile p) cur = cur :=
  foldl_close p (by
    intro e he
    obtain ⟨q, _, rfl⟩ := List.mem_map.1 he
    exact ⟨q, .inr rfl⟩) cur

theorem foldl_meta_shard (G i : Nat) (b : Bool) (n : Nat) (cur) :
    (metaEvents cfg b n).foldl (stepFile (shardPath cfg G i)) cur = cur := by
  apply foldl_stepFile_irrelevant
  intro e he h
  rw [metaEvents_path he] at h
  exact objectPath_ne_meta cfg G _ h.symm

/-- Effect of a flush on a shard of another append-shard. -/
theorem flush_other (S : Bytes) {G G' q n i : Nat} {wt roll : Bool} (hi : i < cfg.dims.shardCount) (hG : G' ≠ G)
    (cur) : (flushEventsV3 env cfg S G' q n wt roll).foldl (stepFile (shardPath cfg G i)) cur = cur := by
  have hne : ∀ i', i' < cfg.dims.shardCount → shardPath cfg G' i' ≠ shardPath cfg G i :=
    fun i' hi' h => hG (shardPath_inj hi' hi h).1
  unfold flushEventsV3
  rw [List.foldl_append, List.foldl_append, List.foldl_append]
  have h1 : ((if q = 0 then (shardPaths cfg G').map Ev.opened else [])).foldl (stepFile (shardPath cfg G i)) cur = cur := by
    apply foldl_stepFile_irrelevant
    intro e he
    split at he
    · obtain ⟨p, hp, rfl⟩ := List.mem_map.1 he
      obtain ⟨i', hi', rfl⟩ := List.mem_map.1 hp
      exact hne i' (List.mem_range.1 hi')
    · cases he
  have h2 : (layerWrites env cfg S G' q wt).foldl (stepFile (shardPath cfg G i)) cur = cur := by
    apply foldl_stepFile_irrelevant
    intro e he
    obtain ⟨i', hi', he⟩ := List.mem_flatMap.1 he
    have := hne i' (List.mem_range.1 hi')
    rcases List.mem_append.1 he with he | he
    · rw [writesAt_path he]; exact this
    · cases wt
      · cases he
      · rw [List.mem_singleton.1 he]; exact this
  rw [h1, h2]
  have h3 : ((if roll then (shardPaths cfg G').map Ev.finalized else [])).foldl (stepFile (shardPath cfg G i)) cur = cur := by
    split
    · exact foldl_finalized _ _ _
    · rfl
  rw [h3]
  split
  · exact foldl_meta_shard _ _ _ _ _
  · rfl

/-- Effect of a flush on a shard it writes to. -/
theorem flush_same (S : Bytes) {G q n i : Nat} {wt roll : Bool} (hi : i < cfg.dims.shardCount) {cur : Option Bytes}
    (hcur : q ≠ 0 → cur = some ((shardParts env cfg S G q i).flatMap (·.2))) :
    (flushEventsV3 env cfg S G q n wt roll).foldl (stepFile (shardPath cfg G i)) cur =
      some ((shardParts env cfg S G (q + 1) i).flatMap (·.2) ++
        if wt then (tableOf cfg.dims (shardParts env cfg S G (q + 1) i)).flatMap u64le else []) := by
  have hinj : ∀ i', i' < cfg.dims.shardCount → shardPath cfg G i' = shardPath cfg G i → i' = i :=
    fun i' hi' h => (shardPath_inj hi' hi h).2
  unfold flushEventsV3
  rw [List.foldl_append, List.foldl_append, List.foldl_append]
  have h1 : ((if q = 0 then (shardPaths cfg G).map Ev.opened else [])).foldl (stepFile (shardPath cfg G i)) cur =
      some ((shardParts env cfg S G q i).flatMap (·.2)) := by
    by_cases h0 : q = 0
    · subst h0
      rw [if_pos rfl, foldl_stepFile_filter]
      unfold shardPaths
      rw [List.map_map, filter_indexed (f := Ev.opened ∘ shardPath cfg G) (path := shardPath cfg G) (fun _ => rfl) hi hinj]
      simp [stepFile, Ev.path]
    · rw [if_neg h0, hcur h0]; rfl
  rw [h1]
  have h2 : (layerWrites env cfg S G q wt).foldl (stepFile (shardPath cfg G i))
      (some ((shardParts env cfg S G q i).flatMap (·.2))) =
      some ((shardParts env cfg S G (q + 1) i).flatMap (·.2) ++
        if wt then (tableOf cfg.dims (shardParts env cfg S G (q + 1) i)).flatMap u64le else []) := by
    rw [foldl_stepFile_filter]
    unfold layerWrites
    rw [filter_flatMap_unique (g0 := i) _ hi]
    · rw [← foldl_stepFile_filter, List.foldl_append, ← totalLen_eq, foldl_writesAt, ← List.flatMap_append,
        ← shardParts_succ]
      cases wt
      · simp
      · simp only [if_true, List.foldl_cons, List.foldl_nil]
        rw [← totalLen_eq, step_table]
    · intro i' hi' hne
      rw [List.filter_eq_nil_iff]
      intro e he
      have hp : e.path = shardPath cfg G i' := by
        rcases List.mem_append.1 he with he | he
        · exact writesAt_path he
        · cases wt
          · cases he
          · rw [List.mem_singleton.1 he]; rfl
      rw [hp]
      simp only [decide_eq_true_eq]
      exact fun h => hne (hinj i' hi' h)
  rw [h2]
  have h3 : ∀ c, ((if roll then (shardPaths cfg G).map Ev.finalized else [])).foldl (stepFile (shardPath cfg G i)) c = c := by
    intro c
    split
    · exact foldl_finalized _ _ _
    · rfl
  rw [h3]
  split
  · exact foldl_meta_shard _ _ _ _ _
  · rfl

/-- Contents of shard `i` of append-shard `G` after `k` complete layers. -/
theorem shard_after_layers (hk : 0 < cfg.dims.append.shardSize) (S : Bytes) {G i : Nat}
    (hi : i < cfg.dims.shardCount) (k : Nat) :
    fileAfter (shardPath cfg G i) (eventsV3 env cfg S k) =
      if k ≤ G * cfg.dims.append.shardSize then none
      else if k < (G + 1) * cfg.dims.append.shardSize then
        some ((shardParts env cfg S G (k - G * cfg.dims.append.shardSize) i).flatMap (·.2))
      else some ((shardParts env cfg S G cfg.dims.append.shardSize i).flatMap (·.2) ++
        (tableOf cfg.dims (shardParts env cfg S G cfg.dims.append.shardSize i)).flatMap u64le) := by
  have hmul : (G + 1) * cfg.dims.append.shardSize = G * cfg.dims.append.shardSize + cfg.dims.append.shardSize := by
    rw [Nat.add_mul, Nat.one_mul]
  induction k with
  | zero => simp [eventsV3, fileAfter]
  | succ k ih =>
    unfold fileAfter at *
    unfold eventsV3 at *
    rw [List.range_succ, List.flatMap_append, List.foldl_append, ih]
    simp only [List.flatMap_cons, List.flatMap_nil, List.append_nil]
    have hdm := Nat.div_add_mod k cfg.dims.append.shardSize
    have hml := Nat.mod_lt k hk
    by_cases hG : k / cfg.dims.append.shardSize = G
    · rw [Nat.mul_comm, hG] at hdm
      have hkG : k < (G + 1) * cfg.dims.append.shardSize := by omega
      have hc1 : ¬ (k + 1 ≤ G * cfg.dims.append.shardSize) := by omega
      rw [hG, flush_same S hi]
      · rw [if_neg hc1]
        by_cases hlast : k + 1 < (G + 1) * cfg.dims.append.shardSize
        · have hb : ((k + 1) % cfg.dims.append.shardSize == 0) = false := by
            have : (k + 1) % cfg.dims.append.shardSize = k % cfg.dims.append.shardSize + 1 := by
              rw [← hdm, Nat.add_assoc, Nat.mul_comm, Nat.mul_add_mod, Nat.mul_add_mod, Nat.mod_mod]
              exact Nat.mod_eq_of_lt (by omega)
            rw [this]; rfl
          rw [if_pos hlast, hb]
          have e : k + 1 - G * cfg.dims.append.shardSize = k % cfg.dims.append.shardSize + 1 := by omega
          simp [e]
        · have e : k % cfg.dims.append.shardSize + 1 = cfg.dims.append.shardSize := by omega
          have hb : ((k + 1) % cfg.dims.append.shardSize == 0) = true := by
            rw [← hdm, Nat.add_assoc, e, Nat.mul_comm, Nat.mul_add_mod, Nat.mod_self]
            rfl
          rw [if_neg hlast, hb, e]
          simp
      · intro hq
        rw [if_neg (by omega), if_pos hkG]
        have e : k - G * cfg.dims.append.shardSize = k % cfg.dims.append.shardSize := by omega
        rw [e]
    · rw [flush_other S hi hG]
      have hcase : k < G * cfg.dims.append.shardSize ∨ (G + 1) * cfg.dims.append.shardSize ≤ k := by
        rcases Nat.lt_or_gt_of_ne hG with h | h
        · left
          have := Nat.mul_le_mul_right cfg.dims.append.shardSize h
          rw [Nat.succ_mul, Nat.mul_comm (k / _)] at this
          omega
        · right
          have := Nat.mul_le_mul_right cfg.dims.append.shardSize h
          rw [Nat.mul_comm (k / _)] at this
          simp only [Nat.succ_eq_add_one] at this
          omega
      rcases hcase with h | h
      · rw [if_pos (by omega), if_pos (by omega)]
      · rw [if_neg (by omega), if_neg (by omega), if_neg (by omega), if_neg (by omega)]

/-- Number of append layers stored in append-shard `G` by a run of `n` frames. -/
def layersIn (cfg : WConfig) (n G : Nat) : Nat :=
  min cfg.dims.append.shardSize (groups cfg n - G * cfg.dims.append.shardSize)

/-- Contents of a shard after a complete run: the chunks of the layers stored in it, and the table unless
the stream ended on a chunk boundary inside the shard. -/
theorem fileAfter_shard (hv : cfg.dims.Valid) (hf : cfg.dims.Room) (h3 : cfg.dims.FitsV3) (S : Bytes)
    {n G i : Nat} (hi : i < cfg.dims.shardCount) :
    fileAfter (shardPath cfg G i) (runEventsV3 env cfg S n) =
      if groups cfg n ≤ G * cfg.dims.append.shardSize then none
      else some ((shardParts env cfg S G (layersIn cfg n G) i).flatMap (·.2) ++
        if (G + 1) * cfg.dims.append.shardSize ≤ groups cfg n ∨ n % cfg.dims.framesPerChunk ≠ 0 then
          (tableOf cfg.dims (shardParts env cfg S G (layersIn cfg n G) i)).flatMap u64le else []) := by
  have hFB := ArrayDims.framesPerChunk_pos hv hf
  have hk : 0 < cfg.dims.append.shardSize := h3.pos cfg.dims.append (by simp [ArrayDims.toList])
  have hmul : (G + 1) * cfg.dims.append.shardSize = G * cfg.dims.append.shardSize + cfg.dims.append.shardSize := by
    rw [Nat.add_mul, Nat.one_mul]
  have hlay := shard_after_layers (env := env) hk S (G := G) hi (n / cfg.dims.framesPerChunk)
  unfold layersIn
  unfold runEventsV3 finishEventsV3 groups
  unfold fileAfter at *
  rw [List.foldl_append, hlay]
  clear hlay
  dsimp only
  by_cases h0 : n % cfg.dims.framesPerChunk = 0
  · rw [if_pos h0, ceilDiv_of_dvd hFB h0]
    generalize n / cfg.dims.framesPerChunk = L at *
    have hfin : ∀ cur, ((if L / cfg.dims.append.shardSize = 0 then [] else [Ev.finalized (arrayMetaPath cfg)]) ++
        (if L % cfg.dims.append.shardSize = 0 then [] else
          (shardPaths cfg (L / cfg.dims.append.shardSize)).map Ev.dropped)).foldl
        (stepFile (shardPath cfg G i)) cur = cur := by
      intro cur
      apply foldl_close
      intro e he
      rcases List.mem_append.1 he with he | he
      · split at he
        · cases he
        · exact ⟨_, .inl (List.mem_singleton.1 he)⟩
      · split at he
        · cases he
        · obtain ⟨q, _, rfl⟩ := List.mem_map.1 he
          exact ⟨q, .inr rfl⟩
    rw [hfin]
    by_cases c1 : L ≤ G * cfg.dims.append.shardSize
    · rw [if_pos c1, if_pos c1]
    · rw [if_neg c1, if_neg c1]
      by_cases c2 : L < (G + 1) * cfg.dims.append.shardSize
      · have : ¬ ((G + 1) * cfg.dims.append.shardSize ≤ L ∨ ¬ n % cfg.dims.framesPerChunk = 0) := by
          simp only [h0, not_true, or_false]; omega
        rw [if_pos c2, if_neg this, List.append_nil, Nat.min_eq_right (by omega)]
      · rw [if_neg c2, if_pos (.inl (by omega)), Nat.min_eq_left (by omega)]
  · rw [if_neg h0, ceilDiv_of_not_dvd hFB h0]
    have hdm := Nat.div_add_mod (n / cfg.dims.framesPerChunk) cfg.dims.append.shardSize
    have hml := Nat.mod_lt (n / cfg.dims.framesPerChunk) hk
    generalize n / cfg.dims.framesPerChunk = L at *
    rw [List.foldl_append, List.foldl_append, foldl_dropped]
    rw [foldl_close (evs := [Ev.finalized (arrayMetaPath cfg)]) _ (by
      intro e he; exact ⟨_, .inl (List.mem_singleton.1 he)⟩)]
    by_cases hG : L / cfg.dims.append.shardSize = G
    · rw [Nat.mul_comm, hG] at hdm
      have hc1 : ¬ (L + 1 ≤ G * cfg.dims.append.shardSize) := by omega
      rw [hG, flush_same S hi]
      · rw [if_neg hc1, if_pos rfl, if_pos (.inr h0)]
        have e : min cfg.dims.append.shardSize (L + 1 - G * cfg.dims.append.shardSize) =
            L % cfg.dims.append.shardSize + 1 := by omega
        rw [e]
      · intro hq
        rw [if_neg (by omega), if_pos (by omega)]
        have e : L - G * cfg.dims.append.shardSize = L % cfg.dims.append.shardSize := by omega
        rw [e]
    · rw [flush_other S hi hG]
      have hcase : L < G * cfg.dims.append.shardSize ∨ (G + 1) * cfg.dims.append.shardSize ≤ L := by
        rcases Nat.lt_or_gt_of_ne hG with h | h
        · left
          have := Nat.mul_le_mul_right cfg.dims.append.shardSize h
          rw [Nat.succ_mul, Nat.mul_comm (L / _)] at this
          omega
        · right
          have := Nat.mul_le_mul_right cfg.dims.append.shardSize h
          rw [Nat.mul_comm (L / _)] at this
          simp only [Nat.succ_eq_add_one] at this
          omega
      rcases hcase with h | h
      · rw [if_pos (by omega), if_pos (by omega)]
      · rw [if_neg (by omega), if_neg (by omega), if_neg (by omega), if_pos (.inr h0), Nat.min_eq_left (by omega)]

end
end AZ
