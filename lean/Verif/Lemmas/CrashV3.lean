import Verif.Lemmas.CrashSession
import Verif.Props.Shards

set_option linter.unusedSimpArgs false

/-! # Crash images of version 3 arrays -/

namespace AZ
open Spec

theorem emit_snoc (b : Bytes) (ws : List (Nat × Bytes)) (o : Nat) (d : Bytes) :
    emit b (ws ++ [(o, d)]) = if d.isEmpty then emit b ws else pwrite (emit b ws) o d := by
  unfold emit
  rw [List.foldl_append]
  rfl

/-- Without a crash all writes arrive. -/
theorem fileAfter_disk (p : Text) (tr : List Ev) :
    fileAfter p tr = (disk p tr).file.map (emit · (disk p tr).pending) := by
  have key : ∀ (tr : List Ev) (d : Disk), tr.foldl (stepFile p) (d.file.map (emit · d.pending)) =
      (tr.foldl (stepDisk p) d).file.map (emit · (tr.foldl (stepDisk p) d).pending) := by
    intro tr
    induction tr with
    | nil => intro d; rfl
    | cons e es ih =>
      intro d
      rw [List.foldl_cons, List.foldl_cons, ← ih]
      congr 1
      unfold stepFile stepDisk
      by_cases he : e.path = p
      · rw [if_neg (by simpa using he), if_pos he]
        cases e with
        | opened q => rfl
        | wrote q o dat =>
          dsimp only
          rw [Option.map_map]
          congr 1
          funext b
          exact (emit_snoc b d.pending o dat).symm
        | finalized q => dsimp only; rw [Option.map_map]; rfl
        | dropped q => dsimp only; rw [Option.map_map]; rfl
      · rw [if_pos he, if_neg he]
  exact key tr ⟨none, []⟩

theorem image_of_closed {p : Text} {t : List Ev} (h : (disk p t).pending = []) {c : Option Bytes} (hc : TornImage p t c) :
    c = fileAfter p t := by
  obtain ⟨k, j, rfl⟩ := hc
  rw [fileAfter_disk, h]
  simp

theorem closed_by_final {p : Text} {t run M : List Ev} (h1 : about p t <+: about p run) (h2 : about p run = M ++ [.finalized p])
    (h3 : Ev.finalized p ∉ M) (h4 : Ev.finalized p ∈ t) : about p t = about p run ∧ (disk p t).pending = [] := by
  have hm : Ev.finalized p ∈ about p t := List.mem_filter.2 ⟨h4, by simp [Ev.path]⟩
  have e : about p t = about p run := by
    rw [h2] at h1 ⊢
    rcases list_prefix_cases h1 with h | ⟨r, hr, hrp⟩
    · exact absurd (h.subset hm) h3
    · rw [hr] at hm ⊢
      cases r with
      | nil =>
        rw [List.append_nil] at hm
        exact absurd hm h3
      | cons x xs =>
        rw [List.cons_prefix_cons, List.prefix_nil] at hrp
        rw [hrp.1, hrp.2]
  refine ⟨e, ?_⟩
  rw [disk_about, e, h2]
  unfold disk
  rw [List.foldl_append]
  simp [stepDisk, Ev.path]

variable {env : Env} {cfg : WConfig}

theorem mem_flush_finalized {S : Bytes} {G q n : Nat} {wt roll : Bool} {p : Text}
    (h : Ev.finalized p ∈ flushEventsV3 env cfg S G q n wt roll) :
    roll = true ∧ ∃ i, i < cfg.dims.shardCount ∧ p = shardPath cfg G i := by
  unfold flushEventsV3 at h
  simp only [List.mem_append] at h
  rcases h with ((h | h) | h) | h
  · split at h <;> simp at h
  · exfalso
    unfold layerWrites at h
    obtain ⟨i, _, h⟩ := List.mem_flatMap.1 h
    rcases List.mem_append.1 h with h | h
    · have : ∀ (l : List (Nat × Bytes)) (o : Nat) (p' : Text), Ev.finalized p ∉ writesAt p' o l := by
        intro l
        induction l with
        | nil => intro o p' h; cases h
        | cons x xs ih =>
          intro o p' h
          rcases List.mem_cons.1 h with h | h
          · cases h
          · exact ih _ _ h
      exact this _ _ _ h
    · split at h <;> simp at h
  · cases roll
    · simp at h
    · refine ⟨rfl, ?_⟩
      simp only [if_true, List.mem_map, Ev.finalized.injEq, exists_eq_right] at h
      unfold shardPaths at h
      obtain ⟨i, hi, rfl⟩ := List.mem_map.1 h
      exact ⟨i, List.mem_range.1 hi, rfl⟩
  · exfalso
    split at h
    · unfold metaEvents at h
      rcases List.mem_append.1 h with h | h
      · split at h <;> simp at h
      · simp at h
    · simp at h

theorem about_flush_other {S : Bytes} {G G' q n i : Nat} {wt roll : Bool} (hi : i < cfg.dims.shardCount) (hG : G' ≠ G) :
    about (shardPath cfg G i) (flushEventsV3 env cfg S G' q n wt roll) = [] := by
  have hne : ∀ i', i' < cfg.dims.shardCount → shardPath cfg G' i' ≠ shardPath cfg G i :=
    fun i' hi' h => hG (shardPath_inj hi' hi h).1
  unfold about
  rw [List.filter_eq_nil_iff]
  intro e he
  simp only [decide_eq_true_eq]
  unfold flushEventsV3 at he
  simp only [List.mem_append] at he
  have paths : ∀ p ∈ shardPaths cfg G', p ≠ shardPath cfg G i := by
    intro p hp
    unfold shardPaths at hp
    obtain ⟨i', hi', rfl⟩ := List.mem_map.1 hp
    exact hne i' (List.mem_range.1 hi')
  rcases he with ((h | h) | h) | h
  · split at h
    · obtain ⟨p, hp, rfl⟩ := List.mem_map.1 h
      exact paths p hp
    · simp at h
  · unfold layerWrites at h
    obtain ⟨i', hi', h⟩ := List.mem_flatMap.1 h
    have := hne i' (List.mem_range.1 hi')
    rcases List.mem_append.1 h with h | h
    · rw [writesAt_path h]; exact this
    · split at h
      · rw [List.mem_singleton.1 h]; exact this
      · simp at h
  · split at h
    · obtain ⟨p, hp, rfl⟩ := List.mem_map.1 h
      exact paths p hp
    · simp at h
  · split at h
    · rw [metaEvents_path h]
      exact fun hh => objectPath_ne_meta cfg G _ hh.symm
    · simp at h

theorem about_finalized_map {ps : List Text} {p : Text} (hn : ps.Nodup) (hm : p ∈ ps) :
    about p (ps.map Ev.finalized) = [.finalized p] := by
  induction ps with
  | nil => cases hm
  | cons q qs ih =>
    rw [List.nodup_cons] at hn
    rw [List.map_cons]
    rcases List.mem_cons.1 hm with rfl | hm
    · rw [show about p (Ev.finalized p :: qs.map Ev.finalized) = Ev.finalized p :: about p (qs.map Ev.finalized) from
        List.filter_cons_of_pos (by simp [Ev.path])]
      congr 1
      unfold about
      rw [List.filter_eq_nil_iff]
      intro e he
      obtain ⟨q, hq, rfl⟩ := List.mem_map.1 he
      intro hh
      have : q = p := of_decide_eq_true hh
      exact hn.1 (this ▸ hq)
    · rw [show about p (Ev.finalized q :: qs.map Ev.finalized) = about p (qs.map Ev.finalized) from
        List.filter_cons_of_neg (by
          intro hh
          have : q = p := of_decide_eq_true hh
          exact hn.1 (this ▸ hm))]
      exact ih hn.2 hm

theorem shardPaths_nodup (cfg : WConfig) (G : Nat) : (shardPaths cfg G).Nodup := by
  unfold shardPaths
  refine nodup_map_on ?_ List.nodup_range
  intro x hx y hy he
  exact (shardPath_inj (List.mem_range.1 hx) (List.mem_range.1 hy) he).2

/-- The flush of layer `g`. -/
def layerFlush (env : Env) (cfg : WConfig) (S : Bytes) (g : Nat) : List Ev :=
  flushEventsV3 env cfg S (g / cfg.dims.append.shardSize) (g % cfg.dims.append.shardSize)
      ((g + 1) * cfg.dims.framesPerChunk) ((g + 1) % cfg.dims.append.shardSize == 0)
      ((g + 1) % cfg.dims.append.shardSize == 0)

theorem eventsV3_flush (S : Bytes) (k : Nat) : eventsV3 env cfg S k = (List.range k).flatMap (layerFlush env cfg S) := rfl

theorem last_layer {k G : Nat} (hk : 0 < k) : (G * k + (k - 1)) / k = G ∧ (G * k + (k - 1)) % k = k - 1 ∧
    (G * k + (k - 1) + 1) % k = 0 := by
  have h1 : k - 1 < k := by omega
  refine ⟨?_, ?_, ?_⟩
  · rw [Nat.mul_comm, Nat.mul_add_div hk, Nat.div_eq_of_lt h1, Nat.add_zero]
  · rw [Nat.mul_comm, Nat.mul_add_mod, Nat.mod_eq_of_lt h1]
  · have : G * k + (k - 1) + 1 = (G + 1) * k := by rw [Nat.succ_mul]; omega
    rw [this, Nat.mul_mod_left]

theorem layer_last_of {k g : Nat} (hk : 0 < k) (h : (g + 1) % k = 0) : g = g / k * k + (k - 1) := by
  have hd := Nat.div_add_mod (g + 1) k
  rw [h, Nat.add_zero] at hd
  have hq : 0 < (g + 1) / k := by
    rcases Nat.eq_zero_or_pos ((g + 1) / k) with h0 | h0
    · rw [h0] at hd; omega
    · exact h0
  obtain ⟨m, hm⟩ : ∃ m, (g + 1) / k = m + 1 := ⟨(g + 1) / k - 1, by omega⟩
  rw [hm] at hd
  have hg : g = m * k + (k - 1) := by
    have : k * (m + 1) = m * k + k := by rw [Nat.mul_comm, Nat.succ_mul]
    omega
  have : g / k = m := by rw [hg]; exact (last_layer hk).1
  rw [this]; exact hg

theorem mem_range_flush_finalized (hk : 0 < cfg.dims.append.shardSize) {S : Bytes} {K G i : Nat} (hi : i < cfg.dims.shardCount) :
    Ev.finalized (shardPath cfg G i) ∈ eventsV3 env cfg S K ↔ (G + 1) * cfg.dims.append.shardSize ≤ K := by
  rw [eventsV3_flush]
  constructor
  · intro h
    obtain ⟨g, hg, h⟩ := List.mem_flatMap.1 h
    obtain ⟨h1, i', hi', hp⟩ := mem_flush_finalized h
    have := (shardPath_inj hi hi' hp).1
    have hg' := layer_last_of hk (by simpa using h1)
    rw [← this] at hg'
    have := List.mem_range.1 hg
    rw [Nat.succ_mul]; omega
  · intro h
    rw [Nat.succ_mul] at h
    refine List.mem_flatMap.2 ⟨G * cfg.dims.append.shardSize + (cfg.dims.append.shardSize - 1), List.mem_range.2 (by omega), ?_⟩
    obtain ⟨l1, l2, l3⟩ := last_layer (G := G) hk
    unfold layerFlush flushEventsV3
    rw [l1, l3]
    simp only [List.mem_append]
    refine .inl (.inr ?_)
    simp only [beq_self_eq_true, if_true]
    exact List.mem_map_of_mem (List.mem_map_of_mem (List.mem_range.2 hi))

/-- The events of a completed shard in a run: closing it is the last one. -/
theorem shard_about_run (hk : 0 < cfg.dims.append.shardSize) (S : Bytes) {n G i : Nat} (hi : i < cfg.dims.shardCount)
    (hG : (G + 1) * cfg.dims.append.shardSize ≤ n / cfg.dims.framesPerChunk) :
    ∃ M, about (shardPath cfg G i) (runEventsV3 env cfg S n) = M ++ [.finalized (shardPath cfg G i)] ∧
      Ev.finalized (shardPath cfg G i) ∉ M := by
  obtain ⟨l1, l2, l3⟩ := last_layer (G := G) hk
  rw [Nat.succ_mul] at hG
  generalize hg : G * cfg.dims.append.shardSize + (cfg.dims.append.shardSize - 1) = g at l1 l2 l3
  obtain ⟨r, hr⟩ : ∃ r, n / cfg.dims.framesPerChunk = (g + 1) + r := ⟨n / cfg.dims.framesPerChunk - (g + 1), by omega⟩
  have hrun : runEventsV3 env cfg S n = ((List.range g).flatMap (layerFlush env cfg S) ++ layerFlush env cfg S g) ++
      (((List.range r).map (g + 1 + ·)).flatMap (layerFlush env cfg S) ++ finishEventsV3 env cfg S n) := by
    unfold runEventsV3
    rw [eventsV3_flush, hr, List.range_add, List.range_succ, List.flatMap_append, List.flatMap_append]
    simp [List.append_assoc]
  -- nothing later
  have hlater : about (shardPath cfg G i) (((List.range r).map (g + 1 + ·)).flatMap (layerFlush env cfg S)) = [] := by
    unfold about
    rw [List.filter_eq_nil_iff]
    intro e he
    obtain ⟨g', hg', he⟩ := List.mem_flatMap.1 he
    obtain ⟨j, _, rfl⟩ := List.mem_map.1 hg'
    have hne : (g + 1 + j) / cfg.dims.append.shardSize ≠ G := by
      have : G + 1 ≤ (g + 1 + j) / cfg.dims.append.shardSize := by
        rw [Nat.le_div_iff_mul_le hk, Nat.succ_mul]; omega
      omega
    have := about_flush_other (env := env) (S := S) (q := (g + 1 + j) % cfg.dims.append.shardSize)
      (n := (g + 1 + j + 1) * cfg.dims.framesPerChunk) (wt := (g + 1 + j + 1) % cfg.dims.append.shardSize == 0)
      (roll := (g + 1 + j + 1) % cfg.dims.append.shardSize == 0) hi hne
    unfold about at this
    rw [List.filter_eq_nil_iff] at this
    exact this e he
  have hfin : about (shardPath cfg G i) (finishEventsV3 env cfg S n) = [] := by
    have hne : n / cfg.dims.framesPerChunk / cfg.dims.append.shardSize ≠ G := by
      have : G + 1 ≤ n / cfg.dims.framesPerChunk / cfg.dims.append.shardSize := by
        rw [Nat.le_div_iff_mul_le hk, Nat.succ_mul]; exact hG
      omega
    have hdrop : ∀ e ∈ (shardPaths cfg (n / cfg.dims.framesPerChunk / cfg.dims.append.shardSize)).map Ev.dropped,
        e.path ≠ shardPath cfg G i := by
      intro e he
      obtain ⟨p, hp, rfl⟩ := List.mem_map.1 he
      unfold shardPaths at hp
      obtain ⟨i', hi', rfl⟩ := List.mem_map.1 hp
      exact fun hh => hne (shardPath_inj (List.mem_range.1 hi') hi hh).1
    have hmeta : (Ev.finalized (arrayMetaPath cfg)).path ≠ shardPath cfg G i :=
      fun hh => objectPath_ne_meta cfg G _ hh.symm
    unfold about
    rw [List.filter_eq_nil_iff]
    intro e he
    simp only [decide_eq_true_eq]
    unfold finishEventsV3 at he
    simp only at he
    split at he
    · rcases List.mem_append.1 he with he | he
      · split at he
        · simp at he
        · rw [List.mem_singleton.1 he]; exact hmeta
      · split at he
        · simp at he
        · exact hdrop e he
    · simp only [List.mem_append] at he
      rcases he with (he | he) | he
      · have := about_flush_other (env := env) (S := S) (q := n / cfg.dims.framesPerChunk % cfg.dims.append.shardSize)
          (n := n) (wt := true) (roll := false) hi hne
        unfold about at this
        rw [List.filter_eq_nil_iff] at this
        simpa using this e he
      · rw [List.mem_singleton.1 he]; exact hmeta
      · exact hdrop e he
  have hlast : about (shardPath cfg G i) (layerFlush env cfg S g) = about (shardPath cfg G i)
      ((if cfg.dims.append.shardSize - 1 = 0 then (shardPaths cfg G).map Ev.opened else []) ++
        layerWrites env cfg S G (cfg.dims.append.shardSize - 1) true) ++ [.finalized (shardPath cfg G i)] := by
    unfold layerFlush flushEventsV3
    rw [l1, l2, l3]
    simp only [beq_self_eq_true, if_true]
    unfold about
    rw [List.filter_append, List.filter_append]
    have h1 : about (shardPath cfg G i) ((shardPaths cfg G).map Ev.finalized) = [.finalized (shardPath cfg G i)] :=
      about_finalized_map (shardPaths_nodup cfg G) (List.mem_map_of_mem (List.mem_range.2 hi))
    unfold about at h1
    rw [h1]
    have h2 : (metaEvents cfg (G == 0) ((g + 1) * cfg.dims.framesPerChunk)).filter
        (fun e => decide (e.path = shardPath cfg G i)) = [] := filter_meta_chunk
    rw [h2, List.append_nil]
  refine ⟨about (shardPath cfg G i) ((List.range g).flatMap (layerFlush env cfg S)) ++ about (shardPath cfg G i)
      ((if cfg.dims.append.shardSize - 1 = 0 then (shardPaths cfg G).map Ev.opened else []) ++
        layerWrites env cfg S G (cfg.dims.append.shardSize - 1) true), ?_, ?_⟩
  · rw [hrun]
    have happ : ∀ a b : List Ev, about (shardPath cfg G i) (a ++ b) = about (shardPath cfg G i) a ++ about (shardPath cfg G i) b :=
      fun a b => List.filter_append ..
    rw [happ, happ, happ, hlater, hfin, hlast]
    simp only [List.append_nil, List.append_assoc]
  · intro h
    rcases List.mem_append.1 h with h | h
    · have h' := (List.mem_filter.1 h).1
      rw [← eventsV3_flush, mem_range_flush_finalized hk hi, Nat.succ_mul] at h'
      omega
    · have h' := (List.mem_filter.1 h).1
      have : Ev.finalized (shardPath cfg G i) ∈ flushEventsV3 env cfg S G (cfg.dims.append.shardSize - 1) 0 true false := by
        unfold flushEventsV3
        exact List.mem_append_left _ (List.mem_append_left _ h')
      have := (mem_flush_finalized this).1
      cases this

/-- A completed shard whose closing is in the history `t` has only its final content. -/
theorem shard_image (hk : 0 < cfg.dims.append.shardSize) {S : Bytes} {n G i : Nat} (hi : i < cfg.dims.shardCount)
    (hG : (G + 1) * cfg.dims.append.shardSize ≤ n / cfg.dims.framesPerChunk) {t : List Ev}
    (h1 : about (shardPath cfg G i) t <+: about (shardPath cfg G i) (runEventsV3 env cfg S n))
    (h2 : Ev.finalized (shardPath cfg G i) ∈ t) :
    about (shardPath cfg G i) t = about (shardPath cfg G i) (runEventsV3 env cfg S n) ∧
    ∀ c, TornImage (shardPath cfg G i) t c → c = fileAfter (shardPath cfg G i) (runEventsV3 env cfg S n) := by
  obtain ⟨M, m1, m2⟩ := shard_about_run (env := env) hk S hi hG
  obtain ⟨e1, e2⟩ := closed_by_final h1 m1 m2 h2
  refine ⟨e1, fun c hc => ?_⟩
  rw [image_of_closed e2 hc]
  exact fileAfter_about e1

/-- In a beginning of the appending phase that contains a document, all shards the document refers to are closed. -/
theorem v3_array_crash (hk : 0 < cfg.dims.append.shardSize) {S : Bytes} {K : Nat}
    {t : List Ev} (ht : t <+: eventsV3 env cfg S K) {b : Bytes} (hb : Ev.wrote (arrayMetaPath cfg) 0 b ∈ t) :
    ∃ G, (G + 1) * cfg.dims.append.shardSize ≤ K ∧
      b = metaDoc cfg (ceilDiv ((G + 1) * cfg.dims.append.shardSize * cfg.dims.framesPerChunk) (prod (aShape cfg.dims.inner))) ∧
      ∀ G' i, G' ≤ G → i < cfg.dims.shardCount → Ev.finalized (shardPath cfg G' i) ∈ t := by
  have hsplit : eventsV3 env cfg S K = ((List.range K).flatMap fun g =>
      ((if g % cfg.dims.append.shardSize = 0 then (shardPaths cfg (g / cfg.dims.append.shardSize)).map Ev.opened else []) ++
        layerWrites env cfg S (g / cfg.dims.append.shardSize) (g % cfg.dims.append.shardSize) ((g + 1) % cfg.dims.append.shardSize == 0) ++
        (if (g + 1) % cfg.dims.append.shardSize == 0 then (shardPaths cfg (g / cfg.dims.append.shardSize)).map Ev.finalized else [])) ++
      (if (g + 1) % cfg.dims.append.shardSize == 0 then
        metaEvents cfg (g / cfg.dims.append.shardSize == 0) ((g + 1) * cfg.dims.framesPerChunk) else [])) ++ [] := by
    rw [List.append_nil]
    rfl
  rw [hsplit] at ht
  obtain ⟨g, h1, h2, h3⟩ := prefix_groups ht hb (by
    intro g hm
    simp only [List.mem_append] at hm
    rcases hm with (hm | hm) | hm
    · split at hm <;> simp at hm
    · unfold layerWrites at hm
      obtain ⟨i, _, hm⟩ := List.mem_flatMap.1 hm
      rcases List.mem_append.1 hm with hm | hm
      · exact objectPath_ne_meta cfg _ _ (writesAt_path hm).symm
      · split at hm
        · have := congrArg Ev.path (List.mem_singleton.1 hm)
          exact objectPath_ne_meta cfg _ _ this.symm
        · simp at hm
    · split at hm <;> simp at hm) (by simp)
  have hroll : (g + 1) % cfg.dims.append.shardSize = 0 := by
    apply Classical.byContradiction
    intro hne
    have : ((g + 1) % cfg.dims.append.shardSize == 0) = false := by simpa using hne
    rw [this] at h2
    simp at h2
  have hg := layer_last_of hk hroll
  refine ⟨g / cfg.dims.append.shardSize, by rw [Nat.succ_mul]; omega, ?_, ?_⟩
  · rw [hroll] at h2
    simp only [beq_self_eq_true, if_true] at h2
    unfold metaEvents at h2
    rcases List.mem_append.1 h2 with h2 | h2
    · split at h2 <;> simp at h2
    · simp only [List.mem_singleton, Ev.wrote.injEq, true_and] at h2
      rw [h2]
      congr 3
      rw [Nat.succ_mul]; omega
  · intro G' i hG' hi
    apply h3.subset
    rcases Nat.lt_or_eq_of_le hG' with hlt | rfl
    · apply List.mem_append_left
      have : Ev.finalized (shardPath cfg G' i) ∈ eventsV3 env cfg S g := by
        rw [mem_range_flush_finalized hk hi]
        have : (G' + 1) * cfg.dims.append.shardSize ≤ g / cfg.dims.append.shardSize * cfg.dims.append.shardSize :=
          Nat.mul_le_mul_right _ hlt
        omega
      exact this
    · apply List.mem_append_right
      apply List.mem_append_right
      rw [hroll]
      simp only [beq_self_eq_true, if_true]
      exact List.mem_map_of_mem (List.mem_map_of_mem (List.mem_range.2 hi))

end AZ
