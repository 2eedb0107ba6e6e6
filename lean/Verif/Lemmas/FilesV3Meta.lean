import Verif.Lemmas.S3Store

set_option linter.unusedSimpArgs false

/-! # The array document of a V3 writer after a complete run -/

namespace AZ
open Spec

section
variable {env : Env} {cfg : WConfig}

theorem about_shards_meta {f : Text → Ev} (hf : ∀ q, (f q).path = q) (G : Nat) :
    about (arrayMetaPath cfg) ((shardPaths cfg G).map f) = [] := by
  apply about_none
  intro e he
  obtain ⟨p, hp, rfl⟩ := List.mem_map.1 he
  obtain ⟨i, hi, rfl⟩ := List.mem_map.1 hp
  rw [hf]
  exact objectPath_ne_meta _ _ _

/-- The document is written only together with a table. -/
theorem about_flush_meta (S : Bytes) {G q n : Nat} {wt roll : Bool} :
    about (arrayMetaPath cfg) (flushEventsV3 env cfg S G q n wt roll) = if wt then metaEvents cfg (G == 0) n else [] := by
  unfold flushEventsV3
  rw [about_append, about_append, about_append]
  have h1 : about (arrayMetaPath cfg) (if q = 0 then (shardPaths cfg G).map Ev.opened else []) = [] := by
    split
    · exact about_shards_meta (fun _ => rfl) G
    · rfl
  have h2 : about (arrayMetaPath cfg) (if roll then (shardPaths cfg G).map Ev.finalized else []) = [] := by
    split
    · exact about_shards_meta (fun _ => rfl) G
    · rfl
  have h3 : about (arrayMetaPath cfg) (layerWrites env cfg S G q wt) = [] := by
    apply about_none
    intro e he
    unfold layerWrites at he
    obtain ⟨i, hi, he⟩ := List.mem_flatMap.1 he
    have : e.path = shardPath cfg G i := by
      rcases List.mem_append.1 he with he | he
      · exact writesAt_path he
      · split at he
        · rw [List.mem_singleton.1 he]; rfl
        · cases he
    rw [this]
    exact objectPath_ne_meta _ _ _
  have h4 : about (arrayMetaPath cfg) (if wt then metaEvents cfg (G == 0) n else []) =
      if wt then metaEvents cfg (G == 0) n else [] := by
    split
    · exact about_all fun e he => metaEvents_path he
    · rfl
  rw [h1, h2, h3, h4]
  rfl

/-- Number of frames covered by the array document after `n` frames: `f` frames per chunk, `k` chunks per append shard.
All of them if the last chunk is incomplete; otherwise only those in full shards. -/
def docFrames (f k n : Nat) : Nat := if n % f ≠ 0 then n else n / (f * k) * (f * k)

theorem docFrames_le (f k n : Nat) : docFrames f k n ≤ n := by
  unfold docFrames
  split
  · exact Nat.le_refl _
  · exact Nat.div_mul_le_self _ _

/-- The document after the first `K` layers. -/
theorem meta_after_layers (hk : 0 < cfg.dims.append.shardSize) (S : Bytes) (K : Nat) :
    (about (arrayMetaPath cfg) (eventsV3 env cfg S K)).foldl (stepFile (arrayMetaPath cfg)) none =
      if K / cfg.dims.append.shardSize = 0 then none else
        some (metaDoc cfg (ceilDiv (K / cfg.dims.append.shardSize * cfg.dims.append.shardSize * cfg.dims.framesPerChunk)
          (prod (aShape cfg.dims.inner)))) := by
  induction K with
  | zero => simp [eventsV3, about]
  | succ K ih =>
    have hsplit : eventsV3 env cfg S (K + 1) = eventsV3 env cfg S K ++
        flushEventsV3 env cfg S (K / cfg.dims.append.shardSize) (K % cfg.dims.append.shardSize)
      ((K + 1) * cfg.dims.framesPerChunk) ((K + 1) % cfg.dims.append.shardSize == 0)
      ((K + 1) % cfg.dims.append.shardSize == 0) := by
      unfold eventsV3
      rw [List.range_succ, List.flatMap_append]
      simp
    rw [hsplit, about_append, List.foldl_append, ih, about_flush_meta]
    have hdoc : ∀ n, metaDoc cfg n ≠ [] := fun n => metaDoc_ne_nil _ _
    have he : ∀ n, (metaDoc cfg n).isEmpty = false := fun n => by have := hdoc n; simpa using this
    have h1 := Nat.div_add_mod K cfg.dims.append.shardSize
    have h2 := Nat.div_add_mod (K + 1) cfg.dims.append.shardSize
    have h3 := Nat.mod_lt K hk
    have h4 := Nat.mod_lt (K + 1) hk
    have hm1 : cfg.dims.append.shardSize * (K / cfg.dims.append.shardSize) = K / cfg.dims.append.shardSize * cfg.dims.append.shardSize := Nat.mul_comm _ _
    by_cases hr : (K + 1) % cfg.dims.append.shardSize = 0
    · have hb : ((K + 1) % cfg.dims.append.shardSize == 0) = true := by simpa using hr
      have hmul : (K + 1) / cfg.dims.append.shardSize * cfg.dims.append.shardSize = K + 1 := by
        rw [Nat.mul_comm]; omega
      have hne : (K + 1) / cfg.dims.append.shardSize ≠ 0 := by
        intro h0; rw [h0] at hmul; omega
      rw [hb, if_pos rfl, if_neg hne, hmul]
      unfold metaEvents
      by_cases h0 : K / cfg.dims.append.shardSize = 0
      · rw [if_pos h0, h0]
        simp [stepFile, Ev.path, he, pwrite_zero_of_le]
      · have hz : (K / cfg.dims.append.shardSize == 0) = false := by simpa using h0
        rw [if_neg h0, hz]
        simp only [Bool.false_eq_true, if_false, List.nil_append, List.foldl_cons, List.foldl_nil]
        rw [stepFile, if_neg (by simp [Ev.path])]
        simp only [he, Bool.false_eq_true, if_false, Option.map_some, Option.some.injEq]
        apply pwrite_zero_of_le
        apply metaDoc_length_mono
        apply ceilDiv_mono
        exact Nat.mul_le_mul_right _ (by omega)
    · have hb : ((K + 1) % cfg.dims.append.shardSize == 0) = false := by simpa using hr
      have hq : (K + 1) / cfg.dims.append.shardSize = K / cfg.dims.append.shardSize := by
        apply Nat.div_eq_of_lt_le
        · omega
        · rw [Nat.succ_mul]
          rcases Nat.lt_or_ge (K + 1) (K / cfg.dims.append.shardSize * cfg.dims.append.shardSize + cfg.dims.append.shardSize) with h | h
          · exact h
          · exfalso
            apply hr
            have : K + 1 = (K / cfg.dims.append.shardSize + 1) * cfg.dims.append.shardSize := by
              rw [Nat.add_mul, Nat.one_mul]; omega
            rw [this, Nat.mul_mod_left]
      rw [hb, hq]
      rfl

/-- The document after a complete run. -/
theorem fileAfter_meta_v3 (hv : cfg.dims.Valid) (hf : cfg.dims.Room) (h3 : cfg.dims.FitsV3) (S : Bytes) (n : Nat) :
    fileAfter (arrayMetaPath cfg) (runEventsV3 env cfg S n) =
      if docFrames cfg.dims.framesPerChunk cfg.dims.append.shardSize n = 0 then none
      else some (metaDoc cfg (ceilDiv (docFrames cfg.dims.framesPerChunk cfg.dims.append.shardSize n)
        (prod (aShape cfg.dims.inner)))) := by
  have hFB := ArrayDims.framesPerChunk_pos hv hf
  have hk : 0 < cfg.dims.append.shardSize := h3.pos cfg.dims.append (by simp [ArrayDims.toList])
  rw [fileAfter_filter]
  change (about _ _).foldl _ _ = _
  unfold runEventsV3
  rw [about_append, List.foldl_append, meta_after_layers hk]
  have he : ∀ n, (metaDoc cfg n).isEmpty = false := fun n => by have := metaDoc_ne_nil cfg n; simpa using this
  have hdd : n / cfg.dims.framesPerChunk / cfg.dims.append.shardSize = n / (cfg.dims.framesPerChunk * cfg.dims.append.shardSize) :=
    Nat.div_div_eq_div_mul _ _ _
  have hmm : ∀ G, G * cfg.dims.append.shardSize * cfg.dims.framesPerChunk =
      G * (cfg.dims.framesPerChunk * cfg.dims.append.shardSize) := fun G => by ring
  have hpos : 0 < cfg.dims.framesPerChunk * cfg.dims.append.shardSize := Nat.mul_pos hFB hk
  rw [hdd, hmm]
  unfold finishEventsV3 docFrames
  dsimp only
  rw [hdd]
  by_cases h0 : n % cfg.dims.framesPerChunk = 0
  · rw [if_pos h0, if_neg (not_not.2 h0)]
    have e1 : about (arrayMetaPath cfg) (if n / cfg.dims.framesPerChunk % cfg.dims.append.shardSize = 0 then [] else
        (shardPaths cfg (n / (cfg.dims.framesPerChunk * cfg.dims.append.shardSize))).map Ev.dropped) = [] := by
      split
      · rfl
      · exact about_shards_meta (fun _ => rfl) _
    rw [about_append, e1, List.append_nil]
    by_cases hz : n / (cfg.dims.framesPerChunk * cfg.dims.append.shardSize) = 0
    · rw [if_pos hz, if_pos hz, hz, Nat.zero_mul, if_pos rfl]
      rfl
    · have hz' : n / (cfg.dims.framesPerChunk * cfg.dims.append.shardSize) * (cfg.dims.framesPerChunk * cfg.dims.append.shardSize) ≠ 0 :=
        Nat.mul_ne_zero hz (by omega)
      rw [if_neg hz, if_neg hz, if_neg hz']
      simp [about, Ev.path, stepFile]
  · rw [if_neg h0, if_pos h0]
    have hn : n ≠ 0 := by rintro rfl; simp at h0
    rw [if_neg hn, about_append, about_append, about_flush_meta, about_shards_meta (fun _ => rfl), List.append_nil,
      if_pos rfl, List.foldl_append]
    have hfin : ∀ c, (about (arrayMetaPath cfg) [Ev.finalized (arrayMetaPath cfg)]).foldl (stepFile (arrayMetaPath cfg)) c = c := by
      intro c
      simp [about, Ev.path, stepFile]
    rw [hfin]
    unfold metaEvents
    by_cases hz : n / (cfg.dims.framesPerChunk * cfg.dims.append.shardSize) = 0
    · rw [if_pos hz, hz]
      simp [stepFile, Ev.path, he, pwrite_zero_of_le]
    · have hz' : (n / (cfg.dims.framesPerChunk * cfg.dims.append.shardSize) == 0) = false := by simpa using hz
      rw [if_neg hz, hz']
      simp only [Bool.false_eq_true, if_false, List.nil_append, List.foldl_cons, List.foldl_nil]
      rw [stepFile, if_neg (by simp [Ev.path])]
      simp only [he, Bool.false_eq_true, if_false, Option.map_some, Option.some.injEq]
      apply pwrite_zero_of_le
      apply metaDoc_length_mono
      apply ceilDiv_mono
      exact Nat.div_mul_le_self _ _

end
end AZ
