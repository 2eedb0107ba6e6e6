import Verif.Lemmas.WriterV2
import Verif.Lemmas.MetaDoc

set_option linter.unusedSimpArgs false

namespace AZ
open Spec

theorem filter_flatMap_unique {α : Type} {P : α → Bool} {f : Nat → List α} {n g0 : Nat}
    (h : ∀ g, g < n → g ≠ g0 → (f g).filter P = []) (hg : g0 < n) :
    ((List.range n).flatMap f).filter P = (f g0).filter P := by
  induction n with
  | zero => omega
  | succ n ih =>
    rw [List.range_succ, List.flatMap_append, List.filter_append]
    simp only [List.flatMap_cons, List.flatMap_nil, List.append_nil]
    by_cases hn : g0 = n
    · subst hn
      have : ((List.range g0).flatMap f).filter P = [] := by
        rw [List.filter_eq_nil_iff]
        intro a ha
        obtain ⟨g, hg1, hg2⟩ := List.mem_flatMap.1 ha
        have hg1 := List.mem_range.1 hg1
        exact List.filter_eq_nil_iff.1 (h g (by omega) (by omega)) a hg2
      rw [this, List.nil_append]
    · rw [ih (fun g hg => h g (by omega)) (by omega), h n (by omega) (fun e => hn e.symm), List.append_nil]

theorem filter_flatMap_none {α : Type} {P : α → Bool} {f : Nat → List α} {n : Nat}
    (h : ∀ g, g < n → (f g).filter P = []) : ((List.range n).flatMap f).filter P = [] := by
  rw [List.filter_eq_nil_iff]
  intro a ha
  obtain ⟨g, hg1, hg2⟩ := List.mem_flatMap.1 ha
  exact List.filter_eq_nil_iff.1 (h g (List.mem_range.1 hg1)) a hg2

theorem ceilDiv_of_dvd {n b : Nat} (hb : 0 < b) (h : n % b = 0) : ceilDiv n b = n / b := by
  have h1 := Nat.div_add_mod n b
  have : ∀ k, k < ceilDiv n b ↔ k < n / b := by
    intro k
    rw [lt_ceilDiv_iff hb, Nat.lt_div_iff_mul_lt hb]
    constructor
    · intro h2
      have : k * b < (n / b) * b := by rw [Nat.mul_comm (n / b)]; omega
      have := Nat.lt_of_mul_lt_mul_right this
      have h3 : (k + 1) * b ≤ n / b * b := Nat.mul_le_mul_right _ this
      rw [Nat.mul_comm (n/b), Nat.add_mul] at h3
      omega
    · intro h2; omega
  have h1 := this (ceilDiv n b)
  have h2 := this (n / b)
  omega

theorem ceilDiv_of_not_dvd {n b : Nat} (hb : 0 < b) (h : n % b ≠ 0) : ceilDiv n b = n / b + 1 := by
  have h1 := Nat.div_add_mod n b
  have h2 := Nat.mod_lt n hb
  have a : n / b < ceilDiv n b := by
    rw [lt_ceilDiv_iff hb, Nat.mul_comm]; omega
  have c : ¬ (n / b + 1 < ceilDiv n b) := by
    rw [lt_ceilDiv_iff hb, Nat.add_mul, Nat.mul_comm (n/b)]; omega
  omega

/-- Frames in the dataset when group `g` is flushed. -/
def framesAt (cfg : WConfig) (n g : Nat) : Nat := min ((g + 1) * cfg.dims.framesPerChunk) n

/-- Events of the flush of group `g` in a run of `n` frames. -/
def groupV2 (env : Env) (cfg : WConfig) (S : Bytes) (n g : Nat) : List Ev :=
  dataEventsV2 env cfg S g ++ metaEvents cfg (g == 0) (framesAt cfg n g)

/-- Number of append-chunks of `n` frames. -/
def groups (cfg : WConfig) (n : Nat) : Nat := ceilDiv n cfg.dims.framesPerChunk

theorem runEventsV2_eq (env : Env) {cfg : WConfig} (hv : cfg.dims.Valid) (hf : cfg.dims.Room)
    (S : Bytes) (n : Nat) : runEventsV2 env cfg S n =
      (List.range (groups cfg n)).flatMap (groupV2 env cfg S n) ++
      (if n = 0 then [] else [Ev.finalized (arrayMetaPath cfg)]) := by
  have hFB := ArrayDims.framesPerChunk_pos hv hf
  have h1 := Nat.div_add_mod n cfg.dims.framesPerChunk
  have h2 := Nat.mod_lt n hFB
  have hpre : (List.range (n / cfg.dims.framesPerChunk)).flatMap (groupV2 env cfg S n) =
      eventsV2 env cfg S (n / cfg.dims.framesPerChunk) := by
    unfold eventsV2
    apply flatMap_congr'
    intro g hg
    have hg := List.mem_range.1 hg
    unfold groupV2 framesAt
    have : (g + 1) * cfg.dims.framesPerChunk ≤ n := by
      calc (g + 1) * cfg.dims.framesPerChunk ≤ n / cfg.dims.framesPerChunk * cfg.dims.framesPerChunk :=
            Nat.mul_le_mul_right _ hg
        _ ≤ n := Nat.div_mul_le_self _ _
    rw [Nat.min_eq_left this]
  unfold runEventsV2 groups
  congr 1
  by_cases h : n % cfg.dims.framesPerChunk = 0
  · rw [if_pos h, ceilDiv_of_dvd hFB h, hpre, List.append_nil]
  · rw [if_neg h, ceilDiv_of_not_dvd hFB h, List.range_succ, List.flatMap_append, hpre]
    simp only [List.flatMap_cons, List.flatMap_nil, List.append_nil]
    congr 1
    unfold groupV2 framesAt
    have : n ≤ (n / cfg.dims.framesPerChunk + 1) * cfg.dims.framesPerChunk := by
      rw [Nat.add_mul, Nat.mul_comm (n / _)]; omega
    rw [Nat.min_eq_right this]

theorem chunkPath_inj {cfg : WConfig} {g g' c c' : Nat} (hc : c < cfg.dims.chunkCount)
    (hc' : c' < cfg.dims.chunkCount) (h : chunkPath cfg g c = chunkPath cfg g' c') : g = g' ∧ c = c' := by
  obtain ⟨h1, h2⟩ := objectPath_inj h
  refine ⟨h1, ?_⟩
  rw [← ravel_unravel (s := nShape cfg.dims.tailDims) hc, h2, ravel_unravel hc']

theorem metaEvents_path {cfg : WConfig} {b : Bool} {n : Nat} {e : Ev} (h : e ∈ metaEvents cfg b n) :
    e.path = arrayMetaPath cfg := by
  unfold metaEvents at h
  cases b <;> simp at h
  · subst h; rfl
  · rcases h with rfl | rfl <;> rfl

theorem filter_meta_chunk {cfg : WConfig} {b : Bool} {n g : Nat} {l : List Nat} :
    (metaEvents cfg b n).filter (fun e => e.path = objectPath cfg g l) = [] := by
  rw [List.filter_eq_nil_iff]
  intro e he
  rw [metaEvents_path he]
  simp only [decide_eq_true_eq]
  exact fun h => objectPath_ne_meta cfg g l h.symm

theorem filter_data_same (env : Env) {cfg : WConfig} (S : Bytes) {g c : Nat}
    (hc : c < cfg.dims.chunkCount) :
    (dataEventsV2 env cfg S g).filter (fun e => e.path = chunkPath cfg g c) =
      [.opened (chunkPath cfg g c), .wrote (chunkPath cfg g c) 0 (storedForm env cfg
        (Spec.chunkBytes (aShape cfg.dims.tailDims) (cShape cfg.dims.toList)
          cfg.dims.dtype.bytes S (g :: unravel (nShape cfg.dims.tailDims) c))),
       .finalized (chunkPath cfg g c)] := by
  unfold dataEventsV2
  rw [List.filter_append, List.filter_append]
  have hinj : ∀ c', c' < cfg.dims.chunkCount → chunkPath cfg g c' = chunkPath cfg g c → c' = c :=
    fun c' hc' h => (chunkPath_inj hc' hc h).2
  rw [filter_indexed (path := chunkPath cfg g) (fun _ => rfl) hc hinj,
    filter_indexed (path := chunkPath cfg g) (fun _ => rfl) hc hinj,
    filter_indexed (path := chunkPath cfg g) (fun _ => rfl) hc hinj]
  rfl

theorem filter_data_none (env : Env) {cfg : WConfig} (S : Bytes) {g : Nat} {p : Text}
    (h : ∀ c, c < cfg.dims.chunkCount → chunkPath cfg g c ≠ p) :
    (dataEventsV2 env cfg S g).filter (fun e => e.path = p) = [] := by
  unfold dataEventsV2
  rw [List.filter_append, List.filter_append,
    filter_indexed_none (path := chunkPath cfg g) (fun _ => rfl) h,
    filter_indexed_none (path := chunkPath cfg g) (fun _ => rfl) h,
    filter_indexed_none (path := chunkPath cfg g) (fun _ => rfl) h]
  rfl

/-- The events about one chunk in a whole run. -/
theorem filter_run_chunk (env : Env) {cfg : WConfig} (hv : cfg.dims.Valid) (hf : cfg.dims.Room)
    (S : Bytes) {n g c : Nat} (hg : g < groups cfg n) (hc : c < cfg.dims.chunkCount) :
    (runEventsV2 env cfg S n).filter (fun e => e.path = chunkPath cfg g c) =
      [.opened (chunkPath cfg g c), .wrote (chunkPath cfg g c) 0 (storedForm env cfg
        (Spec.chunkBytes (aShape cfg.dims.tailDims) (cShape cfg.dims.toList)
          cfg.dims.dtype.bytes S (g :: unravel (nShape cfg.dims.tailDims) c))),
       .finalized (chunkPath cfg g c)] := by
  rw [runEventsV2_eq env hv hf, List.filter_append]
  rw [filter_flatMap_unique (g0 := g) _ hg]
  · have h2 : (if n = 0 then [] else [Ev.finalized (arrayMetaPath cfg)]).filter
        (fun e => decide (e.path = chunkPath cfg g c)) = [] := by
      split
      · rfl
      · rw [List.filter_eq_nil_iff]
        intro e he
        rw [List.mem_singleton] at he
        subst he
        simp only [decide_eq_true_eq]
        exact fun h => objectPath_ne_meta cfg g _ h.symm
    rw [h2, List.append_nil]
    unfold groupV2
    rw [List.filter_append, filter_data_same env S hc]
    unfold chunkPath
    rw [filter_meta_chunk, List.append_nil]
  · intro g' _ hne
    unfold groupV2
    rw [List.filter_append, filter_data_none]
    · unfold chunkPath
      rw [filter_meta_chunk]; rfl
    · intro c' hc' h
      exact hne (chunkPath_inj hc' hc h).1

/-- Contents of a chunk file after the whole run. -/
theorem fileAfter_chunk_v2 (env : Env) {cfg : WConfig} (hv : cfg.dims.Valid) (hf : cfg.dims.Room)
    (S : Bytes) {n g c : Nat} (hg : g < groups cfg n) (hc : c < cfg.dims.chunkCount) :
    fileAfter (chunkPath cfg g c) (runEventsV2 env cfg S n) = some (storedForm env cfg
        (Spec.chunkBytes (aShape cfg.dims.tailDims) (cShape cfg.dims.toList)
          cfg.dims.dtype.bytes S (g :: unravel (nShape cfg.dims.tailDims) c))) := by
  rw [fileAfter_filter, filter_run_chunk env hv hf S hg hc]
  generalize storedForm env cfg _ = d
  simp only [fileAfter, List.foldl_cons, List.foldl_nil, stepFile, Ev.path, ne_eq, not_true, if_false,
    Option.map_some]
  by_cases hd : d.isEmpty
  · rw [if_pos hd]; simp at hd; rw [hd]
  · rw [if_neg hd, pwrite_zero_of_le (by simp)]

theorem filter_meta_run (env : Env) {cfg : WConfig} (hv : cfg.dims.Valid) (hf : cfg.dims.Room)
    (S : Bytes) (n : Nat) :
    (runEventsV2 env cfg S n).filter (fun e => e.path = arrayMetaPath cfg) =
      ((List.range (groups cfg n)).flatMap fun g => metaEvents cfg (g == 0) (framesAt cfg n g)) ++
      (if n = 0 then [] else [Ev.finalized (arrayMetaPath cfg)]) := by
  rw [runEventsV2_eq env hv hf, List.filter_append, List.filter_flatMap]
  congr 1
  · apply flatMap_congr'
    intro g _
    unfold groupV2
    rw [List.filter_append, filter_data_none, List.nil_append]
    · rw [List.filter_eq_self]
      intro e he
      simpa using metaEvents_path he
    · intro c _
      exact objectPath_ne_meta _ _ _
  · split
    · rfl
    · simp [Ev.path]

/-- Rewriting a file in place with documents of non-decreasing length leaves the last one. -/
theorem meta_rewrites (p : Text) (doc : Nat → Bytes) (hne : ∀ i, doc i ≠ []) (k : Nat)
    (hmono : ∀ i, i + 1 < k → (doc i).length ≤ (doc (i + 1)).length) :
    fileAfter p ((List.range k).flatMap fun g => (if g == 0 then [Ev.opened p] else []) ++
      [Ev.wrote p 0 (doc g)]) = if k = 0 then none else some (doc (k - 1)) := by
  induction k with
  | zero => rfl
  | succ k ih =>
    have ih := ih (fun i hi => hmono i (by omega))
    unfold fileAfter at *
    rw [List.range_succ, List.flatMap_append, List.foldl_append, ih]
    have he : ∀ i, (doc i).isEmpty = false := fun i => by
      have := hne i; simpa using this
    cases k with
    | zero =>
      simp [stepFile, Ev.path, he, pwrite_zero_of_le]
    | succ k =>
      simp [stepFile, Ev.path, he]
      exact pwrite_zero_of_le (hmono k (by omega))

theorem framesAt_last {cfg : WConfig} (hv : cfg.dims.Valid) (hf : cfg.dims.Room) {n : Nat} (hn : n ≠ 0) :
    groups cfg n ≠ 0 ∧ framesAt cfg n (groups cfg n - 1) = n := by
  have hFB := ArrayDims.framesPerChunk_pos hv hf
  have h1 : 0 < groups cfg n := ceilDiv_pos (by omega) hFB
  have h2 : n ≤ groups cfg n * cfg.dims.framesPerChunk := ceilDiv_mul_ge hFB
  refine ⟨by omega, ?_⟩
  unfold framesAt
  have : groups cfg n - 1 + 1 = groups cfg n := by omega
  rw [this]
  exact Nat.min_eq_right h2

/-- Contents of the metadata file after the whole run. -/
theorem fileAfter_meta_v2 (env : Env) {cfg : WConfig} (hv : cfg.dims.Valid) (hf : cfg.dims.Room)
    (S : Bytes) (n : Nat) :
    fileAfter (arrayMetaPath cfg) (runEventsV2 env cfg S n) =
      if n = 0 then none else some (metaDoc cfg (ceilDiv n (prod (aShape cfg.dims.inner)))) := by
  rw [fileAfter_filter, filter_meta_run env hv hf]
  have hm := meta_rewrites (arrayMetaPath cfg)
    (fun g => metaDoc cfg (ceilDiv (framesAt cfg n g) (prod (aShape cfg.dims.inner))))
    (fun i => metaDoc_ne_nil _ _) (groups cfg n) (by
      intro i _
      apply metaDoc_length_mono
      apply ceilDiv_mono
      unfold framesAt
      have : (i + 1) * cfg.dims.framesPerChunk ≤ (i + 1 + 1) * cfg.dims.framesPerChunk :=
        Nat.mul_le_mul_right _ (by omega)
      omega)
  unfold metaEvents
  unfold fileAfter at *
  rw [List.foldl_append, hm]
  by_cases hn : n = 0
  · subst hn
    simp [groups, ceilDiv, ArrayDims.framesPerChunk_pos hv hf]
  · obtain ⟨h1, h2⟩ := framesAt_last hv hf hn
    rw [if_neg h1, if_neg hn, if_neg hn, h2]
    simp [stepFile, Ev.path]

/-- Objects the run does not touch. -/
theorem run_about_none (env : Env) {cfg : WConfig} (hv : cfg.dims.Valid) (hf : cfg.dims.Room)
    (S : Bytes) (n : Nat) {p : Text} (h1 : p ≠ arrayMetaPath cfg)
    (h2 : ∀ g c, g < groups cfg n → c < cfg.dims.chunkCount → p ≠ chunkPath cfg g c) :
    (runEventsV2 env cfg S n).filter (fun e => e.path = p) = [] := by
  rw [runEventsV2_eq env hv hf, List.filter_append, filter_flatMap_none]
  · split
    · rfl
    · rw [List.nil_append, List.filter_eq_nil_iff]
      intro e he
      rw [List.mem_singleton] at he
      subst he
      simp only [decide_eq_true_eq]
      exact fun h => h1 (Eq.symm h)
  · intro g hg
    unfold groupV2
    rw [List.filter_append, filter_data_none env S (fun c hc h => h2 g c hg hc h.symm)]
    simp only [List.nil_append]
    rw [List.filter_eq_nil_iff]
    intro e he
    rw [metaEvents_path he]
    simp only [decide_eq_true_eq]
    exact fun h => h1 h.symm

/-- Files that exist after the run. -/
theorem fileAfter_none_v2 (env : Env) {cfg : WConfig} (hv : cfg.dims.Valid) (hf : cfg.dims.Room)
    (S : Bytes) (n : Nat) {p : Text} (h1 : p ≠ arrayMetaPath cfg)
    (h2 : ∀ g c, g < groups cfg n → c < cfg.dims.chunkCount → p ≠ chunkPath cfg g c) :
    fileAfter p (runEventsV2 env cfg S n) = none := by
  rw [fileAfter_filter, run_about_none env hv hf S n h1 h2]
  rfl

end AZ
