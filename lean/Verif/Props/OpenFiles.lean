import Verif.Lemmas.OpenFiles
import Verif.Props.Exceptions
import Verif.Props.Crash
import Mathlib.Data.List.Perm.Subperm
import Mathlib.Algebra.Order.BigOperators.Group.List

set_option linter.unusedSimpArgs false

/-! # C71: open files -/

namespace AZ
open Spec Exc

theorem openAfter_about (p : Text) (tr : List Ev) (x : Bool) : openAfter p x tr = openAfter p x (about p tr) := by
  unfold about
  induction tr generalizing x with
  | nil => rfl
  | cons e es ih =>
    by_cases h : e.path = p
    · rw [List.filter_cons_of_pos (by simpa using h)]
      cases e <;> exact ih _
    · rw [List.filter_cons_of_neg (by simpa using h)]
      cases e with
      | opened q => have : q ≠ p := h; simp only [openAfter]; rw [← ih]; simp [this]
      | wrote q o d => exact ih _
      | finalized q => have : q ≠ p := h; simp only [openAfter]; rw [← ih]; simp [this]
      | dropped q => have : q ≠ p := h; simp only [openAfter]; rw [← ih]; simp [this]

section
variable {w : World} {env0 env : Env} {fuel : Nat} {S : Settings} {s0 : SState} {st : XStream} {rs : List Status}

/-- **C71, afterwards.** Any stream, any append calls, each meeting storage that behaves in its own way, calls going on after
errors. If destroy then reports success, no file of the stream is still open, in any schedule of the worker threads; and every
file opened by the creation of the stream was finalized, not just dropped. -/
theorem destroy_closes_everything (h : createStream w env0 fuel (some S) = some (.ok s0)) {calls : List (Env × Bytes)}
    (hc : callsX calls (XStream.of s0) = some (st, rs)) {tr : List Ev} (hd : destroyX env st = some (tr, true)) :
    (∀ tr', (∀ p, about p tr' = about p tr) → NothingOpen tr') ∧ ∀ p, Ev.opened p ∈ s0.trace → Ev.finalized p ∈ tr := by
  obtain ⟨k1, k2⟩ := destroy_open (held_calls (held_created h) hc) hd
  refine ⟨?_, ?_⟩
  · intro tr' ht p
    rw [openAfter_about, ht, ← openAfter_about]
    exact k1 p
  · intro p hp
    obtain ⟨cfg, cfgs, hC⟩ := createStream_ok h
    obtain ⟨e1, e2, e3, ht, h1, h2, h3⟩ := hC.docs
    have no : ∀ {evs : List Ev}, (∀ e ∈ evs, ∃ q o d, e = Ev.wrote q o d) → Ev.opened p ∉ evs := by
      intro evs he hm
      obtain ⟨_, _, _, e⟩ := he _ hm
      cases e
    have h3 : ∀ e ∈ e3, ∃ q o d, e = Ev.wrote q o d := by
      split at h3
      · rw [h3]; simp
      · exact writeDoc_wrote h3
    rw [ht] at hp
    simp only [List.mem_append] at hp
    rcases hp with ((hp | hp) | hp) | hp
    · obtain ⟨q, hq, e⟩ := List.mem_map.1 hp
      cases e
      obtain ⟨k, hk, rfl⟩ := List.mem_map.1 hq
      rw [hC.scfg] at k2
      exact k2 k hk
    · exact absurd hp (no (writeDoc_wrote h1))
    · exact absurd hp (no (writeDoc_wrote h2))
    · exact absurd hp (no h3)

theorem metaKeys_length (v : Version) : (metaKeys v).length ≤ 4 := by cases v <;> decide

/-- Open files of a stream between calls. -/
theorem held_count {cfg : WConfig} {cs : List WConfig} {st : XStream} (h : HeldBy cfg cs st) {ps : List Text} (hn : ps.Nodup)
    (ho : ∀ p ∈ ps, openAfter p false st.trace = true) : ps.length ≤ 4 + (cs.map fun c => 1 + perGroup c).sum := by
  have hsub : ps ⊆ (metaKeys cfg.version).map (metaSinkPath cfg) ++ st.levels.flatMap fun lv => arrayMetaPath lv.cfg :: lv.w.st.dataSinks := by
    intro p hp
    rcases h.held.known p (ho p hp) with hr | ⟨lv, hlv, hh⟩
    · exact List.mem_append.2 (.inl hr)
    · refine List.mem_append.2 (.inr (List.mem_flatMap.2 ⟨lv, hlv, ?_⟩))
      rcases hh with hh | hh
      · exact List.mem_cons_of_mem _ (List.mem_of_mem_drop hh)
      · rw [hh.2]; exact List.mem_cons_self
  refine Nat.le_trans (List.subperm_of_subset hn hsub).length_le ?_
  rw [List.length_append, List.length_map, List.length_flatMap]
  refine Nat.add_le_add (metaKeys_length _) ?_
  rw [← h.held.cfgs, List.map_map]
  refine List.sum_le_sum ?_
  intro lv hlv
  have := h.held.few lv hlv
  simp only [List.length_cons, Function.comp]
  omega

/-- Data files of one chunk group (version 2) or shard group (version 3) at level `i`, in terms of the settings. -/
def filesPerGroup (version i : Nat) (ds : List DimProps) : Nat :=
  if version = 2 then prod (List.zipWith ceilDiv (sizesAt i ds) (chunksAt i ds)) else prod (shardGridAt i ds)

variable {cfg : WConfig} {cfgs : List WConfig} {a y x : DimProps} {inner : List DimProps}

theorem perGroup_eq (h : Setup w fuel S cfg cfgs) (h3 : S.version = 3 → cfg.dims.FitsV3) (hz : SizesInRange S)
    (hd : S.dimensions = some (a :: (inner ++ [y, x]))) {i : Nat} {c : WConfig} (hc : cfgs[i]? = some c) :
    perGroup c = filesPerGroup S.version i (inner ++ [y, x]) := by
  have hL := h.levelShape hz hd hc
  have hm := List.mem_of_getElem? hc
  obtain ⟨d1, d2⟩ := h.levelDims.1 c hm
  unfold perGroup filesPerGroup
  split
  · rename_i hV
    rw [partsV2 (h.versionV2 hV c hm) d1 d2, ← zipWith_ceilDiv, hL.tail, hL.tailChunks]
  · rename_i hV
    have hV3 : S.version = 3 := by
      have := (validateSettings_ok h.valid).version
      omega
    have hok := ArrayDims.shardOk d1 d2 (h.levelFitsV3 (h3 hV3) c hm)
    rw [← hL.shardGrid]
    congr 1
    unfold mShape
    apply List.map_congr_left
    intro d hdm
    rw [h.versionV3 hV3 c hm]
    exact shardsAlong_eq (hok d hdm)

/-- **C71, meanwhile.** At every moment between calls, whatever failed, at most the documents of the root, one array document
per level and the files of one chunk group (shard group) per level are open: the number does not grow with the acquisition. -/
theorem open_files_bounded (hs : Setup w fuel S cfg cfgs) (h3 : S.version = 3 → cfg.dims.FitsV3) (hz : SizesInRange S)
    (hd : S.dimensions = some (a :: (inner ++ [y, x])))
    (h : createStream w env0 fuel (some S) = some (.ok s0)) {calls : List (Env × Bytes)}
    (hc : callsX calls (XStream.of s0) = some (st, rs)) {tr : List Ev} (ht : ∀ p, about p tr = about p st.trace)
    {open_ : List Text} (hn : open_.Nodup) (ho : ∀ p ∈ open_, openAfter p false tr = true) :
    open_.length ≤ 4 + ((List.range cfgs.length).map fun i => 1 + filesPerGroup S.version i (inner ++ [y, x])).sum := by
  have hh := held_calls (held_created h) hc
  have := held_count hh hn (fun p hp => by rw [openAfter_about, ← ht, ← openAfter_about]; exact ho p hp)
  refine Nat.le_trans this ?_
  obtain ⟨cfg', cfgs', hC⟩ := createStream_ok h
  have e1 : cfg' = cfg := by
    have := hC.commit
    rw [hs.commit] at this
    cases this; rfl
  subst e1
  have e2 : cfgs' = cfgs := by
    have := hC.levels
    rw [hs.levels] at this
    cases this; rfl
  subst e2
  have hlv : (XStream.of s0).levels.map (·.cfg) = cfgs' := by
    unfold XStream.of
    rw [hC.slevels, List.map_map, List.map_map]
    exact List.map_id _
  rw [hlv]
  refine Nat.le_of_eq ?_
  congr 2
  refine List.ext_getElem (by simp) ?_
  intro i h1 h2
  simp only [List.getElem_map, List.getElem_range]
  rw [perGroup_eq hs h3 hz hd (i := i) (List.getElem?_eq_getElem _)]

end

/-! ### Non-vacuity -/

/-- The session of `frame_replaced_violated`, in which a call fails and destroy succeeds. -/
example : ∃ s0 st rs tr, createStream Sample.world Sample.env 9 (some (Sample.strip 2 1 2)) = some (.ok s0) ∧
    callsX [(Sample.env, [5]), (Sample.env, [6]), (Sample.env, [7]), (Sample.noDirs, [8]), (Sample.env, [9]), (Sample.env, [10])]
      (XStream.of s0) = some (st, rs) ∧ destroyX Sample.env st = some (tr, true) ∧ none ∈ rs := by
  obtain ⟨_, s0, st, rs, tr, ok, h0, h1, h2, h3, rfl, _⟩ := frame_replaced_violated
  exact ⟨s0, st, rs, tr, h0, h1, h2, by rw [h3]; simp⟩

/-- In the middle of that session five files are open: four documents of the root and the array document. -/
example : ∃ s0 st rs, createStream Sample.world Sample.env 9 (some (Sample.strip 2 1 2)) = some (.ok s0) ∧
    callsX [(Sample.env, [5]), (Sample.env, [6]), (Sample.env, [7]), (Sample.noDirs, [8])] (XStream.of s0) = some (st, rs) ∧
    ∃ ps : List Text, ps.Nodup ∧ ps.length = 5 ∧ ∀ p ∈ ps, openAfter p false st.trace = true := by
  have h : (match createStream Sample.world Sample.env 9 (some (Sample.strip 2 1 2)) with
    | some (.ok s0) =>
      match callsX [(Sample.env, [5]), (Sample.env, [6]), (Sample.env, [7]), (Sample.noDirs, [8])] (XStream.of s0) with
      | some (st, _) =>
        let ps := (st.trace.map Ev.path).eraseDups.filter fun p => openAfter p false st.trace
        decide (ps.Nodup) && decide (ps.length = 5)
      | none => false
    | _ => false) = true := by decide +kernel
  split at h
  · rename_i s0 h0
    split at h
    · rename_i st rs h1
      simp only [Bool.and_eq_true, decide_eq_true_eq] at h
      exact ⟨s0, st, rs, h0, h1, _, h.1, h.2, fun p hp => (List.mem_filter.1 hp).2⟩
    · simp at h
  · simp at h

end AZ
