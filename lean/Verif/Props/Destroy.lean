import Verif.Model.Destroy
import Verif.Lemmas.StreamRun

set_option linter.unusedSimpArgs false

/-! # C62: destroy releases the stream -/

namespace AZ.Destroy

variable {key : Text} {p : Plan} {h h' : Handle}

theorem closeSinks_true {ok : Text → Bool} {keys : List Text} :
    (closeSinks ok (keys.map fun k => (k, true))).2 = keys.all ok := by
  induction keys with
  | nil => rfl
  | cons k ks ih =>
    simp only [List.map_cons, closeSinks, List.all_cons]
    cases hk : ok k with
    | true => simp only [if_true, ih, Bool.true_and]
    | false => simp

theorem closeArrays_true {ok : Nat → Bool} {n i : Nat} :
    (closeArrays ok i (List.replicate n true)).2 = (List.range n).all fun j => ok (i + j) := by
  induction n generalizing i with
  | zero => rfl
  | succ n ih =>
    rw [List.replicate_succ, List.range_succ_eq_map, List.all_cons, List.all_map]
    unfold closeArrays
    cases hk : ok i with
    | true =>
      simp only [if_true, ih, Nat.add_zero, hk, Bool.true_and]
      apply congrArg (fun f => (List.range n).all f)
      funext j
      show ok (i + 1 + j) = ok (i + (j + 1))
      congr 1
      omega
    | false => simp [hk]

theorem lookup_fresh {keys : List Text} (hk : key ∈ keys) : (keys.map fun k => (k, true)).lookup key = some true := by
  induction keys with
  | nil => simp at hk
  | cons k ks ih =>
    rw [List.map_cons, List.lookup_cons]
    by_cases e : key = k
    · subst e; simp
    · have : (key == k) = false := by simpa using e
      rw [this]
      exact ih (by simpa [e] using hk)

/-- **C62, the first call.** The stream is deleted by the first call of destroy exactly if everything succeeds. -/
theorem destroy_first_partial {keys : List Text} {n : Nat} (hk : key ∈ keys) :
    destroy key p (fresh keys n) = .deleted ↔
      p.group = true ∧ (∀ k ∈ keys, p.sink k = true) ∧ ∀ i < n, p.array i = true := by
  have e1 := closeSinks_true (ok := p.sink) (keys := keys)
  have e2 := closeArrays_true (ok := p.array) (n := n) (i := 0)
  unfold destroy fresh
  dsimp only
  rw [lookup_fresh hk]
  dsimp only
  cases hg : p.group with
  | false => simp
  | true =>
    simp only [Bool.not_true, Bool.false_eq_true, if_false, true_and]
    rw [e1]
    cases hs : keys.all p.sink with
    | false =>
      simp only [Bool.not_false, if_true]
      refine iff_of_false (by simp) ?_
      rintro ⟨h1, _⟩
      have : keys.all p.sink = true := List.all_eq_true.2 h1
      rw [hs] at this
      cases this
    | true =>
      simp only [Bool.not_true, Bool.false_eq_true, if_false]
      have h1 : ∀ k ∈ keys, p.sink k = true := List.all_eq_true.1 hs
      simp only [Nat.zero_add] at e2
      rw [e2]
      cases ha : (List.range n).all fun j => p.array j with
      | false =>
        simp only [Bool.not_false, if_true]
        refine iff_of_false (by simp) ?_
        rintro ⟨_, h2⟩
        have : ((List.range n).all fun j => p.array j) = true :=
          List.all_eq_true.2 fun i hi => h2 i (List.mem_range.1 hi)
        rw [ha] at this
        cases this
      | true =>
        simp only [Bool.not_true, Bool.false_eq_true, if_false, true_iff]
        exact ⟨h1, fun i hi => List.all_eq_true.1 ha i (List.mem_range.2 hi)⟩

/-- The first call deletes the stream exactly if `destroyStream`, the model of a destroy used by the other properties, is a
success on the same storage. -/
theorem destroy_first_stream (env : Env) (st : SState) :
    destroy (groupDoc st.cfg st.levels.length).1 (planOf env st) (fresh (metaKeys st.cfg.version) st.levels.length) = .deleted ↔
      ∃ tr, destroyStream env st = .ok tr := by
  have hk : (groupDoc st.cfg st.levels.length).1 ∈ metaKeys st.cfg.version := by
    unfold groupDoc metaKeys
    cases st.cfg.version <;> simp only <;> simp
  rw [destroy_first_partial hk]
  have sinks : ∀ ks : List Text, (∀ k ∈ ks, env.finalize (metaSinkPath st.cfg k) = true) ↔
      ∃ e, finalizeSinks env (ks.map (metaSinkPath st.cfg)) = .ok e := by
    intro ks
    induction ks with
    | nil => simp [finalizeSinks]
    | cons k ks ih =>
      rw [List.map_cons, finalizeSinks]
      constructor
      · intro h
        obtain ⟨e, he⟩ := ih.1 fun k hk => h k (List.mem_cons_of_mem _ hk)
        refine ⟨Ev.finalized (metaSinkPath st.cfg k) :: e, ?_⟩
        rw [h k List.mem_cons_self, he]
        rfl
      · rintro ⟨e, he⟩
        obtain ⟨_, h1, he⟩ := Res.bind_eq_ok.1 he
        obtain ⟨e', h2, he⟩ := Res.bind_eq_ok.1 he
        intro k' hk'
        rcases List.mem_cons.1 hk' with rfl | hk'
        · unfold check at h1
          split at h1
          · assumption
          · cases h1
        · exact ih.2 ⟨e', h2⟩ k' hk'
  have arrays : ∀ ls : List Level, (∀ i < ls.length, ∀ lv, ls[i]? = some lv → ∃ s, finalizeArray env lv.cfg lv.st = .ok s) ↔
      ∃ e, finalizeLevels env ls = .ok e := by
    intro ls
    induction ls with
    | nil => simp [finalizeLevels]
    | cons l ls ih =>
      rw [finalizeLevels]
      constructor
      · intro h
        obtain ⟨s, hs⟩ := h 0 (by simp) l rfl
        obtain ⟨e, he⟩ := ih.1 fun i hi lv hlv => h (i + 1) (by simpa using hi) lv (by simpa using hlv)
        refine ⟨s.trace.drop l.st.trace.length ++ e, ?_⟩
        rw [hs, Res.bind_ok, he]
        rfl
      · rintro ⟨e, he⟩
        obtain ⟨s, h1, he⟩ := Res.bind_eq_ok.1 he
        obtain ⟨e', h2, he⟩ := Res.bind_eq_ok.1 he
        intro i hi lv hlv
        cases i with
        | zero => cases hlv; exact ⟨s, h1⟩
        | succ i => exact ih.2 ⟨e', h2⟩ i (by simpa using hi) lv (by simpa using hlv)
  have harr : (∀ i < st.levels.length, (planOf env st).array i = true) ↔ ∃ e, finalizeLevels env st.levels = .ok e := by
    rw [← arrays]
    constructor
    · intro h i hi lv hlv
      have := h i hi
      unfold planOf at this
      dsimp only at this
      rw [hlv] at this
      dsimp only at this
      split at this
      · exact ⟨_, by assumption⟩
      · cases this
    · intro h i hi
      obtain ⟨s, hs⟩ := h i hi _ (List.getElem?_eq_getElem hi)
      unfold planOf
      dsimp only
      rw [List.getElem?_eq_getElem hi]
      dsimp only
      rw [hs]
  have hgrp : (planOf env st).group = true ↔ ∃ e, writeDoc env (metaSinkPath st.cfg (groupDoc st.cfg st.levels.length).1)
      (utf8 ((groupDoc st.cfg st.levels.length).2.dump 0)) = .ok e := by
    unfold planOf
    dsimp only
    cases writeDoc env (metaSinkPath st.cfg (groupDoc st.cfg st.levels.length).1)
      (utf8 ((groupDoc st.cfg st.levels.length).2.dump 0)) <;> simp
  rw [harr, hgrp]
  have hsk := sinks (metaKeys st.cfg.version)
  have : (∀ k ∈ metaKeys st.cfg.version, (planOf env st).sink k = true) ↔
      ∃ e, finalizeSinks env ((metaKeys st.cfg.version).map (metaSinkPath st.cfg)) = .ok e := hsk
  rw [this]
  unfold destroyStream
  dsimp only
  constructor
  · rintro ⟨⟨e1, h1⟩, ⟨e2, h2⟩, ⟨e3, h3⟩⟩
    refine ⟨st.trace ++ e1 ++ e2 ++ e3, ?_⟩
    rw [h1, Res.bind_ok, h2, Res.bind_ok, h3]
    rfl
  · rintro ⟨tr, ht⟩
    obtain ⟨e1, h1, ht⟩ := Res.bind_eq_ok.1 ht
    obtain ⟨e2, h2, ht⟩ := Res.bind_eq_ok.1 ht
    obtain ⟨e3, h3, ht⟩ := Res.bind_eq_ok.1 ht
    exact ⟨⟨e1, h1⟩, ⟨e2, h2⟩, ⟨e3, h3⟩⟩

/-- **C62 (violated), arrays.** If all stream documents are written but an array cannot be completed, destroy returns with the
stream still allocated, the later arrays untouched, and any further call of destroy ends the process. -/
theorem failed_array_violated {keys : List Text} {n i : Nat} (hk : key ∈ keys) (hg : p.group = true)
    (hs : ∀ k ∈ keys, p.sink k = true) (hi : i < n) (hbefore : ∀ j < i, p.array j = true) (hfail : p.array i = false) :
    ∃ h, destroy key p (fresh keys n) = .kept h ∧ h.arrays = List.replicate i false ++ List.replicate (n - i) true ∧
      ∀ q, destroy key q h = .terminated := by
  have e1 := closeSinks_true (ok := p.sink) (keys := keys)
  have arr : ∀ (m i b : Nat), i < m → (∀ j < i, p.array (b + j) = true) → p.array (b + i) = false →
      closeArrays p.array b (List.replicate m true) = (List.replicate i false ++ List.replicate (m - i) true, false) := by
    intro m
    induction m with
    | zero => intro i b hi; omega
    | succ m ih =>
      intro i b hi h1 h2
      rw [List.replicate_succ]
      unfold closeArrays
      cases i with
      | zero =>
        rw [Nat.add_zero] at h2
        rw [h2]
        simp [List.replicate_succ]
      | succ i =>
        have := h1 0 (by omega)
        rw [Nat.add_zero] at this
        rw [this, if_pos rfl, ih i (b + 1) (by omega) (fun j hj => by
          have := h1 (j + 1) (by omega)
          rwa [show b + 1 + j = b + (j + 1) by omega]) (by rwa [show b + 1 + i = b + (i + 1) by omega])]
        simp [List.replicate_succ]
  refine ⟨⟨[], List.replicate i false ++ List.replicate (n - i) true⟩, ?_, rfl, fun q => rfl⟩
  unfold destroy fresh
  dsimp only
  rw [lookup_fresh hk]
  dsimp only
  rw [hg, e1, List.all_eq_true.2 hs]
  simp only [Bool.not_true, Bool.false_eq_true, if_false]
  rw [arr n i 0 hi (fun j hj => by rw [Nat.zero_add]; exact hbefore j hj) (by rwa [Nat.zero_add])]
  rfl

/-- **C62 (violated), documents.** If the sink of the group document is closed and then another stream document fails, no
number of further calls of destroy deletes the stream, whatever succeeds then. -/
theorem failed_document_violated {pre mid post : List Text} {bad : Text} {n : Nat}
    (hg : p.group = true) (hs : ∀ k ∈ pre ++ key :: mid, p.sink k = true) (hbad : p.sink bad = false) (qs : List Plan) :
    ∃ h, destroys key (p :: qs) (fresh (pre ++ key :: (mid ++ bad :: post)) n) = .kept h := by
  have hk : key ∈ pre ++ key :: (mid ++ bad :: post) := by simp
  have closed : ∀ (a : List Text), (∀ k ∈ a, p.sink k = true) → ∀ rest,
      closeSinks p.sink (a.map (fun k => (k, true)) ++ (bad, true) :: rest) =
        (a.map (fun k => (k, false)) ++ (bad, true) :: rest, false) := by
    intro a ha rest
    induction a with
    | nil => simp [closeSinks, hbad]
    | cons k ks ih =>
      simp only [List.map_cons, List.cons_append, closeSinks]
      rw [if_pos (ha k List.mem_cons_self), ih fun k hk => ha k (List.mem_cons_of_mem _ hk)]
  have shape : pre ++ key :: (mid ++ bad :: post) = (pre ++ key :: mid) ++ bad :: post := by simp
  have first : ∃ h, destroy key p (fresh (pre ++ key :: (mid ++ bad :: post)) n) = .kept h ∧ h.sinks.lookup key = some false := by
    refine ⟨⟨(pre ++ key :: mid).map (fun k => (k, false)) ++ (bad, true) :: post.map (fun k => (k, true)), List.replicate n true⟩,
      ?_, ?_⟩
    · unfold destroy fresh
      dsimp only
      rw [lookup_fresh hk]
      dsimp only
      rw [hg, shape, List.map_append, List.map_cons, closed _ hs]
      rfl
    · dsimp only
      have : ∀ (a : List Text) (r : List (Text × Bool)), key ∈ a → (a.map (fun k => (k, false)) ++ r).lookup key = some false := by
        intro a r ha
        induction a with
        | nil => simp at ha
        | cons k ks ih =>
          rw [List.map_cons, List.cons_append, List.lookup_cons]
          split
          · rfl
          · rename_i hne
            have : key ≠ k := by simpa using hne
            exact ih (by simpa [this] using ha)
      exact this _ _ (by simp)
  obtain ⟨h1, e1, l1⟩ := first
  have stuck : ∀ (qs : List Plan), destroys key qs h1 = .kept h1 := by
    intro qs
    induction qs with
    | nil => rfl
    | cons q qs ih =>
      unfold destroys destroy
      rw [l1]
      exact ih
  exact ⟨h1, by rw [destroys, e1]; exact stuck qs⟩

/-- Non-vacuity: the documents of version 3, where `zarr.json` follows the group document and fails; and a two-level stream
whose second array fails. -/
example : (∃ h, destroys "meta/root.group.json".toList
      [⟨true, fun k => k != "zarr.json".toList, fun _ => true⟩, ⟨true, fun _ => true, fun _ => true⟩]
      (fresh ["meta/root.group.json".toList, "zarr.json".toList, "meta/acquire.json".toList] 2) = .kept h) ∧
    destroys ".zgroup".toList [⟨true, fun _ => true, fun i => i != 1⟩, ⟨true, fun _ => true, fun _ => true⟩]
      (fresh (metaKeys .v2) 2) = .terminated := by
  refine ⟨⟨_, rfl⟩, by decide⟩

end AZ.Destroy
