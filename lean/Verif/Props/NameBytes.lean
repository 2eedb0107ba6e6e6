import Verif.Props.CreateEffects

set_option linter.unusedSimpArgs false

/-!
# C96: a dimension name that cannot be stored is refused before anything is touched

C strings are bytes. Names that are not UTF-8 pass validation; the exception comes when the metadata are dumped, after the old dataset has been deleted. -/

namespace AZ.CreateEffects
open Spec

variable {w : World} {env : Env} {tried : Text → Bool} {fuel : Nat} {s : Settings} {names : List Bytes}

theorem textOf_utf8 (t : Text) : textOf (utf8 t) = some t := by
  have e : (utf8 t).toByteArray = t.utf8Encode := by
    rw [List.utf8Encode]; rfl
  unfold textOf
  rw [e, List.utf8Decode?_utf8Encode]
  rfl

theorem utf8_textOf {b : Bytes} {t : Text} (h : textOf b = some t) : b = utf8 t := by
  unfold textOf at h
  rw [Option.map_eq_some_iff] at h
  obtain ⟨a, h1, rfl⟩ := h
  have hv := ByteArray.isSome_utf8Decode?_iff.1 (by rw [h1]; rfl)
  obtain ⟨m, hm⟩ : ∃ m : List Char, b.toByteArray = m.utf8Encode := by
    cases hv with
    | intro m hm => exact ⟨m, hm⟩
  rw [hm, List.utf8Decode?_utf8Encode] at h1
  cases h1
  have e : (utf8 m).toByteArray = m.utf8Encode := by
    rw [List.utf8Encode]; rfl
  rw [← e] at hm
  have := congrArg (fun x : ByteArray => x.data.toList) hm
  simpa using this

theorem mapM_textOf {ts : List Text} : names.mapM textOf = some ts ↔ names = ts.map utf8 := by
  induction names generalizing ts with
  | nil =>
    cases ts with
    | nil => simp
    | cons t ts => simp
  | cons b bs ih =>
    rw [List.mapM_cons]
    cases hb : textOf b with
    | none =>
      refine ⟨fun h => (by cases h), fun h => ?_⟩
      cases ts with
      | nil => cases h
      | cons t ts =>
        rw [List.map_cons, List.cons.injEq] at h
        rw [h.1, textOf_utf8] at hb
        cases hb
    | some t =>
      cases hm : bs.mapM textOf with
      | none =>
        refine ⟨fun h => (by cases h), fun h => ?_⟩
        cases ts with
        | nil => cases h
        | cons t' ts =>
          rw [List.map_cons, List.cons.injEq] at h
          rw [ih.2 h.2] at hm
          cases hm
      | some us =>
        have hu := ih.1 hm
        constructor
        · intro h
          cases h
          rw [List.map_cons, ← hu, ← utf8_textOf hb]
        · intro h
          cases ts with
          | nil => cases h
          | cons t' ts =>
            rw [List.map_cons, List.cons.injEq] at h
            have e1 := ih.2 h.2
            rw [hm] at e1
            cases e1
            rw [h.1, textOf_utf8] at hb
            cases hb
            rfl

/-- `withNames` replaces the names, in order, and nothing else. -/
theorem withNames_exact {ds : List DimProps} (hd : s.dimensions = some ds) {ts : List Text} (hl : ts.length = ds.length) :
    ∃ ds', withNames s ts = { s with dimensions := some ds' } ∧ ds'.map (·.name) = ts.map some ∧
      ds'.map (fun d => (d.kind, d.arraySize, d.chunkSize, d.shardSize)) = ds.map fun d => (d.kind, d.arraySize, d.chunkSize, d.shardSize) := by
  refine ⟨ds.zipWith (fun d n => { d with name := some n }) ts, by simp [withNames, hd], ?_, ?_⟩
  · clear hd
    induction ds generalizing ts with
    | nil => cases ts <;> simp_all
    | cons d ds ih =>
      cases ts with
      | nil => simp at hl
      | cons t ts => simp [ih (by simpa using hl)]
  · clear hd
    induction ds generalizing ts with
    | nil => cases ts <;> simp_all
    | cons d ds ih =>
      cases ts with
      | nil => simp at hl
      | cons t ts => simp [ih (by simpa using hl)]

/-- Names that are UTF-8 are taken as the characters they encode: creation is that of `Model.CreateEffects.create` (and, `create_agrees`, of `Model.Stream`, whose documents C39 and C40
describe). Missing: other names, for which the claim is false (`name_bytes_violated`). -/
theorem name_bytes_partial (ts : List Text) :
    createNamed w env tried fuel s (ts.map utf8) = create w env tried fuel (withNames s ts) := by
  unfold createNamed
  rw [mapM_textOf.2 rfl]

theorem createWith_made {after : WConfig → Nat → Made × List Ev} {e : Effects} (h : createWith w after fuel s = some e)
    (hm : e.made = .stream) : ∃ cfg n, (after cfg n).1 = .stream := by
  unfold createWith at h
  split at h
  · cases h; cases hm
  · cases h; cases hm
  · cases h; cases hm
  · split at h
    · cases h; cases hm
    · cases h; cases hm
    · split at h
      · cases h; cases hm
      · split at h
        · cases h
        · cases h; cases hm
        · cases h; cases hm
        · cases h; exact ⟨_, _, hm⟩

/-- Every stream that is created has UTF-8 names. -/
theorem named_stream_utf8 {e : Effects} (h : createNamed w env tried fuel s names = some e) (hm : e.made = .stream) :
    ∃ ts, names = ts.map utf8 ∧ create w env tried fuel (withNames s ts) = some e := by
  unfold createNamed at h
  cases ht : names.mapM textOf with
  | some ts => rw [ht] at h; exact ⟨ts, mapM_textOf.1 ht, h⟩
  | none =>
    rw [ht] at h
    obtain ⟨cfg, n, hh⟩ := createWith_made h hm
    unfold afterStoreUndumpable at hh
    dsimp only at hh
    split at hh
    · cases hh
    · split at hh <;> cases hh

/-- The names as `createNamed` treats them before they are dumped. -/
abbrev latin1 (names : List Bytes) : List Text := names.map fun b => b.map fun x => Char.ofNat x.toNat

/-- **C96 is violated by the code.** With a name that is not UTF-8, any settings that otherwise are accepted (`Started`) yield no stream, and yet everything that was below the store path has been deleted
by the time the call returns: every file there that is not a metadata file of the new dataset is gone. -/
theorem name_bytes_violated {cfg : WConfig} {cfgs : List WConfig} (hn : ∀ ts : List Text, names ≠ ts.map utf8) (h : Started w fuel (withNames s (latin1 names)) cfg cfgs)
    {p root : Text} (_ : s.storePath = some p) (_ : trim p = root) {q : Text} (hq : root ++ '/' :: q ∉ (metaKeys cfg.version).map (metaSinkPath cfg)) :
    ∃ e, createNamed w env tried fuel s names = some e ∧ e.made = .null ∧ fileAfterCreate w root e (root ++ '/' :: q) = none := by
  have hnone : names.mapM textOf = none := by
    cases hm : names.mapM textOf with
    | none => rfl
    | some ts => exact absurd (mapM_textOf.1 hm) (hn ts)
  have hb : cfg.bucket.isNone = true := by rw [(commit_fields h.commit).2.1, h.files]; rfl
  have hc : createNamed w env tried fuel s names = some ⟨(afterStoreUndumpable env tried cfg cfgs.length).1, true, (afterStoreUndumpable env tried cfg cfgs.length).2⟩ := by
    unfold createNamed createWith
    have hms : (withNames s (latin1 names)).multiscale = s.multiscale := rfl
    rw [hnone]
    simp only [h.valid, h.commit, h.store, h.levels, hb, Bool.not_true, Bool.false_eq_true, if_false]
  have hmade : (afterStoreUndumpable env tried cfg cfgs.length).1 = .null := by
    unfold afterStoreUndumpable
    dsimp only
    split
    · rfl
    · split <;> rfl
  have hev : ∀ e ∈ (afterStoreUndumpable env tried cfg cfgs.length).2, e.path ∈ (metaKeys cfg.version).map (metaSinkPath cfg) := by
    intro e he
    unfold afterStoreUndumpable at he
    dsimp only at he
    split at he
    · obtain ⟨p, hp, rfl⟩ := List.mem_map.1 he
      exact (List.mem_filter.1 hp).1
    · split at he
      · obtain ⟨p, hp, rfl⟩ := List.mem_map.1 he
        exact hp
      · rename_i hv
        rcases List.mem_append.1 he with he | he
        · obtain ⟨p, hp, rfl⟩ := List.mem_map.1 he
          exact hp
        · have hk : (baseDoc cfg cfgs.length).1 ∈ metaKeys cfg.version := by
            unfold baseDoc
            rw [hv]
            exact List.mem_cons_self
          rw [writeDocs] at he
          split at he
          · rw [writeDocs] at he
            rcases List.mem_cons.1 he with rfl | he
            · exact List.mem_map_of_mem hk
            · cases he
          · cases he
          · cases he
          · cases he
  refine ⟨_, hc, hmade, ?_⟩
  unfold fileAfterCreate
  dsimp only
  rw [if_pos (by rw [Bool.true_and, List.isPrefixOf_iff_prefix]; exact ⟨q, by simp⟩)]
  have : ∀ l : List Ev, (∀ e ∈ l, e.path ≠ root ++ '/' :: q) → l.foldl (stepFile (root ++ '/' :: q)) none = none := by
    intro l
    induction l with
    | nil => intro _; rfl
    | cons e l ih =>
      intro hl
      rw [List.foldl_cons, show stepFile (root ++ '/' :: q) none e = none from if_pos (hl e List.mem_cons_self)]
      exact ih fun x hx => hl x (List.mem_cons_of_mem _ hx)
  exact this _ fun e he hpath => hq (hpath ▸ hev e he)

/-- Not vacuous: the sample settings with the micro sign of ISO 8859-1 as a name, and an old file `notes.txt` below the store path. -/
example : ∃ cfg cfgs, Started { Sample.world with files := fun _ => some [1] } 9 (withNames Sample.settings (latin1 [[116], [99], [0xb5], [120]])) cfg cfgs ∧
    "/tmp/a.zarr/notes.txt".toList ∉ (metaKeys cfg.version).map (metaSinkPath cfg) ∧
    ∀ ts : List Text, [[116], [99], [0xb5], [120]] ≠ ts.map utf8 := by
  refine ⟨_, _, ⟨rfl, rfl, rfl, rfl, rfl⟩, by decide, fun ts h => ?_⟩
  have := mapM_textOf.2 h
  revert this
  have : textOf [0xb5] = none := by decide +kernel
  simp [List.mapM_cons, this]

end AZ.CreateEffects
