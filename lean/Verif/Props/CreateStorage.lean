import Verif.Props.Settings

/-!
# C22: valid settings on storage that does not work
-/

namespace AZ
open Spec

theorem writeDoc_total (env : Env) (p : Text) (doc : Bytes) :
    (writeDoc env p doc = .throw ∧ (env.write p 0 doc = .failed ∨ env.write p 0 doc = .threw)) ∨
    ∃ l, writeDoc env p doc = .ok l := by
  unfold writeDoc
  split
  · exact .inr ⟨_, rfl⟩
  · exact .inr ⟨_, rfl⟩
  · next h => exact .inl ⟨rfl, .inl h⟩
  · next h => exact .inl ⟨rfl, .inr h⟩

theorem writeDoc_refused {env : Env} (h : ∀ p o d, env.write p o d = .failed ∨ env.write p o d = .threw) (p : Text) (doc : Bytes) :
    writeDoc env p doc = .throw := by
  unfold writeDoc
  rcases h p 0 doc with e | e <;> rw [e]

theorem created_or_thrown {w : World} {env : Env} {fuel : Nat} {s : Settings} {cfg : WConfig} {cfgs : List WConfig}
    (hv : validateSettings w (some s) = .ok true) (hc : commitSettings s = .ok cfg)
    (hl : levelConfigs fuel s.multiscale cfg = some (.ok cfgs)) :
    createStream w env fuel (some s) = some .throw ∨ ∃ st, createStream w env fuel (some s) = some (.ok st) := by
  unfold createStream
  rw [hv]
  dsimp only
  rw [hc]
  dsimp only
  by_cases hst : w.storeOk cfg.storePath = true
  · rw [if_neg (by simp [hst]), hl]
    dsimp only
    by_cases hk : ((metaKeys cfg.version).map (metaSinkPath cfg)).all env.makeMetaSink = true
    · rw [hk]
      rcases writeDoc_total env (metaSinkPath cfg (baseDoc cfg cfgs.length).1) (utf8 ((baseDoc cfg cfgs.length).2.dump 0)) with
        ⟨e, -⟩ | ⟨l, e⟩
      · left; rw [e]; rfl
      rcases writeDoc_total env (metaSinkPath cfg (groupDoc cfg cfgs.length).1) (utf8 ((groupDoc cfg cfgs.length).2.dump 0)) with
        ⟨e2, -⟩ | ⟨l2, e2⟩
      · left; rw [e, e2]; rfl
      rw [e, e2]
      cases hx : externalDoc w s with
      | none => right; exact ⟨_, rfl⟩
      | some doc =>
        dsimp only
        rcases writeDoc_total env (metaSinkPath cfg (externalKey cfg.version)) doc with ⟨e3, -⟩ | ⟨l3, e3⟩
        · left; rw [e3]; rfl
        · right; rw [e3]; exact ⟨_, rfl⟩
    · left
      rw [Bool.not_eq_true] at hk
      rw [hk]
      rfl
  · left
    rw [if_pos (by simpa using hst)]

theorem levels_of_good {w : World} {s : Settings} {cfg : WConfig} (hv : validateSettings w (some s) = .ok true)
    (hc : commitSettings s = .ok cfg) (hz : SizesInRange s) (hm : s.multiscale = true → HasShrinkable s) :
    ∃ cfgs, levelConfigs 32 s.multiscale cfg = some (.ok cfgs) := by
  cases hms : s.multiscale with
  | false => exact ⟨_, rfl⟩
  | true =>
    obtain ⟨d, d1, d2, d3, d4⟩ := hm hms
    obtain ⟨cfgs, hcf, _⟩ := levelConfigs_ends (sizesOk_of hv hc hz) (d := d.toDim) (by
      rw [toList_commit hc]; exact List.mem_map_of_mem d1) (by
      rw [ne_eq, kind_channel]; simp [d2]) d3 d4
    exact ⟨cfgs, hcf⟩

/-- **C22, storage of any behaviour.** With valid settings (and, for multiscale, the condition of C17) `create` returns a stream or NULL,
whichever directories, files and writes fail. -/
theorem create_any_storage {w : World} {env : Env} {s : Settings} (h : GoodSettings w s) (hz : SizesInRange s)
    (hm : s.multiscale = true → HasShrinkable s) :
    apiCreate w env 32 (some s) = (true, some .throw) ∨ ∃ st, apiCreate w env 32 (some s) = (true, some (.ok st)) := by
  have hv := (validation_exact w s).2 h
  obtain ⟨cfg, hc⟩ := commit_ok hv
  obtain ⟨cfgs, hl⟩ := levels_of_good hv hc hz hm
  have hr : apiCreate w env 32 (some s) = (true, createStream w env 32 (some s)) := by
    unfold apiCreate
    rw [hv]
    dsimp only
    rw [hc]
  rw [hr]
  rcases created_or_thrown hv hc hl with e | ⟨st, e⟩
  · left; rw [e]
  · right; exact ⟨st, by rw [e]⟩

/-- **C22, storage that refuses.** If the store cannot be created, or no metadata file can be opened, or nothing can be written to them,
`create` returns NULL. -/
theorem create_refusing_storage {w : World} {env : Env} {s : Settings} (h : GoodSettings w s) (hz : SizesInRange s)
    (hm : s.multiscale = true → HasShrinkable s)
    (hbad : (∀ p, w.storeOk p = false) ∨ (∀ p, env.makeMetaSink p = false) ∨
      ∀ p o d, env.write p o d = .failed ∨ env.write p o d = .threw) :
    apiCreate w env 32 (some s) = (true, some .throw) := by
  have hv := (validation_exact w s).2 h
  obtain ⟨cfg, hc⟩ := commit_ok hv
  obtain ⟨cfgs, hl⟩ := levels_of_good hv hc hz hm
  have hr : apiCreate w env 32 (some s) = (true, createStream w env 32 (some s)) := by
    unfold apiCreate
    rw [hv]
    dsimp only
    rw [hc]
  rw [hr]
  congr 1
  unfold createStream
  rw [hv]
  dsimp only
  rw [hc]
  dsimp only
  by_cases hst : w.storeOk cfg.storePath = true
  · rw [if_neg (by simp [hst]), hl]
    dsimp only
    rcases hbad with e | e | e
    · rw [e] at hst; cases hst
    · have hk : ((metaKeys cfg.version).map (metaSinkPath cfg)).all env.makeMetaSink = false := by
        cases cfg.version <;> simp [metaKeys, e]
      rw [hk]
      rfl
    · cases hk : ((metaKeys cfg.version).map (metaSinkPath cfg)).all env.makeMetaSink with
      | false => rfl
      | true =>
        rw [writeDoc_refused e]
        rfl
  · rw [if_pos (by simpa using hst)]

/-- A full disk: files can be opened, nothing can be written. -/
def Sample.fullDisk : Env := { Sample.env with
  write := fun _ _ _ => .failed }

example : apiCreate Sample.world Sample.fullDisk 32 (some Sample.settings1) = (true, some .throw) :=
  create_refusing_storage Sample.good1 Sample.sizesInRange (fun h => by cases h) (.inr (.inr fun _ _ _ => .inl rfl))

end AZ
