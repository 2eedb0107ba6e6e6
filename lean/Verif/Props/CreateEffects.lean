import Verif.Model.CreateEffects
import Verif.Lemmas.Accepted
import Verif.Props.Sample

set_option linter.unusedSimpArgs false

/-!
# C91: creating a stream deletes nothing but an old dataset, and only if it succeeds
-/

namespace AZ.CreateEffects

variable {w : World} {env : Env} {tried : Text → Bool} {fuel : Nat} {s : Settings} {cfg : WConfig}

theorem writeDocs_one (p : Text) (d : Bytes) (r : List (Text × Bytes)) :
    writeDocs env ((p, d) :: r) = match writeDoc env p d with
      | .ok e1 => (e1 ++ (writeDocs env r).1, (writeDocs env r).2)
      | _ => ([], false) := by
  unfold writeDoc
  rw [writeDocs]
  cases env.write p 0 d <;> rfl

/-- The two models of the constructor agree: which calls return a stream, and what has been written then. -/
theorem create_agrees {e : Effects} (h : create w env tried fuel s = some e) :
    (e.made = .stream ↔ ∃ st, createStream w env fuel (some s) = some (.ok st)) ∧
    ∀ st, createStream w env fuel (some s) = some (.ok st) → st.trace = e.events := by
  unfold create createWith at h
  unfold createStream
  cases hv : validateSettings w (some s) with
  | throw => rw [hv] at h; cases h; simp
  | ub => rw [hv] at h; cases h; simp
  | ok b =>
    rw [hv] at h
    cases b with
    | false => cases h; simp
    | true =>
      dsimp only at h ⊢
      cases hc : commitSettings s with
      | throw => rw [hc] at h; cases h; simp
      | ub => rw [hc] at h; cases h; simp
      | ok cfg =>
        rw [hc] at h
        dsimp only at h ⊢
        cases hs : w.storeOk cfg.storePath with
        | false => rw [hs] at h; cases h; simp
        | true =>
          rw [hs] at h
          simp only [Bool.not_true, Bool.false_eq_true, if_false] at h ⊢
          cases hl : levelConfigs fuel s.multiscale cfg with
          | none => rw [hl] at h; cases h
          | some r =>
            rw [hl] at h
            cases r with
            | throw => cases h; simp
            | ub => cases h; simp
            | ok cfgs =>
              dsimp only at h ⊢
              cases h
              unfold afterStore documents
              dsimp only
              generalize (metaKeys cfg.version).map (metaSinkPath cfg) = paths
              generalize utf8 ((baseDoc cfg cfgs.length).2.dump 0) = d1
              generalize utf8 ((groupDoc cfg cfgs.length).2.dump 0) = d2
              generalize metaSinkPath cfg (baseDoc cfg cfgs.length).1 = p1
              generalize metaSinkPath cfg (groupDoc cfg cfgs.length).1 = p2
              generalize metaSinkPath cfg (externalKey cfg.version) = p3
              cases hp : paths.all env.makeMetaSink with
              | false => simp [check, bind, Res.bind]
              | true =>
                simp only [check, if_true, Bool.not_true, Bool.false_eq_true, if_false, List.cons_append, List.nil_append]
                simp only [writeDocs_one]
                cases h1 : writeDoc env p1 d1 with
                | throw => simp [bind, Res.bind]
                | ub => simp [bind, Res.bind]
                | ok e1 =>
                  cases h2 : writeDoc env p2 d2 with
                  | throw => simp [bind, Res.bind]
                  | ub => simp [bind, Res.bind]
                  | ok e2 =>
                    cases externalDoc w s with
                    | none => simp [bind, Res.bind, pure, writeDocs]
                    | some d3 =>
                      simp only [writeDocs_one]
                      cases h3 : writeDoc env p3 d3 with
                      | throw => simp [bind, Res.bind]
                      | ub => simp [bind, Res.bind]
                      | ok e3 => simp [bind, Res.bind, pure, writeDocs]

/-- **C91, the part that holds.** A call with settings that are refused, a call that cannot reach or make its store, and every call for a bucket leave all files as they were (a bucket's
documents are not files). -/
theorem refused_untouched_partial {e : Effects} (h : create w env tried fuel s = some e) :
    (validateSettings w (some s) ≠ .ok true → ∀ root p, fileAfterCreate w root e p = w.files p) ∧
    (∀ cfg, commitSettings s = .ok cfg → w.storeOk cfg.storePath = false → ∀ root p, fileAfterCreate w root e p = w.files p) ∧
    (s.s3.isSome → e.cleared = false) := by
  unfold create createWith at h
  refine ⟨fun hv root p => ?_, fun cfg hc hs root p => ?_, fun h3 => ?_⟩
  · cases hv' : validateSettings w (some s) with
    | throw => rw [hv'] at h; cases h; rfl
    | ub => rw [hv'] at h; cases h; rfl
    | ok b =>
      cases b with
      | true => exact absurd hv' hv
      | false => rw [hv'] at h; cases h; rfl
  · cases hv' : validateSettings w (some s) with
    | throw => rw [hv'] at h; cases h; rfl
    | ub => rw [hv'] at h; cases h; rfl
    | ok b =>
      rw [hv'] at h
      cases b with
      | false => cases h; rfl
      | true =>
        dsimp only at h
        rw [hc] at h
        dsimp only at h
        rw [hs] at h
        cases h
        rfl
  · cases hv' : validateSettings w (some s) with
    | throw => rw [hv'] at h; cases h; rfl
    | ub => rw [hv'] at h; cases h; rfl
    | ok b =>
      rw [hv'] at h
      cases b with
      | false => cases h; rfl
      | true =>
        dsimp only at h
        cases hc : commitSettings s with
        | throw => rw [hc] at h; cases h; rfl
        | ub => rw [hc] at h; cases h; rfl
        | ok cfg =>
          rw [hc] at h
          dsimp only at h
          have hb : cfg.bucket.isNone = false := by
            rw [(commit_fields hc).2.1]
            cases hs3 : s.s3 with
            | none => rw [hs3] at h3; cases h3
            | some x => rfl
          rw [hb] at h
          split at h
          · cases h; rfl
          · cases hl : levelConfigs fuel s.multiscale cfg with
            | none => rw [hl] at h; cases h
            | some r => rw [hl] at h; cases r <;> cases h <;> rfl

/-- A call that gets past `create_store_` on a file system. -/
structure Started (w : World) (fuel : Nat) (s : Settings) (cfg : WConfig) (cfgs : List WConfig) : Prop where
  valid : validateSettings w (some s) = .ok true
  commit : commitSettings s = .ok cfg
  files : s.s3 = none
  store : w.storeOk cfg.storePath = true
  levels : levelConfigs fuel s.multiscale cfg = some (.ok cfgs)

theorem create_started {cfgs : List WConfig} (h : Started w fuel s cfg cfgs) :
    create w env tried fuel s = some ⟨(afterStore w env tried s cfg cfgs.length).1, true, (afterStore w env tried s cfg cfgs.length).2⟩ := by
  unfold create createWith
  have hb : cfg.bucket.isNone = true := by rw [(commit_fields h.commit).2.1, h.files]; rfl
  simp only [h.valid, h.commit, h.store, h.levels, hb, Bool.not_true, Bool.false_eq_true, if_false]

theorem events_paths {cfgs : List WConfig} {ev : Ev} (h : ev ∈ (afterStore w env tried s cfg cfgs.length).2) :
    ev.path ∈ (metaKeys cfg.version).map (metaSinkPath cfg) ∨ ev.path ∈ (documents w s cfg cfgs.length).map (·.1) := by
  have hw : ∀ l : List (Text × Bytes), ∀ e ∈ (writeDocs env l).1, e.path ∈ l.map (·.1) := by
    intro l
    induction l with
    | nil => intro e he; cases he
    | cons x l ih =>
      obtain ⟨p, d⟩ := x
      intro e he
      rw [writeDocs] at he
      cases hx : env.write p 0 d with
      | stored =>
        rw [hx] at he
        rcases List.mem_cons.1 he with rfl | he
        · simp [Ev.path]
        · exact List.mem_cons_of_mem _ (ih e he)
      | silent => rw [hx] at he; exact List.mem_cons_of_mem _ (ih e he)
      | failed => rw [hx] at he; cases he
      | threw => rw [hx] at he; cases he
  unfold afterStore at h
  dsimp only at h
  split at h
  · obtain ⟨p, hp, rfl⟩ := List.mem_map.1 h
    exact .inl (List.mem_filter.1 hp).1
  · rcases List.mem_append.1 h with h | h
    · obtain ⟨p, hp, rfl⟩ := List.mem_map.1 h
      exact .inl hp
    · exact .inr (hw _ _ h)

/-- **C91 is violated by the code: everything below the store path is deleted**, dataset or not, whether or not a stream is made of it: every file below the path that is not one
of the stream's own documents is gone when the call returns. -/
theorem create_erases_violated {cfgs : List WConfig} (h : Started w fuel s cfg cfgs) {p root : Text} (hp : s.storePath = some p) (hr : trim p = root) {q : Text}
    (hq : root ++ '/' :: q ∉ (metaKeys cfg.version).map (metaSinkPath cfg) ++ (documents w s cfg cfgs.length).map (·.1)) :
    ∃ e, create w env tried fuel s = some e ∧ fileAfterCreate w root e (root ++ '/' :: q) = none := by
  refine ⟨_, create_started h, ?_⟩
  unfold fileAfterCreate
  dsimp only
  rw [if_pos (by rw [Bool.true_and, List.isPrefixOf_iff_prefix]; exact ⟨q, by simp⟩)]
  have : ∀ l : List Ev, (∀ e ∈ l, e.path ≠ root ++ '/' :: q) → l.foldl (stepFile (root ++ '/' :: q)) none = none := by
    intro l
    induction l with
    | nil => intro _; rfl
    | cons e l ih =>
      intro hl
      rw [List.foldl_cons, show stepFile (root ++ '/' :: q) none e = none from if_pos (hl e List.mem_cons_self)]
      exact ih fun x hx => hl x (List.mem_cons_of_mem _ hx)
  refine this _ fun e he hpath => hq ?_
  rw [← hpath, List.mem_append]
  exact events_paths he

/-- **C91 is violated by the code: a failed call deletes the old dataset.** If a metadata file cannot be created, no stream is returned, and every file that is left below
the store path is an empty document of the new stream. -/
theorem failed_create_erases_violated {cfgs : List WConfig} (h : Started w fuel s cfg cfgs) {p root : Text} (hp : s.storePath = some p) (hr : trim p = root)
    {k : Text} (hk : k ∈ metaKeys cfg.version) (hm : env.makeMetaSink (metaSinkPath cfg k) = false) :
    ∃ e, create w env tried fuel s = some e ∧ e.made = .null ∧ ∀ q b, fileAfterCreate w root e (root ++ '/' :: q) = some b → b = [] := by
  have ha : afterStore w env tried s cfg cfgs.length = (.null, (((metaKeys cfg.version).map (metaSinkPath cfg)).filter fun p => tried p && env.makeMetaSink p).map Ev.opened) := by
    unfold afterStore
    dsimp only
    rw [if_pos]
    simp only [Bool.not_eq_true', List.all_eq_false]
    exact ⟨_, List.mem_map_of_mem hk, by rw [hm]; exact nofun⟩
  refine ⟨_, create_started h, by rw [ha], fun q b hb => ?_⟩
  unfold fileAfterCreate at hb
  dsimp only at hb
  rw [if_pos (by rw [Bool.true_and, List.isPrefixOf_iff_prefix]; exact ⟨q, by simp⟩), ha] at hb
  have : ∀ (l : List Text) (cur : Option Bytes), (∀ b, cur = some b → b = []) →
      ∀ b, (l.map Ev.opened).foldl (stepFile (root ++ '/' :: q)) cur = some b → b = [] := by
    intro l
    induction l with
    | nil => intro cur hc b hb; exact hc b hb
    | cons x l ih =>
      intro cur hc
      rw [List.map_cons, List.foldl_cons]
      refine ih _ ?_
      intro b hb
      unfold stepFile at hb
      split at hb
      · exact hc b hb
      · cases hb; rfl
  exact this _ none nofun b hb

/-- Not vacuous: the sample settings on a disk where `.zgroup` cannot be created and an old file `notes.txt` below the store path: no stream, and the file is gone. -/
example : ∃ cfg cfgs, Started { Sample.world with files := fun _ => some [1] } 9 Sample.settings cfg cfgs ∧
    ".zgroup".toList ∈ metaKeys cfg.version ∧
    "/tmp/a.zarr/notes.txt".toList ∉ (metaKeys cfg.version).map (metaSinkPath cfg) ++ (documents Sample.world Sample.settings cfg cfgs.length).map (·.1) := by
  exact ⟨_, _, ⟨rfl, rfl, rfl, rfl, rfl⟩, by decide, by decide⟩

end AZ.CreateEffects
