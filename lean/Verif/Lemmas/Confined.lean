import Verif.Lemmas.DocPaths

set_option linter.unusedSimpArgs false

/-! # Every storage event of a stream concerns an object of this stream, whatever the calls and the storage do -/

namespace AZ
open Spec

variable {env : Env} {s s' : SState} {base : List Ev}

theorem traceOk_writeLevel0 (hs : TraceOk s base) {data : Bytes} {k : Nat} (h : writeLevel0 env s data = .ok (s', k)) :
    TraceOk s' base := by
  unfold writeLevel0 at h
  split at h
  · simp at h
  · rename_i l0 rest hl
    obtain ⟨⟨l0', n, evs, errs⟩, h1, h⟩ := Res.bind_eq_ok.1 h
    cases h
    obtain ⟨c1, c2, c3, c4, _⟩ := writerStep_ext h1 (hs.sinks l0 (by simp [hl]))
    have hd := hs.distinct
    rw [hl] at hd
    have hst := LStep.cons hd c1 c2 c3 c4 (LStep.nil rest fun l hm => hs.sinks l (by simp [hl, hm]))
    rw [List.append_nil] at hst
    refine hs.step (evs := evs) ?_ rfl
    rw [hl]
    exact hst

theorem traceOk_writeMultiscale (hs : TraceOk s base) {data : Bytes} (h : writeMultiscale env s data = .ok s') :
    TraceOk s' base := by
  unfold writeMultiscale at h
  split at h
  · cases h; exact hs
  · split at h
    · cases h; exact hs
    · rename_i l0 rest hl
      obtain ⟨⟨rest', evs, errs⟩, h1, h⟩ := Res.bind_eq_ok.1 h
      cases h
      have hd := hs.distinct
      rw [hl] at hd
      have hst := LStep.cons (lv' := l0) (e1 := []) hd rfl (hs.sinks l0 (by simp [hl])) (by simp) (by simp)
        (pyramidLoop_step h1 (List.Pairwise.of_cons hd) fun l hm => hs.sinks l (by simp [hl, hm]))
      rw [List.nil_append] at hst
      refine hs.step (evs := evs) ?_ rfl
      rw [hl]
      exact hst

theorem TraceOk.of_eq (hs : TraceOk s base) (h1 : s'.levels = s.levels) (h2 : s'.trace = s.trace) : TraceOk s' base := by
  obtain ⟨a, b, c⟩ := hs
  rw [← h1] at a b c
  rw [← h2] at c
  exact ⟨a, b, c⟩

theorem traceOk_appendLoop (data : Bytes) (fuel : Nat) {ptr bw n : Nat} (hs : TraceOk s base)
    (h : appendLoop env data fuel ptr bw s = some (.ok (s', n))) : TraceOk s' base := by
  induction fuel generalizing ptr bw s with
  | zero =>
    unfold appendLoop at h
    split at h
    · cases h; exact hs
    · simp at h
  | succ fuel ih =>
    unfold appendLoop at h
    split at h
    · cases h; exact hs
    · dsimp only at h
      split at h
      · split at h
        · simp at h
        · split at h
          · split at h
            · simp at h
            · split at h
              · simp at h
              · simp at h
              · rename_i s2 k hw
                have k2 := traceOk_writeLevel0 (by exact hs.of_eq rfl rfl) hw
                split at h
                · cases h; exact k2
                · exact ih (by exact k2.of_eq rfl rfl) h
          · exact ih (by exact hs.of_eq rfl rfl) h
      · split at h
        · split at h
          · simp at h
          · exact ih (by exact hs.of_eq rfl rfl) h
        · split at h
          · simp at h
          · split at h
            · simp at h
            · simp at h
            · rename_i s2 k hw
              have k2 := traceOk_writeLevel0 hs hw
              split at h
              · cases h; exact k2
              · split at h
                · simp at h
                · simp at h
                · rename_i s3 hm
                  exact ih (traceOk_writeMultiscale k2 hm) h

theorem appendLoop_keeps (data : Bytes) (fuel : Nat) {ptr bw n : Nat}
    (h : appendLoop env data fuel ptr bw s = some (.ok (s', n))) :
    s'.cfg = s.cfg ∧ s'.levels.map (·.cfg) = s.levels.map (·.cfg) := by
  induction fuel generalizing ptr bw s with
  | zero =>
    unfold appendLoop at h
    split at h
    · cases h; exact ⟨rfl, rfl⟩
    · simp at h
  | succ fuel ih =>
    unfold appendLoop at h
    split at h
    · cases h; exact ⟨rfl, rfl⟩
    · dsimp only at h
      split at h
      · split at h
        · simp at h
        · split at h
          · split at h
            · simp at h
            · split at h
              · simp at h
              · simp at h
              · rename_i s2 k hw
                have k2 := writeLevel0_keeps hw
                split at h
                · cases h; exact ⟨k2.cfg, k2.cfgs⟩
                · exact ⟨(ih h).1.trans k2.cfg, (ih h).2.trans k2.cfgs⟩
          · have := ih h; exact this
      · split at h
        · split at h
          · simp at h
          · have := ih h; exact this
        · split at h
          · simp at h
          · split at h
            · simp at h
            · simp at h
            · rename_i s2 k hw
              have k2 := writeLevel0_keeps hw
              split at h
              · cases h; exact ⟨k2.cfg, k2.cfgs⟩
              · split at h
                · simp at h
                · simp at h
                · rename_i s3 hm
                  have k3 := writeMultiscale_keeps hm
                  exact ⟨(ih h).1.trans (k3.cfg.trans k2.cfg), (ih h).2.trans (k3.cfgs.trans k2.cfgs)⟩

theorem traceOk_appends {calls : List Bytes} {ns : List Nat} (hs : TraceOk s base)
    (h : appends env calls s = .ok (s', ns)) :
    TraceOk s' base ∧ s'.cfg = s.cfg ∧ s'.levels.map (·.cfg) = s.levels.map (·.cfg) := by
  induction calls generalizing s ns with
  | nil => cases h; exact ⟨hs, rfl, rfl⟩
  | cons d ds ih =>
    unfold appends at h
    split at h
    · simp at h
    · simp at h
    · simp at h
    · rename_i s1 n h1
      obtain ⟨⟨s2, ns2⟩, h2, h⟩ := Res.bind_eq_ok.1 h
      cases h
      unfold append at h1
      split at h1
      · simp at h1
      · have k1 := traceOk_appendLoop d _ hs h1
        have k2 := appendLoop_keeps d _ h1
        obtain ⟨a, b, c⟩ := ih k1 h2
        exact ⟨a, b.trans k2.1, c.trans k2.2⟩

/-- The objects of a stream. -/
def StreamObject (cfg : WConfig) (cfgs : List WConfig) (p : Text) : Prop :=
  (∃ c ∈ cfgs, Owned c p) ∨ ∃ key ∈ metaKeys cfg.version, p = metaSinkPath cfg key

theorem StreamDocs.object {cfg : WConfig} {cfgs : List WConfig} {evs : List Ev} (h : StreamDocs cfg evs) :
    ∀ e ∈ evs, StreamObject cfg cfgs e.path := fun e he => .inr (h e he)

variable {w : World} {fuel : Nat} {S : Settings} {calls : List Bytes} {ns : List Nat} {tr : List Ev}

/-- All events of a session, for any calls and storage behaviour. -/
theorem session_objects (h : runStream w env fuel S calls = some (.ok (s, ns, tr))) :
    ∃ cfg cfgs, commitSettings S = .ok cfg ∧ levelConfigs fuel S.multiscale cfg = some (.ok cfgs) ∧
      ∀ e ∈ tr, StreamObject cfg cfgs e.path := by
  unfold runStream at h
  split at h
  · simp at h
  · simp at h
  · simp at h
  · rename_i st hcr
    simp only [Option.some.injEq] at h
    obtain ⟨⟨s1, ns1⟩, h1, h⟩ := Res.bind_eq_ok.1 h
    obtain ⟨tr1, h2, h⟩ := Res.bind_eq_ok.1 h
    cases h
    obtain ⟨cfg, cfgs, hc⟩ := createStream_ok hcr
    refine ⟨cfg, cfgs, hc.commit, hc.levels, ?_⟩
    obtain ⟨ht, k1, k2⟩ := traceOk_appends hc.traceOk h1
    have hcfg : s1.cfg = cfg := k1.trans hc.scfg
    have hcfgs : s1.levels.map (·.cfg) = cfgs := k2.trans hc.cfgsEq
    unfold destroyStream at h2
    obtain ⟨e1, g1, h2⟩ := Res.bind_eq_ok.1 h2
    obtain ⟨e2, g2, h2⟩ := Res.bind_eq_ok.1 h2
    obtain ⟨e3, g3, h2⟩ := Res.bind_eq_ok.1 h2
    cases h2
    obtain ⟨f1, _⟩ := finalizeLevels_spec g3 ht.distinct ht.sinks
    obtain ⟨evs, t1, t2, _⟩ := ht.tr
    have d1 : StreamDocs cfg e1 := by
      have := writeDoc_docs (groupDoc_key s1.cfg _) g1
      rwa [hcfg] at this
    have d2 : StreamDocs cfg e2 := by
      rw [finalizeSinks_paths g2, hcfg]
      intro e he
      obtain ⟨p, hp, rfl⟩ := List.mem_map.1 he
      obtain ⟨k, hk, rfl⟩ := List.mem_map.1 hp
      exact ⟨k, hk, rfl⟩
    have hmem : ∀ lv ∈ s1.levels, lv.cfg ∈ cfgs := fun lv hlv => by
      rw [← hcfgs]; exact List.mem_map_of_mem hlv
    intro e he
    rw [t1] at he
    simp only [List.mem_append] at he
    rcases he with (((he | he) | he) | he) | he
    · exact hc.trace.object e he
    · obtain ⟨lv, hlv, ho⟩ := t2 e he
      exact .inl ⟨lv.cfg, hmem lv hlv, ho⟩
    · exact d1.object e he
    · exact d2.object e he
    · obtain ⟨lv, hlv, ho⟩ := f1 e he
      exact .inl ⟨lv.cfg, hmem lv hlv, ho⟩

/-- Every object of the stream lies under its root. -/
theorem StreamObject.under {cfg : WConfig} {cfgs : List WConfig} {root p : Text} (hr : LocatedAt S root)
    (hc : commitSettings S = .ok cfg) (hl : levelConfigs fuel S.multiscale cfg = some (.ok cfgs))
    (h : StreamObject cfg cfgs p) : ∃ q, p = root ++ '/' :: q := by
  rcases h with ⟨c, hm, h⟩ | ⟨key, _, rfl⟩
  · obtain ⟨i, hi⟩ := List.mem_iff_getElem?.1 hm
    have hb := hr.base hc (levelConfigs_inherits hl hi).1.same
    rcases h with rfl | ⟨g, l, rfl⟩
    · rw [arrayMetaPath_eq, hb]
      exact ⟨metaMid c.version c.level, by simp⟩
    · unfold objectPath
      rw [hb]
      exact ⟨dataMid c.version c.level ++ (decimal g ++ suffix l), by simp⟩
  · exact ⟨key, hr.streamDoc hc key⟩

/-- Every storage event of a session concerns an object under the stream's root. -/
theorem session_under {root : Text} (hr : LocatedAt S root) (h : runStream w env fuel S calls = some (.ok (s, ns, tr))) :
    ∀ e ∈ tr, ∃ q, e.path = root ++ '/' :: q := by
  obtain ⟨cfg, cfgs, h1, h2, h3⟩ := session_objects h
  exact fun e he => (h3 e he).under hr h1 h2

end AZ
