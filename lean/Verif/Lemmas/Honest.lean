import Verif.Lemmas.SessionV2

set_option linter.unusedSimpArgs false
set_option linter.unusedVariables false

/-! # Version 2 streams on storage that reports its failures

A run in which no error message was recorded is the run on perfect storage. -/

namespace AZ

/-- Writes that do not store the bytes report it (return false or throw). -/
def Honest (env : Env) : Prop := ∀ p off data, env.write p off data ≠ .silent

/-- The same Blosc with storage on which nothing fails. -/
def perfect (env : Env) : Env where
  compress := env.compress
  makeSinks := fun _ => true
  makeMetaSink := fun _ => true
  write := fun _ _ _ => .stored
  finalize := fun _ => true

/-- `st'` extends the error messages of `st` by nonempty ones; if by none, `P` holds. -/
def Reports (st st' : WState) (P : Prop) : Prop :=
  ∃ ms, st'.errors = st.errors ++ ms ∧ (∀ m ∈ ms, m ≠ []) ∧ (ms = [] → P)

theorem writeChunk_msg : "Failed to write chunk".toList ≠ [] := by decide
theorem compress_msg : "Failed to compress chunk".toList ≠ [] := by decide

theorem Reports.quiet {st st' : WState} {P : Prop} (h : st'.errors = st.errors) (hP : P) : Reports st st' P :=
  ⟨[], by simp [h], by simp, fun _ => hP⟩

theorem Reports.trans {a b c : WState} {P Q R : Prop} (h1 : Reports a b P) (h2 : Reports b c Q) (h : P → Q → R) :
    Reports a c R := by
  obtain ⟨m1, e1, n1, p1⟩ := h1
  obtain ⟨m2, e2, n2, p2⟩ := h2
  refine ⟨m1 ++ m2, by rw [e2, e1, List.append_assoc], ?_, ?_⟩
  · intro m hm
    rcases List.mem_append.1 hm with hm | hm
    · exact n1 m hm
    · exact n2 m hm
  · intro hn
    obtain ⟨h1, h2⟩ := List.append_eq_nil_iff.1 hn
    exact h (p1 h1) (p2 h2)

variable {env : Env} {cfg : WConfig} {st st' : WState}

theorem reports_compress : Reports st (compressBuffers env cfg st)
    (compressBuffers (perfect env) cfg st = compressBuffers env cfg st) := by
  unfold compressBuffers
  cases hc : cfg.compression with
  | none => exact .quiet rfl rfl
  | some p =>
    refine ⟨_, rfl, ?_, fun _ => rfl⟩
    intro m hm
    obtain ⟨r, hr, hm⟩ := List.mem_flatMap.1 hm
    obtain ⟨b, _, rfl⟩ := List.mem_map.1 hr
    unfold compressJob at hm
    split at hm
    · simp at hm
    · simp only [List.mem_singleton] at hm
      rw [hm]; exact compress_msg

theorem makeDataSinks_perfect (h : makeDataSinks env cfg st = some st') :
    makeDataSinks (perfect env) cfg st = some st' ∧ st'.errors = st.errors := by
  unfold makeDataSinks at h ⊢
  split at h
  · simp at h
  · rename_i paths hp
    split at h
    · cases h
      exact ⟨by simp [perfect], rfl⟩
    · simp at h

theorem chunkJob_honest (hE : Honest env) (p : Text) (b : Bytes) :
    (∀ m ∈ (chunkJob env p b).2, m ≠ []) ∧ ((chunkJob env p b).2 = [] → chunkJob (perfect env) p b = chunkJob env p b) := by
  unfold chunkJob
  cases hw : env.write p 0 b with
  | silent => exact absurd hw (hE _ _ _)
  | stored => simp [perfect]
  | failed => simp
  | threw => simp

theorem chunkJobs_honest (hE : Honest env) (l : List (Text × Bytes)) :
    (∀ m ∈ (l.map fun x => chunkJob env x.1 x.2).flatMap (·.2), m ≠ []) ∧
    ((l.map fun x => chunkJob env x.1 x.2).flatMap (·.2) = [] →
      (l.map fun x => chunkJob (perfect env) x.1 x.2) = (l.map fun x => chunkJob env x.1 x.2)) := by
  constructor
  · intro m hm
    obtain ⟨r, hr, hm⟩ := List.mem_flatMap.1 hm
    obtain ⟨x, _, rfl⟩ := List.mem_map.1 hr
    exact (chunkJob_honest hE x.1 x.2).1 m hm
  · intro hn
    rw [List.flatMap_eq_nil_iff] at hn
    apply List.map_congr_left
    intro x hx
    exact (chunkJob_honest hE x.1 x.2).2 (hn _ (List.mem_map_of_mem hx))

theorem reports_flushImplV2 (hE : Honest env) (h : flushImplV2 env cfg st = .ok st') :
    Reports st st' (flushImplV2 (perfect env) cfg st = .ok st') := by
  unfold flushImplV2 at h ⊢
  obtain ⟨u, hu, h⟩ := Res.bind_eq_ok.1 h
  rw [hu]
  simp only [Res.bind_ok]
  split at h
  · simp at h
  · rename_i s1 hs
    obtain ⟨hs', he⟩ := makeDataSinks_perfect hs
    rw [hs']
    dsimp only
    obtain ⟨u', hu', h⟩ := Res.bind_eq_ok.1 h
    rw [hu']
    simp only [Res.bind_ok]
    obtain ⟨c1, c2⟩ := chunkJobs_honest hE (s1.dataSinks.zip s1.bufs)
    cases h
    refine ⟨_, by dsimp only; rw [he], c1, fun hn => ?_⟩
    have := c2 hn
    dsimp only at this ⊢
    rw [this]
    rfl

theorem finalizeSinks_perfect {ps : List Text} {evs : List Ev} (h : finalizeSinks env ps = .ok evs) :
    finalizeSinks (perfect env) ps = .ok evs := by
  induction ps generalizing evs with
  | nil => exact h
  | cons p ps ih =>
    unfold finalizeSinks at h ⊢
    obtain ⟨u, hu, h⟩ := Res.bind_eq_ok.1 h
    obtain ⟨r, hr, h⟩ := Res.bind_eq_ok.1 h
    rw [ih hr]
    exact h

theorem rollover_perfect (h : rollover env st = .ok st') :
    rollover (perfect env) st = .ok st' ∧ st'.errors = st.errors := by
  unfold rollover at h ⊢
  obtain ⟨evs, hr, h⟩ := Res.bind_eq_ok.1 h
  rw [finalizeSinks_perfect hr]
  cases h
  exact ⟨rfl, rfl⟩

theorem writeArrayMetadata_perfect (hE : Honest env) (h : writeArrayMetadata env cfg st = .ok st') :
    writeArrayMetadata (perfect env) cfg st = .ok st' ∧ st'.errors = st.errors := by
  unfold writeArrayMetadata at h ⊢
  dsimp only at h ⊢
  obtain ⟨u, hu, h⟩ := Res.bind_eq_ok.1 h
  have : check (st.metaSink || (perfect env).makeMetaSink (arrayMetaPath cfg)) = .ok () := by
    simp [perfect, check]
  rw [this]
  simp only [Res.bind_ok]
  obtain ⟨n, hn, h⟩ := Res.bind_eq_ok.1 h
  have hn' : (if st.metaSink then st else { st with metaSink := true, trace := st.trace ++ [.opened (arrayMetaPath cfg)] }).errors
      = st.errors := by split <;> rfl
  generalize (if st.metaSink then st else { st with metaSink := true, trace := st.trace ++ [.opened (arrayMetaPath cfg)] }) = s1
    at h hn hn' ⊢
  rw [hn]
  simp only [Res.bind_ok]
  split at h
  · cases h
    exact ⟨rfl, hn'⟩
  · rename_i hw; exact absurd hw (hE _ _ _)
  · cases h
  · cases h

theorem reports_flush (hv : cfg.version = .v2) (hE : Honest env) (h : flush env cfg st = .ok st') :
    Reports st st' (flush (perfect env) cfg st = .ok st') := by
  rw [flush_seq] at h ⊢
  by_cases hb : st.bytesToFlush = 0
  · rw [if_pos hb] at h ⊢
    cases h
    exact .quiet rfl rfl
  · rw [if_neg hb] at h ⊢
    obtain ⟨s2, h2, h⟩ := Res.bind_eq_ok.1 h
    obtain ⟨roll, hr, h⟩ := Res.bind_eq_ok.1 h
    obtain ⟨s3, h3, h⟩ := Res.bind_eq_ok.1 h
    obtain ⟨s4, h4, h⟩ := Res.bind_eq_ok.1 h
    cases h
    have r1 := reports_compress (env := env) (cfg := cfg) (st := st)
    have r2 : Reports (compressBuffers env cfg st) s2
        (flushImpl (perfect env) cfg (compressBuffers env cfg st) = .ok s2) := by
      simp only [flushImpl, hv] at h2 ⊢
      exact reports_flushImplV2 hE h2
    have r3 : (if roll = true then rollover (perfect env) s2 else .ok s2) = .ok s3 ∧ s3.errors = s2.errors := by
      split at h3
      · exact (by simpa [*] using rollover_perfect h3)
      · cases h3; simp [*]
    have r4 : (if (roll || s3.finalizing) = true then writeArrayMetadata (perfect env) cfg s3 else .ok s3) = .ok s4 ∧
        s4.errors = s3.errors := by
      split at h4
      · rename_i hc
        rw [if_pos hc]
        exact writeArrayMetadata_perfect hE h4
      · rename_i hc
        rw [if_neg hc]
        cases h4
        exact ⟨rfl, rfl⟩
    refine (r1.trans r2 And.intro).trans (.quiet (P := True) (r4.2.trans r3.2) trivial) ?_
    rintro ⟨p1, p2⟩ -
    rw [p1, p2, Res.bind_ok, hr, Res.bind_ok, r3.1, Res.bind_ok, r4.1, Res.bind_ok]
    rfl

theorem reports_writeFrame (hv : cfg.version = .v2) (hE : Honest env) {data : Bytes} {n : Nat}
    (h : writeFrame env cfg data st = .ok (st', n)) :
    Reports st st' (writeFrame (perfect env) cfg data st = .ok (st', n)) := by
  rw [writeFrame_seq] at h ⊢
  split at h
  · rename_i hc
    rw [if_pos hc]
    cases h
    exact .quiet rfl rfl
  · rename_i hc
    rw [if_neg hc]
    dsimp only at h ⊢
    have e0 : (if st.bufs.isEmpty then { st with bufs := makeBuffers cfg.dims } else st).errors = st.errors := by
      split <;> rfl
    generalize (if st.bufs.isEmpty then { st with bufs := makeBuffers cfg.dims } else st) = s0 at h e0 ⊢
    obtain ⟨r, h1, h⟩ := Res.bind_eq_ok.1 h
    obtain ⟨u, h2, h⟩ := Res.bind_eq_ok.1 h
    obtain ⟨fl, h3, h⟩ := Res.bind_eq_ok.1 h
    obtain ⟨s2, h4, h⟩ := Res.bind_eq_ok.1 h
    rw [h1, Res.bind_ok, h2, Res.bind_ok, h3, Res.bind_ok]
    cases h
    cases fl with
    | false =>
      simp only [Bool.false_eq_true, if_false] at h4 ⊢
      cases h4
      exact .quiet e0 rfl
    | true =>
      simp only [if_true] at h4 ⊢
      obtain ⟨ms, e, hn, hp⟩ := reports_flush hv hE h4
      refine ⟨ms, by rw [e, ← e0], hn, fun hz => ?_⟩
      rw [hp hz, Res.bind_ok]
      rfl

theorem writerStep_honest (hE : Honest env) {lv lv' : Level} (hv : lv.cfg.version = .v2) {data : Bytes} {n : Nat}
    {evs : List Ev} {errs : List Text} (h : writerStep env lv data = .ok (lv', n, evs, errs)) :
    (∀ m ∈ errs, m ≠ []) ∧ (errs = [] → writerStep (perfect env) lv data = .ok (lv', n, evs, errs)) ∧
      lv'.cfg = lv.cfg := by
  unfold writerStep at h ⊢
  obtain ⟨⟨s, k⟩, h1, h⟩ := Res.bind_eq_ok.1 h
  cases h
  obtain ⟨ms, e, hn, hp⟩ := reports_writeFrame hv hE h1
  dsimp only
  rw [e, List.drop_left]
  refine ⟨hn, fun hz => ?_, rfl⟩
  rw [hp hz, Res.bind_ok]
  dsimp only
  rw [e, List.drop_left]
  rfl

theorem pyramidLoop_honest (hE : Honest env) {t : DType} {lvs lvs' : List Level} (hv : ∀ lv ∈ lvs, lv.cfg.version = .v2)
    {data : Bytes} {w h : Nat} {evs : List Ev} {errs : List Text}
    (hl : pyramidLoop env t lvs data w h = .ok (lvs', evs, errs)) :
    (∀ m ∈ errs, m ≠ []) ∧ (errs = [] → pyramidLoop (perfect env) t lvs data w h = .ok (lvs', evs, errs)) := by
  induction lvs generalizing lvs' data w h evs errs with
  | nil =>
    unfold pyramidLoop at hl ⊢
    cases hl
    simp
  | cons lv rest ih =>
    unfold pyramidLoop at hl ⊢
    obtain ⟨sc, hs, hl⟩ := Res.bind_eq_ok.1 hl
    rw [hs, Res.bind_ok]
    cases hsv : lv.saved with
    | none =>
      rw [hsv] at hl
      cases hl
      simp
    | some px =>
      rw [hsv] at hl
      dsimp only at hl ⊢
      obtain ⟨⟨l1, n, e1, m1⟩, h1, hl⟩ := Res.bind_eq_ok.1 hl
      obtain ⟨u, h2, hl⟩ := Res.bind_eq_ok.1 hl
      obtain ⟨⟨r2, e2, m2⟩, h3, hl⟩ := Res.bind_eq_ok.1 hl
      cases hl
      obtain ⟨a1, a2, a3⟩ := writerStep_honest hE (by exact hv lv (by simp)) h1
      obtain ⟨b1, b2⟩ := ih (fun l hl => hv l (by simp [hl])) h3
      constructor
      · intro m hm
        rcases List.mem_append.1 hm with hm | hm
        · exact a1 m hm
        · exact b1 m hm
      · intro hz
        obtain ⟨z1, z2⟩ := List.append_eq_nil_iff.1 hz
        rw [a2 z1, Res.bind_ok]
        dsimp only
        dsimp only at h2
        rw [h2, Res.bind_ok, b2 z2, Res.bind_ok]
        rfl

theorem setErrors_nil {err : Text} {ms : List Text} (hm : ∀ m ∈ ms, m ≠ []) (h : setErrors err ms = []) :
    err = [] ∧ ms = [] := by
  unfold setErrors at h
  induction ms generalizing err with
  | nil => exact ⟨h, rfl⟩
  | cons m ms ih =>
    have := (ih (fun x hx => hm x (by simp [hx])) h).1
    exact absurd this (hm m (by simp))

variable {s s' : SState}

/-- All levels write version 2. -/
def AllV2 (s : SState) : Prop := ∀ lv ∈ s.levels, lv.cfg.version = .v2

theorem AllV2.keeps (h : AllV2 s) (k : Keeps s s') : AllV2 s' := by
  intro lv hl
  have : lv.cfg ∈ s'.levels.map (·.cfg) := List.mem_map_of_mem hl
  rw [k.cfgs] at this
  obtain ⟨l2, h2, e⟩ := List.mem_map.1 this
  rw [← e]
  exact h l2 h2

theorem writeLevel0_honest (hE : Honest env) (hv : AllV2 s) {data : Bytes} {k : Nat}
    (h : writeLevel0 env s data = .ok (s', k)) (he : s'.error = []) :
    s.error = [] ∧ writeLevel0 (perfect env) s data = .ok (s', k) := by
  unfold writeLevel0 at h ⊢
  cases hl : s.levels with
  | nil => rw [hl] at h; cases h
  | cons l0 rest =>
    rw [hl] at h
    dsimp only at h ⊢
    obtain ⟨⟨l1, n, e1, m1⟩, h1, h⟩ := Res.bind_eq_ok.1 h
    cases h
    obtain ⟨a1, a2, a3⟩ := writerStep_honest hE (hv l0 (by simp [hl])) h1
    obtain ⟨z1, z2⟩ := setErrors_nil a1 he
    refine ⟨z1, ?_⟩
    rw [a2 z2, Res.bind_ok]
    rfl

theorem writeMultiscale_honest (hE : Honest env) (hv : AllV2 s) {data : Bytes}
    (h : writeMultiscale env s data = .ok s') (he : s'.error = []) :
    s.error = [] ∧ writeMultiscale (perfect env) s data = .ok s' := by
  unfold writeMultiscale at h ⊢
  split at h
  · rename_i hc
    rw [if_pos hc]
    cases h
    exact ⟨he, rfl⟩
  · rename_i hc
    rw [if_neg hc]
    cases hl : s.levels with
    | nil =>
      rw [hl] at h
      cases h
      exact ⟨he, rfl⟩
    | cons l0 rest =>
      rw [hl] at h
      dsimp only at h ⊢
      obtain ⟨⟨l1, e1, m1⟩, h1, h⟩ := Res.bind_eq_ok.1 h
      cases h
      obtain ⟨a1, a2⟩ := pyramidLoop_honest hE (fun l hm => hv l (by simp [hl, hm])) h1
      obtain ⟨z1, z2⟩ := setErrors_nil a1 he
      refine ⟨z1, ?_⟩
      rw [a2 z2, Res.bind_ok]
      rfl

theorem appendLoop_honest (hE : Honest env) (data : Bytes) (fuel : Nat) {ptr bw n : Nat} (hv : AllV2 s)
    (h : appendLoop env data fuel ptr bw s = some (.ok (s', n))) (he : s'.error = []) :
    s.error = [] ∧ appendLoop (perfect env) data fuel ptr bw s = some (.ok (s', n)) := by
  induction fuel generalizing ptr bw s with
  | zero =>
    unfold appendLoop at h ⊢
    split at h
    · rename_i hc
      rw [if_pos hc]
      cases h
      exact ⟨he, rfl⟩
    · simp at h
  | succ fuel ih =>
    unfold appendLoop at h ⊢
    by_cases hb : bw ≥ data.length
    · rw [if_pos hb] at h ⊢
      cases h
      exact ⟨he, rfl⟩
    · rw [if_neg hb] at h ⊢
      dsimp only at h ⊢
      by_cases ho : s.offset > 0
      · rw [if_pos ho] at h ⊢
        split at h
        · simp at h
        · rename_i c1
          rw [if_neg c1]
          split at h
          · rename_i c2
            rw [if_pos c2]
            split at h
            · simp at h
            · rename_i c3
              rw [if_neg c3]
              split at h
              · simp at h
              · simp at h
              · rename_i s2 k hw
                by_cases hk : k = 0
                · rw [if_pos hk] at h
                  cases h
                  obtain ⟨z1, z2⟩ := writeLevel0_honest hE (by exact hv) hw he
                  rw [z2]
                  dsimp only
                  rw [if_pos hk]
                  exact ⟨z1, rfl⟩
                · rw [if_neg hk] at h
                  have hv2 : AllV2 s2 := AllV2.keeps (by exact hv) (writeLevel0_keeps hw)
                  obtain ⟨y1, y2⟩ := ih (by exact hv2) h
                  obtain ⟨z1, z2⟩ := writeLevel0_honest hE (by exact hv) hw y1
                  rw [z2]
                  dsimp only
                  rw [if_neg hk]
                  exact ⟨z1, y2⟩
          · rename_i c2
            rw [if_neg c2]
            obtain ⟨y1, y2⟩ := ih (by exact hv) h
            exact ⟨y1, y2⟩
      · rw [if_neg ho] at h ⊢
        split at h
        · rename_i c1
          rw [if_pos c1]
          split at h
          · simp at h
          · rename_i c2
            rw [if_neg c2]
            obtain ⟨y1, y2⟩ := ih (by exact hv) h
            exact ⟨y1, y2⟩
        · rename_i c1
          rw [if_neg c1]
          split at h
          · simp at h
          · rename_i c2
            rw [if_neg c2]
            split at h
            · simp at h
            · simp at h
            · rename_i s2 k hw
              by_cases hk : k = 0
              · rw [if_pos hk] at h
                cases h
                obtain ⟨z1, z2⟩ := writeLevel0_honest hE (by exact hv) hw he
                rw [z2]
                dsimp only
                rw [if_pos hk]
                exact ⟨z1, rfl⟩
              · rw [if_neg hk] at h
                have hv2 : AllV2 s2 := AllV2.keeps (by exact hv) (writeLevel0_keeps hw)
                split at h
                · simp at h
                · simp at h
                · rename_i s3 hm
                  have hv3 : AllV2 s3 := AllV2.keeps hv2 (writeMultiscale_keeps hm)
                  obtain ⟨y1, y2⟩ := ih hv3 h
                  obtain ⟨x1, x2⟩ := writeMultiscale_honest hE hv2 hm y1
                  obtain ⟨z1, z2⟩ := writeLevel0_honest hE (by exact hv) hw x1
                  rw [z2]
                  dsimp only
                  rw [if_neg hk, x2]
                  exact ⟨z1, y2⟩

theorem append_honest (hE : Honest env) {data : Bytes} {fuel n : Nat} (hv : AllV2 s)
    (h : append env fuel data s = some (.ok (s', n))) (he : s'.error = []) :
    s.error = [] ∧ append (perfect env) fuel data s = some (.ok (s', n)) := by
  unfold append at h ⊢
  split at h
  · simp at h
  · rename_i hc
    rw [if_neg hc]
    exact appendLoop_honest hE data fuel hv h he

end AZ
