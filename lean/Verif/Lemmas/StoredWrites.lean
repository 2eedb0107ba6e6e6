import Verif.Lemmas.Honest

set_option linter.unusedSimpArgs false

/-! # The history contains only writes that the storage performed -/

namespace AZ

/-- Every write in the history was performed. -/
def AllStored (env : Env) (evs : List Ev) : Prop := ∀ p off data, Ev.wrote p off data ∈ evs → env.write p off data = .stored

theorem AllStored.append {env : Env} {a b : List Ev} (ha : AllStored env a) (hb : AllStored env b) : AllStored env (a ++ b) := by
  intro p o d h
  rcases List.mem_append.1 h with h | h
  · exact ha p o d h
  · exact hb p o d h

theorem AllStored.map {env : Env} {ps : List Text} {f : Text → Ev} (hf : ∀ p q o d, f p ≠ .wrote q o d) :
    AllStored env (ps.map f) := by
  intro p o d h
  obtain ⟨q, _, hq⟩ := List.mem_map.1 h
  exact absurd hq (hf _ _ _ _)

theorem AllStored.one {env : Env} {p : Text} {o : Nat} {d : Bytes} (h : env.write p o d = .stored) :
    AllStored env [.wrote p o d] := by
  intro p' o' d' h'
  simp only [List.mem_singleton, Ev.wrote.injEq] at h'
  obtain ⟨rfl, rfl, rfl⟩ := h'
  exact h

theorem AllStored.nil {env : Env} : AllStored env [] := by intro p o d h; simp at h

theorem AllStored.drop {env : Env} {evs : List Ev} (h : AllStored env evs) (n : Nat) : AllStored env (evs.drop n) :=
  fun p o d hm => h p o d (List.mem_of_mem_drop hm)

variable {env : Env} {cfg : WConfig} {st st' : WState}

theorem stored_makeDataSinks (hs : AllStored env st.trace) (h : makeDataSinks env cfg st = some st') :
    AllStored env st'.trace := by
  unfold makeDataSinks at h
  split at h
  · simp at h
  · split at h
    · cases h
      exact hs.append (.map (by simp))
    · simp at h

theorem stored_chunkJob (p : Text) (b : Bytes) : AllStored env (chunkJob env p b).1 := by
  unfold chunkJob
  cases hw : env.write p 0 b with
  | stored => exact .one hw
  | silent => exact .nil
  | failed => exact .nil
  | threw => exact .nil

theorem stored_flushImplV2 (hs : AllStored env st.trace) (h : flushImplV2 env cfg st = .ok st') :
    AllStored env st'.trace := by
  unfold flushImplV2 at h
  obtain ⟨u, hu, h⟩ := Res.bind_eq_ok.1 h
  split at h
  · simp at h
  · rename_i s1 hm
    obtain ⟨u', hu', h⟩ := Res.bind_eq_ok.1 h
    cases h
    refine (stored_makeDataSinks hs hm).append ?_
    intro p o d hm
    obtain ⟨r, hr, hm⟩ := List.mem_flatMap.1 hm
    obtain ⟨x, _, rfl⟩ := List.mem_map.1 hr
    exact stored_chunkJob _ _ p o d hm

theorem stored_shardLoop {D : ArrayDims} {p : Text} {bufs : List Bytes} (cs : List Nat) (j : ShardJob)
    (hj : AllStored env j.trace) : AllStored env (shardLoop env D p bufs cs j).trace := by
  induction cs generalizing j with
  | nil => exact hj
  | cons ci cs ih =>
    rw [shardLoop]
    split
    · exact hj
    · rename_i chunk _
      cases hw : env.write p j.offset chunk with
      | threw => exact hj
      | failed => exact hj
      | stored =>
        dsimp only
        rw [if_pos rfl]
        split
        · exact ih _ (hj.append (.one hw))
        · exact hj.append (.one hw)
      | silent =>
        dsimp only
        simp only [reduceCtorEq, ↓reduceIte]
        split
        · exact ih _ (hj.append .nil)
        · exact hj.append .nil

theorem stored_shardJob {D : ArrayDims} {p : Text} {bufs : List Bytes} {cs : List Nat} {table : List Nat} {offset : Nat}
    {wt : Bool} : AllStored env (shardJob env D p bufs cs table offset wt).trace := by
  unfold shardJob
  have h0 := stored_shardLoop (env := env) (D := D) (p := p) (bufs := bufs) cs ⟨table, offset, false, false, [], []⟩ .nil
  dsimp only
  split
  · split
    · exact h0
    · exact h0
    · rename_i hw
      exact h0.append (.one hw)
    · exact h0
  · exact h0

theorem stored_flushImplV3 (hs : AllStored env st.trace) (h : flushImplV3 env cfg st = .ok st') :
    AllStored env st'.trace := by
  unfold flushImplV3 at h
  dsimp only at h
  split at h
  · simp at h
  · rename_i st1 hm
    have h1 : AllStored env st1.trace := by
      split at hm
      · exact stored_makeDataSinks hs hm
      · cases hm; exact hs
    obtain ⟨_, hlen, h⟩ := Res.bind_eq_ok.1 h
    split at h
    · simp at h
    · obtain ⟨roll, _, h⟩ := Res.bind_eq_ok.1 h
      obtain ⟨_, _, h⟩ := Res.bind_eq_ok.1 h
      cases h
      refine h1.append ?_
      intro p o d hm
      obtain ⟨r, hr, hm⟩ := List.mem_flatMap.1 hm
      obtain ⟨x, _, rfl⟩ := List.mem_map.1 hr
      exact stored_shardJob p o d hm

theorem stored_rollover (hs : AllStored env st.trace) (h : rollover env st = .ok st') : AllStored env st'.trace := by
  unfold rollover at h
  obtain ⟨evs, he, h⟩ := Res.bind_eq_ok.1 h
  cases h
  refine hs.append ?_
  rw [finalizeSinks_paths he]
  exact .map (by simp)

theorem stored_writeArrayMetadata (hs : AllStored env st.trace) (h : writeArrayMetadata env cfg st = .ok st') :
    AllStored env st'.trace := by
  unfold writeArrayMetadata at h
  dsimp only at h
  obtain ⟨_, _, h⟩ := Res.bind_eq_ok.1 h
  obtain ⟨n, _, h⟩ := Res.bind_eq_ok.1 h
  have h1 : AllStored env (if st.metaSink then st else
      { st with metaSink := true, trace := st.trace ++ [.opened (arrayMetaPath cfg)] }).trace := by
    split
    · exact hs
    · exact hs.append (AllStored.map (ps := [arrayMetaPath cfg]) (f := .opened) (by simp))
  generalize (if st.metaSink then st else
      { st with metaSink := true, trace := st.trace ++ [.opened (arrayMetaPath cfg)] }) = s1 at *
  split at h
  · rename_i hw
    cases h
    exact h1.append (.one hw)
  · cases h; exact h1
  · simp at h
  · simp at h

theorem stored_flush (hs : AllStored env st.trace) (h : flush env cfg st = .ok st') : AllStored env st'.trace := by
  rw [flush_seq] at h
  split at h
  · cases h; exact hs
  · obtain ⟨s2, h2, h⟩ := Res.bind_eq_ok.1 h
    obtain ⟨roll, hr, h⟩ := Res.bind_eq_ok.1 h
    obtain ⟨s3, h3, h⟩ := Res.bind_eq_ok.1 h
    obtain ⟨s4, h4, h⟩ := Res.bind_eq_ok.1 h
    cases h
    have hc : AllStored env (compressBuffers env cfg st).trace := by
      unfold compressBuffers
      split <;> exact hs
    have k2 : AllStored env s2.trace := by
      unfold flushImpl at h2
      split at h2
      · exact stored_flushImplV2 hc h2
      · exact stored_flushImplV3 hc h2
    have k3 : AllStored env s3.trace := by
      split at h3
      · exact stored_rollover k2 h3
      · cases h3; exact k2
    show AllStored env s4.trace
    split at h4
    · exact stored_writeArrayMetadata k3 h4
    · cases h4; exact k3

theorem stored_writeFrame (hs : AllStored env st.trace) {data : Bytes} {n : Nat}
    (h : writeFrame env cfg data st = .ok (st', n)) : AllStored env st'.trace := by
  rw [writeFrame_seq] at h
  split at h
  · cases h; exact hs
  · dsimp only at h
    have e0 : (if st.bufs.isEmpty then { st with bufs := makeBuffers cfg.dims } else st).trace = st.trace := by
      split <;> rfl
    generalize (if st.bufs.isEmpty then { st with bufs := makeBuffers cfg.dims } else st) = s0 at h e0
    obtain ⟨r, h1, h⟩ := Res.bind_eq_ok.1 h
    obtain ⟨u, h2, h⟩ := Res.bind_eq_ok.1 h
    obtain ⟨fl, h3, h⟩ := Res.bind_eq_ok.1 h
    obtain ⟨s2, h4, h⟩ := Res.bind_eq_ok.1 h
    cases h
    split at h4
    · exact stored_flush (by rw [← e0] at hs; exact hs) h4
    · cases h4
      rw [← e0] at hs; exact hs

theorem stored_finalizeArray (hs : AllStored env st.trace) (h : finalizeArray env cfg st = .ok st') :
    AllStored env st'.trace := by
  rw [finalizeArray_seq] at h
  obtain ⟨s1, h1, h⟩ := Res.bind_eq_ok.1 h
  obtain ⟨s2, h2, h⟩ := Res.bind_eq_ok.1 h
  cases h
  have k1 : AllStored env s1.trace := stored_flush (by exact hs) h1
  refine AllStored.append (?_ : AllStored env s2.trace) (.map (by simp))
  split at h2
  · obtain ⟨_, _, h2⟩ := Res.bind_eq_ok.1 h2
    cases h2
    exact k1.append (AllStored.map (ps := [arrayMetaPath cfg]) (f := .finalized) (by simp))
  · cases h2; exact k1

/-- All histories of the stream. -/
structure StreamStored (env : Env) (s : SState) : Prop where
  trace : AllStored env s.trace
  levels : ∀ lv ∈ s.levels, AllStored env lv.st.trace

theorem stored_pyramidLoop {t : DType} {lvs lvs' : List Level} (hv : ∀ lv ∈ lvs, AllStored env lv.st.trace)
    {data : Bytes} {w h : Nat} {evs : List Ev} {errs : List Text}
    (hl : pyramidLoop env t lvs data w h = .ok (lvs', evs, errs)) :
    AllStored env evs ∧ ∀ lv ∈ lvs', AllStored env lv.st.trace := by
  induction lvs generalizing lvs' data w h evs errs with
  | nil =>
    unfold pyramidLoop at hl
    cases hl
    exact ⟨.nil, hv⟩
  | cons lv rest ih =>
    unfold pyramidLoop at hl
    obtain ⟨sc, hs, hl⟩ := Res.bind_eq_ok.1 hl
    cases hsv : lv.saved with
    | none =>
      rw [hsv] at hl
      cases hl
      refine ⟨.nil, ?_⟩
      intro l hm
      rcases List.mem_cons.1 hm with rfl | hm
      · exact hv lv (by simp)
      · exact hv l (by simp [hm])
    | some px =>
      rw [hsv] at hl
      dsimp only at hl
      obtain ⟨⟨l1, n, e1, m1⟩, h1, hl⟩ := Res.bind_eq_ok.1 hl
      obtain ⟨u, h2, hl⟩ := Res.bind_eq_ok.1 hl
      obtain ⟨⟨r2, e2, m2⟩, h3, hl⟩ := Res.bind_eq_ok.1 hl
      cases hl
      obtain ⟨_, _, w3, w4, _⟩ := writerStep_spec h1
      have k1 := stored_writeFrame (hv lv (by simp)) w3
      obtain ⟨b1, b2⟩ := ih (fun l hl => hv l (by simp [hl])) h3
      refine ⟨AllStored.append (by rw [w4]; exact k1.drop _) b1, ?_⟩
      intro l hm
      rcases List.mem_cons.1 hm with rfl | hm
      · exact k1
      · exact b2 l hm

variable {s s' : SState}

theorem stored_writeLevel0 (hs : StreamStored env s) {data : Bytes} {k : Nat} (h : writeLevel0 env s data = .ok (s', k)) :
    StreamStored env s' := by
  unfold writeLevel0 at h
  split at h
  · simp at h
  · rename_i l0 rest hl
    obtain ⟨⟨l0', n, evs, errs⟩, h1, h⟩ := Res.bind_eq_ok.1 h
    cases h
    obtain ⟨_, _, w3, w4, _⟩ := writerStep_spec h1
    have k1 := stored_writeFrame (hs.levels l0 (by simp [hl])) w3
    refine ⟨hs.trace.append (by rw [w4]; exact k1.drop _), ?_⟩
    intro l hm
    rcases List.mem_cons.1 hm with rfl | hm
    · exact k1
    · exact hs.levels l (by simp [hl, hm])

theorem stored_writeMultiscale (hs : StreamStored env s) {data : Bytes} (h : writeMultiscale env s data = .ok s') :
    StreamStored env s' := by
  unfold writeMultiscale at h
  split at h
  · cases h; exact hs
  · split at h
    · cases h; exact hs
    · rename_i l0 rest hl
      obtain ⟨⟨rest', evs, errs⟩, h1, h⟩ := Res.bind_eq_ok.1 h
      cases h
      obtain ⟨a1, a2⟩ := stored_pyramidLoop (fun l hm => hs.levels l (by simp [hl, hm])) h1
      refine ⟨hs.trace.append a1, ?_⟩
      intro l hm
      rcases List.mem_cons.1 hm with rfl | hm
      · exact hs.levels l (by simp [hl])
      · exact a2 l hm

theorem stored_appendLoop (data : Bytes) (fuel : Nat) {ptr bw n : Nat} (hs : StreamStored env s)
    (h : appendLoop env data fuel ptr bw s = some (.ok (s', n))) : StreamStored env s' := by
  induction fuel generalizing ptr bw s with
  | zero =>
    unfold appendLoop at h
    split at h
    · cases h; exact hs
    · simp at h
  | succ fuel ih =>
    unfold appendLoop at h
    split at h
    · cases h; exact hs
    · dsimp only at h
      split at h
      · split at h
        · simp at h
        · split at h
          · split at h
            · simp at h
            · split at h
              · simp at h
              · simp at h
              · rename_i s2 k hw
                have k2 := stored_writeLevel0 (by exact ⟨hs.trace, hs.levels⟩) hw
                split at h
                · cases h; exact k2
                · exact ih (by exact ⟨k2.trace, k2.levels⟩) h
          · exact ih (by exact ⟨hs.trace, hs.levels⟩) h
      · split at h
        · split at h
          · simp at h
          · exact ih (by exact ⟨hs.trace, hs.levels⟩) h
        · split at h
          · simp at h
          · split at h
            · simp at h
            · simp at h
            · rename_i s2 k hw
              have k2 := stored_writeLevel0 hs hw
              split at h
              · cases h; exact k2
              · split at h
                · simp at h
                · simp at h
                · rename_i s3 hm
                  exact ih (stored_writeMultiscale k2 hm) h

theorem appendLoop_cfgs (data : Bytes) (fuel : Nat) {ptr bw n : Nat}
    (h : appendLoop env data fuel ptr bw s = some (.ok (s', n))) : s'.levels.map (·.cfg) = s.levels.map (·.cfg) := by
  induction fuel generalizing ptr bw s with
  | zero =>
    unfold appendLoop at h
    split at h
    · cases h; rfl
    · simp at h
  | succ fuel ih =>
    unfold appendLoop at h
    split at h
    · cases h; rfl
    · dsimp only at h
      split at h
      · split at h
        · simp at h
        · split at h
          · split at h
            · simp at h
            · split at h
              · simp at h
              · simp at h
              · rename_i s2 k hw
                have k2 := (writeLevel0_keeps hw).cfgs
                split at h
                · cases h; exact k2
                · exact (ih h).trans k2
          · have := ih h; exact this
      · split at h
        · split at h
          · simp at h
          · have := ih h; exact this
        · split at h
          · simp at h
          · split at h
            · simp at h
            · simp at h
            · rename_i s2 k hw
              have k2 := (writeLevel0_keeps hw).cfgs
              split at h
              · cases h; exact k2
              · split at h
                · simp at h
                · simp at h
                · rename_i s3 hm
                  exact (ih h).trans ((writeMultiscale_keeps hm).cfgs.trans k2)

theorem append_cfgs {data : Bytes} {fuel n : Nat} (h : append env fuel data s = some (.ok (s', n))) :
    s'.levels.map (·.cfg) = s.levels.map (·.cfg) := by
  unfold append at h
  split at h
  · simp at h
  · exact appendLoop_cfgs data fuel h

theorem stored_append {data : Bytes} {fuel n : Nat} (hs : StreamStored env s)
    (h : append env fuel data s = some (.ok (s', n))) : StreamStored env s' := by
  unfold append at h
  split at h
  · simp at h
  · exact stored_appendLoop data fuel hs h

theorem stored_appends {calls : List Bytes} {ns : List Nat} (hs : StreamStored env s)
    (h : appends env calls s = .ok (s', ns)) : StreamStored env s' := by
  induction calls generalizing s ns with
  | nil => cases h; exact hs
  | cons d ds ih =>
    unfold appends at h
    split at h
    · simp at h
    · simp at h
    · simp at h
    · rename_i s1 n h1
      obtain ⟨⟨s2, ns2⟩, h2, h⟩ := Res.bind_eq_ok.1 h
      cases h
      exact ih (stored_append hs h1) h2

theorem stored_writeDoc {p : Text} {doc : Bytes} {evs : List Ev} (h : writeDoc env p doc = .ok evs) : AllStored env evs := by
  unfold writeDoc at h
  split at h
  · rename_i hw
    cases h
    exact .one hw
  · cases h; exact .nil
  · cases h
  · cases h

end AZ
