import Verif.Lemmas.Thinned

set_option linter.unusedSimpArgs false
set_option linter.unusedVariables false

/-! # Destroy on storage that fails, compared with perfect storage -/

namespace AZ
open Exc

variable {env : Env} {cfg : WConfig} {a a' b b' : WState}

/-- `w` did the beginning of what took `b` to `b'`, with some writes missing. -/
def MovesCut (a : WState) (w : XW) (b b' : WState) : Prop :=
  ∃ e e', w.st.trace = a.trace ++ e ∧ b'.trace = b.trace ++ e' ∧ Cut e e'

theorem Moves.then {a a1 b b1 b' : WState} {w : XW} (h : Moves a a1 b b1) (h' : MovesCut a1 w b1 b') : MovesCut a w b b' := by
  obtain ⟨_, e, e', h1, h2, h3⟩ := h
  obtain ⟨f, f', k1, k2, k3⟩ := h'
  exact ⟨e ++ f, e' ++ f', by rw [k1, h1, List.append_assoc], by rw [k2, h2, List.append_assoc], h3.cut_append k3⟩

/-- `b'` continues the history of `b`. -/
def Grows (b b' : WState) : Prop := ∃ e, b'.trace = b.trace ++ e

theorem Grows.refl (b : WState) : Grows b b := ⟨[], by simp⟩

theorem Grows.trans {a b c : WState} (h : Grows a b) (h' : Grows b c) : Grows a c := by
  obtain ⟨e, h⟩ := h
  obtain ⟨f, h'⟩ := h'
  exact ⟨e ++ f, by rw [h', h, List.append_assoc]⟩

theorem Moves.grows {a a' b b' : WState} (h : Moves a a' b b') : Grows b b' := by
  obtain ⟨_, _, e', _, h2, _⟩ := h
  exact ⟨e', h2⟩

theorem MovesCut.grows {a b b1 b' : WState} {w : XW} (h : MovesCut a w b b1) (hg : Grows b1 b') : MovesCut a w b b' := by
  obtain ⟨e, e', h1, h2, h3⟩ := h
  obtain ⟨f, h⟩ := hg
  exact ⟨e, e' ++ f, h1, by rw [h, h2, List.append_assoc], h3.right⟩

theorem MovesCut.stay {a b b' : WState} {w : XW} (h : w.st.trace = a.trace) (hg : Grows b b') : MovesCut a w b b' := by
  obtain ⟨e, hg⟩ := hg
  exact ⟨[], e, by simp [h], hg, [], List.nil_prefix, .nil⟩

theorem grows_flushImpl (hV : OneLayer cfg) (hdue : Due cfg b) (h : AZ.flushImpl (perfect env) cfg b = .ok b') : Grows b b' := by
  obtain ⟨b'', k, m⟩ := thin_flushImpl (env := perfect env) hV hdue h (Twin.refl b)
  have : perfect (perfect env) = perfect env := rfl
  rw [this, h] at k
  cases k
  exact m.grows

theorem grows_rollover (h : rollover (perfect env) b = .ok b') : Grows b b' := by
  obtain ⟨b'', k, m⟩ := thin_rollover (env := perfect env) h (Twin.refl b)
  have : perfect (perfect env) = perfect env := rfl
  rw [this, h] at k
  cases k
  exact m.grows

theorem grows_meta (h : writeArrayMetadata (perfect env) cfg b = .ok b') : Grows b b' := by
  obtain ⟨b'', k, m⟩ := thin_meta (env := perfect env) h (Twin.refl b)
  have : perfect (perfect env) = perfect env := rfl
  rw [this, h] at k
  cases k
  exact m.grows

theorem out_of_throw {σ : Type} {r : Res σ} {t w : σ} (h : Out.of r t = .throw w) : w = t := by
  unfold Out.of at h
  cases r with
  | ok s => simp at h
  | throw => simp only [Out.throw.injEq] at h; exact h.symm
  | ub => simp at h

theorem due_twin (h : Due cfg a) (ht : Twin a b) : Due cfg b := by
  unfold Twin at ht
  rw [ht]
  exact h

/-- What opening the sinks for the flush did. -/
theorem flush_opens {s1 : WState} (hs : makeDataSinks env cfg a = some s1) (ht : Twin a b) (hc : a.dataSinks.isEmpty = true)
    (hb : AZ.flushImpl (perfect env) cfg b = .ok b') :
    ∃ (paths : List Text) (rest : List Ev), s1.trace = a.trace ++ paths.map Ev.opened ∧ b'.trace = b.trace ++ (paths.map Ev.opened ++ rest) := by
  unfold makeDataSinks at hs
  split at hs
  · simp at hs
  · rename_i paths hp
    split at hs
    · cases hs
      unfold Twin at ht
      generalize b.trace = tt at ht ⊢
      generalize b.errors = te at ht ⊢
      subst ht
      unfold AZ.flushImpl at hb
      cases hV : cfg.version with
      | v2 =>
        simp only [hV] at hb
        unfold flushImplV2 makeDataSinks at hb
        dsimp only at hb
        obtain ⟨u, hu, hb⟩ := Res.bind_eq_ok.1 hb
        simp only [hp, perfect, if_true] at hb
        obtain ⟨u', hu', hb⟩ := Res.bind_eq_ok.1 hb
        cases hb
        exact ⟨paths, _, rfl, List.append_assoc ..⟩
      | v3 =>
        simp only [hV] at hb
        unfold flushImplV3 makeDataSinks at hb
        dsimp only at hb
        simp only [hc, hp, perfect, if_true] at hb
        obtain ⟨u, hu, hb⟩ := Res.bind_eq_ok.1 hb
        split at hb
        · cases hb
        · obtain ⟨roll, hr, hb⟩ := Res.bind_eq_ok.1 hb
          obtain ⟨u', hu', hb⟩ := Res.bind_eq_ok.1 hb
          cases hb
          exact ⟨paths, _, rfl, List.append_assoc ..⟩
    · simp at hs

theorem flushImpl_throw {w0 w : XW} (h : Exc.flushImpl env cfg w0 = .throw w) :
    w = (if (!w0.st.dataSinks.isEmpty) = true then w0 else match makeDataSinks env cfg w0.st with
      | none => w0
      | some s => ⟨s, 0⟩) := by
  unfold Exc.flushImpl at h
  split at h
  · exact out_of_throw h
  · split at h
    · cases h
    · exact out_of_throw h

theorem cut_flushImpl (hV : OneLayer cfg) (hdue : Due cfg a) {w : XW} (h : Exc.flushImpl env cfg (XW.of a) = .throw w) (ht : Twin a b)
    (hb : AZ.flushImpl (perfect env) cfg b = .ok b') : MovesCut a w b b' := by
  have hg := grows_flushImpl hV (due_twin hdue ht) hb
  have hw : w = (if (!a.dataSinks.isEmpty) = true then (⟨a, 0⟩ : XW) else match makeDataSinks env cfg a with
      | none => ⟨a, 0⟩
      | some s => ⟨s, 0⟩) := flushImpl_throw h
  clear h
  by_cases hc : (!a.dataSinks.isEmpty) = true
  · rw [if_pos hc] at hw
    subst hw; exact .stay rfl hg
  · rw [if_neg hc] at hw
    cases hs : makeDataSinks env cfg a with
    | none => rw [hs] at hw; subst hw; exact .stay rfl hg
    | some s1 =>
      rw [hs] at hw
      subst hw
      obtain ⟨paths, rest, k1, k2⟩ := flush_opens hs ht (by simpa using hc) hb
      exact ⟨paths.map Ev.opened, _, k1, k2, (Thinned.refl _).cut.right⟩

theorem cut_finalizeSinks (ps : List Text) {evs : List Ev} (h : finalizeSinks (perfect env) ps = .ok evs) :
    Cut ((ps.takeWhile env.finalize).map Ev.finalized) evs := by
  refine ⟨_, ?_, .refl _⟩
  have : evs = ps.map Ev.finalized := by
    clear * - h
    induction ps generalizing evs with
    | nil => cases h; rfl
    | cons p ps ih =>
      unfold finalizeSinks at h
      obtain ⟨u, hu, h⟩ := Res.bind_eq_ok.1 h
      obtain ⟨r, hr, h⟩ := Res.bind_eq_ok.1 h
      cases h
      rw [ih hr]
      rfl
  rw [this]
  exact (List.takeWhile_prefix _).map _

theorem cut_rollover {w : XW} (h : rolloverX env (XW.of a) = .throw w) (ht : Twin a b)
    (hb : rollover (perfect env) b = .ok b') : MovesCut a w b b' := by
  unfold rolloverX at h
  have hw := out_of_throw h
  rw [hw]
  unfold rollover at hb
  obtain ⟨evs, hr, hb⟩ := Res.bind_eq_ok.1 hb
  cases hb
  have e : b.dataSinks = a.dataSinks := by rw [ht]
  rw [e] at hr
  exact ⟨_, evs, rfl, rfl, cut_finalizeSinks _ hr⟩

theorem cut_meta {w : XW} (h : writeArrayMetadataX env cfg (XW.of a) = .throw w) (ht : Twin a b)
    (hb : writeArrayMetadata (perfect env) cfg b = .ok b') : MovesCut a w b b' := by
  have hg := grows_meta hb
  unfold writeArrayMetadataX at h
  have hw := out_of_throw h
  replace hw : w = (if (!a.metaSink && env.makeMetaSink (arrayMetaPath cfg)) = true then
      (⟨{ a with metaSink := true, trace := a.trace ++ [.opened (arrayMetaPath cfg)] }, 0⟩ : XW) else ⟨a, 0⟩) := hw
  clear h
  by_cases hc : (!a.metaSink && env.makeMetaSink (arrayMetaPath cfg)) = true
  · rw [if_pos hc] at hw
    subst hw
    simp only [Bool.and_eq_true, Bool.not_eq_true'] at hc
    have e : b.metaSink = false := by rw [ht]; exact hc.1
    unfold writeArrayMetadata at hb
    dsimp only at hb
    obtain ⟨u, hu, hb⟩ := Res.bind_eq_ok.1 hb
    simp only [e, Bool.false_eq_true, if_false] at hb
    obtain ⟨n, hn, hb⟩ := Res.bind_eq_ok.1 hb
    have hwr : (perfect env).write (arrayMetaPath cfg) 0 (metaDoc cfg n) = .stored := rfl
    rw [hwr] at hb
    cases hb
    exact ⟨[.opened (arrayMetaPath cfg)], _, rfl, List.append_assoc .., (Thinned.refl _).cut.right⟩
  · rw [if_neg hc] at hw
    subst hw; exact .stay rfl hg

theorem agree_ok_elim {τ α : Type} {lift : τ → XW} {o : Out XW α} {r : Res (τ × α)} (h : Agree lift o r) {x : α} {w : XW}
    (ho : o = .ok x w) : ∃ s, r = .ok (s, x) ∧ w = lift s := by
  subst ho
  cases r with
  | ok p => obtain ⟨s, y⟩ := p; have h : Out.ok x w = .ok y (lift s) := h; cases h; exact ⟨s, rfl, rfl⟩
  | throw => obtain ⟨w', h⟩ := h; cases h
  | ub => have h : Out.ok x w = .ub := h; cases h

theorem res_bind_unit {r : Res WState} {s : WState} (h : (r.bind fun s => .ok (s, ())) = .ok (s, ())) : r = .ok s := by
  cases r with
  | ok t => simp only [Res.bind, Res.ok.injEq, Prod.mk.injEq, and_true] at h; rw [h]
  | throw => cases h
  | ub => cases h

theorem bind_throw {σ α β : Type} {o : Out σ α} {f : α → σ → Out σ β} {w : σ} (h : o.bind f = .throw w) :
    o = .throw w ∨ ∃ x s, o = .ok x s ∧ f x s = .throw w := by
  cases o with
  | ok x s => exact .inr ⟨x, s, rfl, h⟩
  | throw s => exact .inl (by cases h; rfl)
  | ub => cases h

theorem cut_flush (hV : OneLayer cfg) (hdue : Due cfg a) {w : XW} (h : flushX env cfg (XW.of a) = .throw w) (ht : Twin a b)
    (hb : flush (perfect env) cfg b = .ok b') : MovesCut a w b b' := by
  rw [flush_seq] at hb
  have hbf : b.bytesToFlush = a.bytesToFlush := by rw [ht]
  rw [hbf] at hb
  unfold flushX at h
  by_cases hc : a.bytesToFlush = 0
  · rw [if_pos (show (XW.of a).st.bytesToFlush = 0 from hc)] at h
    cases h
  · rw [if_neg (show ¬(XW.of a).st.bytesToFlush = 0 from hc)] at h
    rw [if_neg hc] at hb
    dsimp only at h
    obtain ⟨b2, h2, hb⟩ := Res.bind_eq_ok.1 hb
    obtain ⟨roll, hr, hb⟩ := Res.bind_eq_ok.1 hb
    obtain ⟨b3, h3, hb⟩ := Res.bind_eq_ok.1 hb
    obtain ⟨b4, h4, hb⟩ := Res.bind_eq_ok.1 hb
    cases hb
    have g3 : Grows b2 b3 := by
      split at h3
      · exact grows_rollover h3
      · cases h3; exact .refl _
    have g4 : Grows b3 b4 := by
      split at h4
      · exact grows_meta h4
      · cases h4; exact .refl _
    have g5 : Grows b4 { b4 with bufs := makeBuffers cfg.dims, bytesToFlush := 0 } := ⟨[], by simp⟩
    have m1 := thin_compress (env := env) (cfg := cfg) ht
    refine m1.then ?_
    have hx : ({ XW.of a with st := compressBuffers env cfg (XW.of a).st } : XW) = XW.of (compressBuffers env cfg a) := rfl
    rw [hx] at h
    rcases bind_throw h with h | ⟨_, w2, hi, h⟩
    · exact (cut_flushImpl hV (due_compress hdue) h m1.1 h2).grows (g3.trans (g4.trans g5))
    · obtain ⟨a2, k2, rfl⟩ := agree_ok_elim (agree_flushImpl _) hi
      have k2 := res_bind_unit k2
      obtain ⟨b2', j2, m2⟩ := thin_flushImpl hV (due_compress hdue) k2 m1.1
      rw [h2] at j2
      cases j2
      refine m2.then ?_
      rw [thin_shouldRollover m2.1] at hr
      have hr' : shouldRollover cfg (XW.of a2).st = .ok roll := hr
      rw [hr'] at h
      dsimp only at h
      rcases bind_throw h with h | ⟨_, w3, hi, h⟩
      · cases roll with
        | false => cases h
        | true => exact (cut_rollover h m2.1 h3).grows (g4.trans g5)
      · have : ∃ a3, w3 = XW.of a3 ∧ Moves a2 a3 b2 b3 := by
          cases roll with
          | false => cases hi; cases h3; exact ⟨_, rfl, .none m2.1⟩
          | true =>
            simp only [if_true] at hi h3
            obtain ⟨a3, k3, rfl⟩ := agree_ok_elim (agree_rollover a2) hi
            obtain ⟨b3', j3, m3⟩ := thin_rollover (res_bind_unit k3) m2.1
            rw [h3] at j3
            cases j3
            exact ⟨_, rfl, m3⟩
        obtain ⟨a3, rfl, m3⟩ := this
        refine m3.then ?_
        rcases bind_throw h with h | ⟨_, w4, hi, h⟩
        · have hf : b3.finalizing = a3.finalizing := by rw [m3.1]
          rw [hf] at h4
          by_cases hc : (roll || a3.finalizing) = true
          · rw [if_pos (show (roll || (XW.of a3).st.finalizing) = true from hc)] at h
            rw [if_pos hc] at h4
            exact (cut_meta h m3.1 h4).grows g5
          · rw [if_neg (show ¬(roll || (XW.of a3).st.finalizing) = true from hc)] at h
            cases h
        · cases h

theorem thin_finalizeArray (hV : OneLayer cfg) (h : finalizeArray env cfg a = .ok a') (ht : Twin a b) :
    ∃ b', finalizeArray (perfect env) cfg b = .ok b' ∧ Moves a a' b b' := by
  rw [finalizeArray_seq] at h ⊢
  obtain ⟨a1, h1, h⟩ := Res.bind_eq_ok.1 h
  obtain ⟨a2, h2, h⟩ := Res.bind_eq_ok.1 h
  have t0 : Twin { a with finalizing := true } { b with finalizing := true } := by
    unfold Twin at ht ⊢
    rw [ht]
  obtain ⟨b1, k1, m1⟩ := thin_flush hV (.inl rfl) h1 t0
  have m1 : Moves a a1 b b1 := m1
  rw [k1, Res.bind_ok]
  have hm : b1.metaSink = a1.metaSink := by rw [m1.1]
  obtain ⟨b2, k2, m2⟩ : ∃ b2, (if b1.metaSink then
      check ((perfect env).finalize (arrayMetaPath cfg)) >>= fun _ =>
      .ok { b1 with metaSink := false, trace := b1.trace ++ [.finalized (arrayMetaPath cfg)] } else .ok b1) = .ok b2 ∧
      Moves a1 a2 b1 b2 := by
    rw [hm]
    split at h2
    · obtain ⟨u, hu, h2⟩ := Res.bind_eq_ok.1 h2
      cases h2
      rw [if_pos (by assumption)]
      refine ⟨_, rfl, ?_, _, _, rfl, rfl, .refl _⟩
      have := m1.1
      unfold Twin at this ⊢
      rw [this]
    · cases h2
      rw [if_neg (by assumption)]
      exact ⟨_, rfl, .none m1.1⟩
  rw [k2, Res.bind_ok]
  cases h
  refine ⟨_, rfl, m1.trans (m2.trans ⟨?_, _, _, rfl, ?_, .refl _⟩)⟩
  · have := m2.1
    unfold Twin at this ⊢
    rw [this]
  · have e : b2.dataSinks = a2.dataSinks := by rw [m2.1]
    rw [e]

theorem cut_finalizeArray (hV : OneLayer cfg) {w : XW} (h : finalizeArrayX env cfg (XW.of a) = .throw w) (ht : Twin a b)
    (hb : finalizeArray (perfect env) cfg b = .ok b') : MovesCut a w b b' := by
  rw [finalizeArray_seq] at hb
  obtain ⟨b1, h1, hb⟩ := Res.bind_eq_ok.1 hb
  obtain ⟨b2, h2, hb⟩ := Res.bind_eq_ok.1 hb
  cases hb
  have t0 : Twin { a with finalizing := true } { b with finalizing := true } := by
    unfold Twin at ht ⊢
    rw [ht]
  have g2 : Grows b1 b2 := by
    split at h2
    · obtain ⟨u, hu, h2⟩ := Res.bind_eq_ok.1 h2
      cases h2
      exact ⟨_, rfl⟩
    · cases h2; exact .refl _
  have g3 : Grows b2 { b2 with trace := b2.trace ++ b2.dataSinks.map Ev.dropped, dataSinks := [] } := ⟨_, rfl⟩
  unfold finalizeArrayX at h
  have hx : ({ XW.of a with st := { (XW.of a).st with finalizing := true } } : XW) = XW.of { a with finalizing := true } := rfl
  rw [hx] at h
  rcases bind_throw h with h | ⟨_, w1, hi, h⟩
  · have := (cut_flush hV (.inl rfl) h t0 h1).grows (g2.trans g3)
    exact this
  · obtain ⟨a1, k1, rfl⟩ := agree_ok_elim (agree_flush _) hi
    obtain ⟨b1', j1, m1⟩ := thin_flush hV (.inl rfl) (res_bind_unit k1) t0
    rw [h1] at j1
    cases j1
    have m1 : Moves a a1 b b1 := m1
    refine m1.then ?_
    dsimp only at h
    split at h
    · split at h
      · cases h
      · cases h
        exact .stay rfl (g2.trans g3)
    · cases h

theorem cut_finalizeLevels {xs ys : List Level} (hV : ∀ lv ∈ xs, OneLayer lv.cfg) (ht : LevelsTwin xs ys) {evs evs' : List Ev} {ok : Bool}
    (h : finalizeLevelsX env (xs.map XLevel.of) = some (evs, ok)) (hb : finalizeLevels (perfect env) ys = .ok evs') : Cut evs evs' := by
  induction ht generalizing evs evs' with
  | nil => cases h; cases hb; exact ⟨[], List.prefix_rfl, .nil⟩
  | @cons x y xs ys hxy hrest ih =>
    obtain ⟨t1, t2, t3⟩ := hxy
    unfold finalizeLevels at hb
    obtain ⟨b', h1, hb⟩ := Res.bind_eq_ok.1 hb
    obtain ⟨e2, h2, hb⟩ := Res.bind_eq_ok.1 hb
    cases hb
    rw [t1] at h1
    rw [List.map_cons] at h
    unfold finalizeLevelsX at h
    have hv := hV x (by simp)
    cases hf : finalizeArrayX env (XLevel.of x).cfg (XLevel.of x).w with
    | ub => rw [hf] at h; cases h
    | throw w =>
      rw [hf] at h
      cases h
      obtain ⟨e, e', q1, q2, q3⟩ := cut_finalizeArray hv hf t3 h1
      have q1' : w.st.trace = (XLevel.of x).w.st.trace ++ e := q1
      unfold newEvents
      rw [q1', q2, List.drop_left, List.drop_left]
      exact q3.right
    | ok u w =>
      rw [hf] at h
      dsimp only at h
      obtain ⟨a', k1, rfl⟩ := agree_ok_elim (agree_finalizeArray x.st) hf
      obtain ⟨b'', j1, _, e, e', q1, q2, q3⟩ := thin_finalizeArray hv (res_bind_unit k1) t3
      rw [h1] at j1
      cases j1
      cases hr : finalizeLevelsX env (xs.map XLevel.of) with
      | none => rw [hr] at h; cases h
      | some p =>
        obtain ⟨f, ok'⟩ := p
        rw [hr] at h
        simp only [Option.map_some, Option.some.injEq, Prod.mk.injEq] at h
        obtain ⟨rfl, rfl⟩ := h
        have q1' : (XW.of a').st.trace = (XLevel.of x).w.st.trace ++ e := q1
        unfold newEvents
        rw [q1', q2, List.drop_left, List.drop_left]
        exact q3.cut_append (ih (fun l hl => hV l (by simp [hl])) hr h2)

theorem LevelsTwin.length {xs ys : List Level} (h : LevelsTwin xs ys) : ys.length = xs.length := by
  induction h with
  | nil => rfl
  | cons _ _ ih => simp [ih]

/-- Destroying a stream, whatever the storage does, compared with perfect storage. -/
theorem cut_destroy {s t : SState} (hV : AllOneLayer s) (ht : StreamTwin s t) {tr tr' : List Ev} {ok : Bool}
    (h : destroyX env (XStream.of s) = some (tr, ok)) (hb : destroyStream (perfect env) t = .ok tr') : Cut tr tr' := by
  unfold destroyStream at hb
  obtain ⟨f1, k1, hb⟩ := Res.bind_eq_ok.1 hb
  obtain ⟨f2, k2, hb⟩ := Res.bind_eq_ok.1 hb
  obtain ⟨f3, k3, hb⟩ := Res.bind_eq_ok.1 hb
  cases hb
  have hn : t.levels.length = s.levels.length := ht.levels.length
  rw [ht.cfg, hn] at k1
  rw [ht.cfg] at k2
  unfold destroyX at h
  have hl : (XStream.of s).levels.length = s.levels.length := by simp [XStream.of]
  rw [hl] at h
  simp only [List.append_assoc]
  dsimp only at h
  have hc : (XStream.of s).cfg = s.cfg := rfl
  rw [hc] at h
  cases h1 : writeDoc env (metaSinkPath s.cfg (groupDoc s.cfg s.levels.length).1) (utf8 ((groupDoc s.cfg s.levels.length).2.dump 0)) with
  | ub => rw [h1] at h; cases h
  | throw =>
    rw [h1] at h
    cases h
    exact ht.trace.cut.right
  | ok e1 =>
    rw [h1] at h
    obtain ⟨f1', j1, t1⟩ := thin_writeDoc h1
    rw [k1] at j1
    cases j1
    dsimp only at h
    cases h2 : finalizeSinks env ((metaKeys s.cfg.version).map (metaSinkPath s.cfg)) with
    | ub => rw [h2] at h; cases h
    | throw =>
      rw [h2] at h
      cases h
      rw [List.append_assoc]
      exact ht.trace.cut_append (t1.cut_append (cut_finalizeSinks _ k2).right)
    | ok e2 =>
      rw [h2] at h
      have j2 := finalizeSinks_perfect h2
      rw [k2] at j2
      cases j2
      dsimp only at h
      cases h3 : finalizeLevelsX env (XStream.of s).levels with
      | none => rw [h3] at h; cases h
      | some p =>
        obtain ⟨e3, ok'⟩ := p
        rw [h3] at h
        simp only [Option.map_some, Option.some.injEq, Prod.mk.injEq] at h
        obtain ⟨rfl, rfl⟩ := h
        simp only [List.append_assoc]
        exact ht.trace.cut_append (t1.cut_append ((Thinned.refl _).cut_append (cut_finalizeLevels hV ht.levels h3 k3)))

end AZ
