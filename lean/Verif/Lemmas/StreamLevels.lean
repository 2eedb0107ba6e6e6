import Verif.Lemmas.StreamRun

set_option linter.unusedSimpArgs false

/-! # What each level of a stream receives, and the events about its objects -/

namespace AZ
open Spec

/-- Numerators of the scaled pixels of a frame. -/
def scaledPx (src : Bytes) (w h : Nat) : List Nat :=
  (List.range ((h + h % 2) / 2)).flatMap fun i =>
    (List.range ((w + w % 2) / 2)).map fun j => quadSum src w h (2 * i) (2 * j)

/-- The frames the next level receives. -/
def nextFrames (t : DType) (w h : Nat) : List Bytes → List Bytes
  | a :: b :: rest => averageFrames t (scaledPx b w h) (scaledPx a w h) :: nextFrames t w h rest
  | _ => []

/-- The frames level `i` receives. -/
def levelFrames (t : DType) : Nat → Nat → Nat → List Bytes → List Bytes
  | 0, _, _, fs => fs
  | i + 1, w, h, fs => levelFrames t i ((w + w % 2) / 2) ((h + h % 2) / 2) (nextFrames t w h fs)

theorem scaleImage_ok {t : DType} {src : Bytes} {w h : Nat} {s : Scaled} (hs : scaleImage t src w h = .ok s) :
    s = ⟨scaledPx src w h, (w + w % 2) / 2, (h + h % 2) / 2⟩ := by
  unfold scaleImage at hs
  obtain ⟨_, _, hs⟩ := Res.bind_eq_ok.1 hs
  dsimp only at hs
  split at hs
  · simp at hs
  · split at hs
    · simp at hs
    · simp only [Res.pure_eq, Res.ok.injEq] at hs
      exact hs.symm

theorem nextFrames_snoc_even (t : DType) (w h : Nat) (fs : List Bytes) (he : fs.length % 2 = 0) (f : Bytes) :
    nextFrames t w h (fs ++ [f]) = nextFrames t w h fs := by
  fun_induction nextFrames t w h fs with
  | case1 a b rest ih =>
    simp only [List.cons_append, nextFrames]
    rw [ih (by simp at he; omega)]
  | case2 fs hne =>
    match fs, hne, he with
    | [], _, _ => rfl
    | [x], _, he => simp at he
    | x :: y :: r, hne, _ => exact absurd rfl (hne x y r)

theorem nextFrames_snoc_odd (t : DType) (w h : Nat) (fs : List Bytes) (a f : Bytes) (he : fs.length % 2 = 0) :
    nextFrames t w h (fs ++ [a] ++ [f]) =
      nextFrames t w h fs ++ [averageFrames t (scaledPx f w h) (scaledPx a w h)] := by
  fun_induction nextFrames t w h fs with
  | case1 a b rest ih =>
    simp only [List.cons_append, nextFrames]
    rw [ih (by simp at he; omega)]
  | case2 fs hne =>
    match fs, hne, he with
    | [], _, _ => rfl
    | [x], _, he => simp at he
    | x :: y :: r, hne, _ => exact absurd rfl (hne x y r)

theorem nextFrames_length (t : DType) (w h : Nat) (fs : List Bytes) :
    (nextFrames t w h fs).length = fs.length / 2 := by
  fun_induction nextFrames t w h fs with
  | case1 a b rest ih => simp only [List.length_cons, ih]; omega
  | case2 fs hne =>
    match fs, hne with
    | [], _ => rfl
    | [x], _ => simp
    | x :: y :: r, hne => exact absurd rfl (hne x y r)

/-- The states of the levels below one that received `fs`. -/
def LevelsOk (env : Env) (t : DType) : List Level → Nat → Nat → List Bytes → Prop
  | [], _, _, _ => True
  | lv :: rest, w, h, fs =>
    writeFrames env lv.cfg (nextFrames t w h fs) (WState.init lv.cfg) = .ok lv.st ∧
    lv.saved = (if fs.length % 2 = 0 then none else some (scaledPx (fs.getLastD []) w h)) ∧
    LevelsOk env t rest ((w + w % 2) / 2) ((h + h % 2) / 2) (nextFrames t w h fs)

theorem writeFrames_snoc {env : Env} {cfg : WConfig} {fs : List Bytes} {f : Bytes} {s0 s1 s2 : WState} {n : Nat}
    (h1 : writeFrames env cfg fs s0 = .ok s1) (h2 : writeFrame env cfg f s1 = .ok (s2, n)) (hn : n ≠ 0) :
    writeFrames env cfg (fs ++ [f]) s0 = .ok s2 := by
  rw [writeFrames_append, h1]
  simp only [Res.bind_ok, writeFrames, h2]
  have : (n != 0) = true := by simpa using hn
  rw [this]
  rfl

theorem pyramidLoop_ok {env : Env} {t : DType} {lvs lvs' : List Level} {fs : List Bytes} {f : Bytes} {w h : Nat}
    {evs : List Ev} {errs : List Text} (hp : pyramidLoop env t lvs f w h = .ok (lvs', evs, errs))
    (hl : LevelsOk env t lvs w h fs) : LevelsOk env t lvs' w h (fs ++ [f]) := by
  induction lvs generalizing f w h lvs' evs errs fs with
  | nil =>
    simp only [pyramidLoop, Res.ok.injEq, Prod.mk.injEq] at hp
    rw [← hp.1]; trivial
  | cons lv rest ih =>
    obtain ⟨hw, hsv, hr⟩ := hl
    rw [pyramidLoop] at hp
    obtain ⟨s, hs, hp⟩ := Res.bind_eq_ok.1 hp
    have hs := scaleImage_ok hs
    subst hs
    split at hp
    · rename_i hnone
      have he : fs.length % 2 = 0 := by
        rw [hnone] at hsv
        by_contra hne
        rw [if_neg hne] at hsv
        exact absurd hsv (by simp)
      simp only [Res.pure_eq, Res.ok.injEq, Prod.mk.injEq] at hp
      rw [← hp.1]
      refine ⟨?_, ?_, ?_⟩
      · rw [nextFrames_snoc_even _ _ _ _ he]; exact hw
      · rw [if_neg (by simp; omega)]
        simp
      · rw [nextFrames_snoc_even _ _ _ _ he]; exact hr
    · rename_i px hsome
      have he : fs.length % 2 ≠ 0 := by
        intro he
        rw [hsome, if_pos he] at hsv
        exact absurd hsv (by simp)
      rw [hsome, if_neg he, Option.some.injEq] at hsv
      obtain ⟨gs, a, rfl⟩ : ∃ gs a, fs = gs ++ [a] := by
        cases fs with
        | nil => simp at he
        | cons x xs => exact ⟨_, _, (List.dropLast_concat_getLast (List.cons_ne_nil x xs)).symm⟩
      have hge : gs.length % 2 = 0 := by simp at he; omega
      have hlast : (gs ++ [a]).getLastD [] = a := by simp
      rw [hlast] at hsv
      subst hsv
      obtain ⟨⟨lv', n, e1, r1⟩, h1, hp⟩ := Res.bind_eq_ok.1 hp
      dsimp only at hp
      obtain ⟨_, hn, hp⟩ := Res.bind_eq_ok.1 hp
      obtain ⟨⟨rest', e2, r2⟩, h2, hp⟩ := Res.bind_eq_ok.1 hp
      simp only [Res.pure_eq, Res.ok.injEq, Prod.mk.injEq] at hp
      rw [← hp.1]
      rw [check_eq_ok] at hn
      have hn : n ≠ 0 := by simpa using hn
      obtain ⟨c1, c2, c3, _, _⟩ := writerStep_spec h1
      rw [nextFrames_snoc_even _ _ _ _ hge] at hw hr
      refine ⟨?_, ?_, ?_⟩
      · rw [nextFrames_snoc_odd _ _ _ _ _ _ hge, c1]
        exact writeFrames_snoc hw c3 hn
      · rw [if_pos (by simp; omega)]
        exact c2
      · rw [nextFrames_snoc_odd _ _ _ _ _ _ hge]
        exact ih h2 hr

/-- State of all levels when the first has received the frames `fs` and the pyramid below it the frames `gs`. -/
structure StreamOk2 (env : Env) (st : SState) (fs gs : List Bytes) : Prop where
  level0 : ∃ l0 rest, st.levels = l0 :: rest ∧
    writeFrames env l0.cfg fs (WState.init l0.cfg) = .ok l0.st ∧
    (st.multiscale = false → rest = []) ∧
    LevelsOk env st.cfg.dims.dtype rest st.cfg.dims.width.arraySize st.cfg.dims.height.arraySize gs

/-- State of all levels after the frames `fs`. -/
abbrev StreamOk (env : Env) (st : SState) (fs : List Bytes) : Prop := StreamOk2 env st fs fs

/-- A frame written to the first level only. -/
theorem writeLevel0_ok {env : Env} {st s1 : SState} {fs gs : List Bytes} {f : Bytes} {F k : Nat} (hF : 0 < F)
    (ha : Aligned F st) (hf : f.length = F) (h1 : writeLevel0 env st f = .ok (s1, k)) (hi : StreamOk2 env st fs gs) :
    StreamOk2 env s1 (fs ++ [f]) gs := by
  obtain ⟨l0, rest, hl, hw, hms, hr⟩ := hi.level0
  have hk1 := writeLevel0_keeps h1
  obtain ⟨l0x, restx, hlx, hbf⟩ := ha.level0
  rw [hl] at hlx
  cases hlx
  unfold writeLevel0 at h1
  rw [hl] at h1
  obtain ⟨⟨l0', n, evs, errs⟩, h3, h1⟩ := Res.bind_eq_ok.1 h1
  simp only [Res.pure_eq, Res.ok.injEq, Prod.mk.injEq] at h1
  obtain ⟨c1, c2, c3, _, _⟩ := writerStep_spec h3
  have hn : n ≠ 0 := by
    rw [writeFrame_ret (hbf.trans hf.symm) c3]; omega
  have hw' : writeFrames env l0'.cfg (fs ++ [f]) (WState.init l0'.cfg) = .ok l0'.st := by
    rw [c1]; exact writeFrames_snoc hw c3 hn
  refine ⟨l0', rest, by rw [← h1.1], hw', fun hm => hms (hk1.multiscale.symm.trans hm), ?_⟩
  rw [hk1.cfg]
  exact hr

/-- A frame handed to the pyramid. -/
theorem writeMultiscale_ok {env : Env} {s1 st' : SState} {fs gs : List Bytes} {f : Bytes}
    (h2 : writeMultiscale env s1 f = .ok st') (hi : StreamOk2 env s1 fs gs) : StreamOk2 env st' fs (gs ++ [f]) := by
  obtain ⟨l0, rest, hl, hw, hms, hr⟩ := hi.level0
  unfold writeMultiscale at h2
  split at h2
  · rename_i hm
    have hm : s1.multiscale = false := by simpa using hm
    have hrest := hms hm
    cases h2
    subst hrest
    exact ⟨l0, [], hl, hw, fun _ => rfl, trivial⟩
  · rename_i hm
    rw [hl] at h2
    obtain ⟨⟨rest', evs', errs'⟩, h4, h2⟩ := Res.bind_eq_ok.1 h2
    simp only [Res.pure_eq, Res.ok.injEq] at h2
    rw [← h2]
    refine ⟨l0, rest', rfl, hw, ?_, ?_⟩
    · intro hm2
      have hm2 : s1.multiscale = false := hm2
      rw [hm2] at hm
      exact absurd rfl hm
    · exact pyramidLoop_ok h4 hr

theorem frameStep_ok2 {env : Env} {st st' : SState} {fs gs : List Bytes} {f : Bytes} {F : Nat} (hF : 0 < F)
    (ha : Aligned F st) (hf : f.length = F) (h : frameStep env st f = .ok st') (hi : StreamOk2 env st fs gs) :
    StreamOk2 env st' (fs ++ [f]) (gs ++ [f]) := by
  unfold frameStep at h
  obtain ⟨⟨s1, k⟩, h1, h2⟩ := Res.bind_eq_ok.1 h
  exact writeMultiscale_ok h2 (writeLevel0_ok hF ha hf h1 hi)

theorem frameStep_ok {env : Env} {st st' : SState} {fs : List Bytes} {f : Bytes} {F : Nat} (hF : 0 < F)
    (ha : Aligned F st) (hf : f.length = F) (h : frameStep env st f = .ok st') (hi : StreamOk env st fs) :
    StreamOk env st' (fs ++ [f]) := frameStep_ok2 hF ha hf h hi

theorem foldFrames_ok2 {env : Env} {F : Nat} (hF : 0 < F) (fs : List Bytes) {as gs : List Bytes}
    (hf : ∀ f ∈ fs, f.length = F) {st st' : SState} (ha : Aligned F st) (h : foldFrames env fs st = .ok st')
    (hi : StreamOk2 env st as gs) : StreamOk2 env st' (as ++ fs) (gs ++ fs) := by
  induction fs generalizing st as gs with
  | nil => cases h; simpa using hi
  | cons f fs ih =>
    rw [foldFrames] at h
    obtain ⟨s1, h1, h2⟩ := Res.bind_eq_ok.1 h
    have := ih (fun x hx => hf x (List.mem_cons_of_mem _ hx)) (ha.keeps (frameStep_keeps h1)) h2
      (frameStep_ok2 hF ha (hf f (by simp)) h1 hi)
    simpa using this

theorem foldFrames_ok {env : Env} {F : Nat} (hF : 0 < F) (fs : List Bytes) {gs : List Bytes}
    (hf : ∀ f ∈ fs, f.length = F) {st st' : SState} (ha : Aligned F st) (h : foldFrames env fs st = .ok st')
    (hi : StreamOk env st gs) : StreamOk env st' (gs ++ fs) := foldFrames_ok2 hF fs hf ha h hi

/-- Level `i` of the stream has received `levelFrames i`. -/
theorem LevelsOk.get {env : Env} {t : DType} {lvs : List Level} {w h : Nat} {fs : List Bytes}
    (hl : LevelsOk env t lvs w h fs) {i : Nat} {lv : Level} (hi : lvs[i]? = some lv) :
    writeFrames env lv.cfg (levelFrames t (i + 1) w h fs) (WState.init lv.cfg) = .ok lv.st := by
  induction lvs generalizing w h fs i with
  | nil => simp at hi
  | cons l rest ih =>
    obtain ⟨h1, _, h3⟩ := hl
    cases i with
    | zero =>
      simp at hi
      subst hi
      exact h1
    | succ i =>
      rw [List.getElem?_cons_succ] at hi
      exact ih h3 hi

/-- Level `i` of the stream has received the first level's frames or those derived from the pyramid's. -/
theorem StreamOk2.get {env : Env} {st : SState} {fs gs : List Bytes} (h : StreamOk2 env st fs gs) {i : Nat} {lv : Level}
    (hi : st.levels[i]? = some lv) :
    writeFrames env lv.cfg (levelFrames st.cfg.dims.dtype i st.cfg.dims.width.arraySize
      st.cfg.dims.height.arraySize (if i = 0 then fs else gs)) (WState.init lv.cfg) = .ok lv.st := by
  obtain ⟨l0, rest, hl, hw, _, hr⟩ := h.level0
  rw [hl] at hi
  cases i with
  | zero => simp at hi; subst hi; exact hw
  | succ i =>
    rw [List.getElem?_cons_succ] at hi
    exact hr.get hi

theorem StreamOk2.getSame {env : Env} {st : SState} {fs : List Bytes} (h : StreamOk env st fs) {i : Nat} {lv : Level}
    (hi : st.levels[i]? = some lv) :
    writeFrames env lv.cfg (levelFrames st.cfg.dims.dtype i st.cfg.dims.width.arraySize
      st.cfg.dims.height.arraySize fs) (WState.init lv.cfg) = .ok lv.st := by
  have := StreamOk2.get h hi
  rwa [ite_self] at this

/-! ### Events -/

/-- The part of a history about the object `p`. -/
abbrev about (p : Text) (tr : List Ev) : List Ev := tr.filter fun e => e.path = p

theorem about_append (p : Text) (a b : List Ev) : about p (a ++ b) = about p a ++ about p b :=
  List.filter_append ..

/-- The part of a history about the objects in `P`. -/
abbrev within (P : Text → Bool) (tr : List Ev) : List Ev := tr.filter fun e => P e.path

theorem within_append (P : Text → Bool) (a b : List Ev) : within P (a ++ b) = within P a ++ within P b :=
  List.filter_append ..

/-- The objects in `P` belong to the array of `cfg`. -/
def OwnedAll (cfg : WConfig) (P : Text → Bool) : Prop := ∀ p, P p = true → Owned cfg p

theorem Owned.all {cfg : WConfig} {p : Text} (h : Owned cfg p) : OwnedAll cfg (fun q => decide (q = p)) := by
  intro q hq
  rw [decide_eq_true_eq] at hq
  rw [hq]; exact h

/-- Levels of one stream: same store, pairwise different numbers. -/
def Distinct (cfgs : List WConfig) : Prop :=
  cfgs.Pairwise fun a b => SameStore a b ∧ a.level ≠ b.level

/-- Open data sinks belong to the level. -/
def SinksOwned (lv : Level) : Prop := ∀ p ∈ lv.st.dataSinks, ∃ g l, p = objectPath lv.cfg g l

/-- A step of the levels that produces the events `evs`. -/
structure LStep (lvs lvs' : List Level) (evs : List Ev) : Prop where
  cfgs : lvs'.map (·.cfg) = lvs.map (·.cfg)
  sinks : ∀ lv' ∈ lvs', SinksOwned lv'
  own : ∀ e ∈ evs, ∃ lv ∈ lvs, Owned lv.cfg e.path
  tr : ∀ (i : Nat) (lv lv' : Level), lvs[i]? = some lv → lvs'[i]? = some lv' → ∀ P, OwnedAll lv.cfg P →
    within P lv'.st.trace = within P lv.st.trace ++ within P evs

theorem within_nil_of {evs : List Ev} {P : Text → Bool} (h : ∀ e ∈ evs, P e.path ≠ true) :
    within P evs = [] := by
  rw [List.filter_eq_nil_iff]
  exact h

theorem about_nil_of {evs : List Ev} {p : Text} (h : ∀ e ∈ evs, e.path ≠ p) :
    about p evs = [] := by
  rw [List.filter_eq_nil_iff]
  intro e he
  simp only [decide_eq_true_eq]
  exact h e he

theorem writerStep_ext {env : Env} {lv lv' : Level} {data : Bytes} {n : Nat} {evs : List Ev} {errs : List Text}
    (h : writerStep env lv data = .ok (lv', n, evs, errs)) (ho : SinksOwned lv) :
    lv'.cfg = lv.cfg ∧ SinksOwned lv' ∧ lv'.st.trace = lv.st.trace ++ evs ∧ (∀ e ∈ evs, Owned lv.cfg e.path) ∧
      lv'.st.errors = lv.st.errors ++ errs := by
  obtain ⟨c1, c2, c3, c4, c5⟩ := writerStep_spec h
  have hx := (ext_writeFrame c3).1 ho
  obtain ⟨es, ht, hown⟩ := hx.trace
  obtain ⟨rs, hr⟩ := hx.errors
  rw [ht, List.drop_left] at c4
  rw [hr, List.drop_left] at c5
  subst c4
  subst c5
  refine ⟨c1, ?_, ht, hown, hr⟩
  intro p hp
  have := hx.sinks ho p hp
  rw [c1]; exact this

theorem LStep.nil (lvs : List Level) (h : ∀ lv ∈ lvs, SinksOwned lv) : LStep lvs lvs [] := by
  refine ⟨rfl, h, by simp, ?_⟩
  intro i lv lv' h1 h2 P _
  rw [h1] at h2; cases h2
  simp

theorem LStep.cons {lv lv' : Level} {rest rest' : List Level} {e1 e2 : List Ev}
    (hd : Distinct ((lv :: rest).map (·.cfg))) (hc : lv'.cfg = lv.cfg) (hs : SinksOwned lv')
    (ht : lv'.st.trace = lv.st.trace ++ e1) (ho : ∀ e ∈ e1, Owned lv.cfg e.path) (h : LStep rest rest' e2) :
    LStep (lv :: rest) (lv' :: rest') (e1 ++ e2) := by
  unfold Distinct at hd
  rw [List.map_cons, List.pairwise_cons] at hd
  have hd1 : ∀ l ∈ rest, SameStore lv.cfg l.cfg ∧ lv.cfg.level ≠ l.cfg.level :=
    fun l hl => hd.1 l.cfg (List.mem_map_of_mem hl)
  refine ⟨by simp [hc, h.cfgs], ?_, ?_, ?_⟩
  · intro l hl
    rcases List.mem_cons.1 hl with rfl | hl
    · exact hs
    · exact h.sinks l hl
  · intro e he
    rcases List.mem_append.1 he with he | he
    · exact ⟨lv, by simp, ho e he⟩
    · obtain ⟨l, hl, ho⟩ := h.own e he
      exact ⟨l, by simp [hl], ho⟩
  · intro i l l' h1 h2 P hp
    rw [within_append]
    cases i with
    | zero =>
      simp only [List.getElem?_cons_zero, Option.some.injEq] at h1 h2
      subst h1; subst h2
      rw [ht, within_append]
      have : within P e2 = [] := within_nil_of (by
        intro e he hep
        obtain ⟨l, hl, hol⟩ := h.own e he
        exact (hd1 l hl).2 (owned_level (hd1 l hl).1 (hp _ hep) hol))
      rw [this, List.append_nil]
    | succ i =>
      rw [List.getElem?_cons_succ] at h1 h2
      rw [h.tr i l l' h1 h2 P hp]
      have : within P e1 = [] := within_nil_of (by
        intro e he hep
        have hol := ho e he
        have hl := List.mem_of_getElem? h1
        exact (hd1 l hl).2 (owned_level (hd1 l hl).1 hol (hp _ hep)))
      rw [this, List.nil_append]

theorem pyramidLoop_step {env : Env} {t : DType} {lvs lvs' : List Level} {f : Bytes} {w h : Nat}
    {evs : List Ev} {errs : List Text} (hp : pyramidLoop env t lvs f w h = .ok (lvs', evs, errs))
    (hd : Distinct (lvs.map (·.cfg))) (ho : ∀ lv ∈ lvs, SinksOwned lv) : LStep lvs lvs' evs := by
  induction lvs generalizing f w h lvs' evs errs with
  | nil =>
    simp only [pyramidLoop, Res.ok.injEq, Prod.mk.injEq] at hp
    rw [← hp.1, ← hp.2.1]
    exact LStep.nil _ (by simp)
  | cons lv rest ih =>
    rw [pyramidLoop] at hp
    obtain ⟨s, hs, hp⟩ := Res.bind_eq_ok.1 hp
    split at hp
    · simp only [Res.pure_eq, Res.ok.injEq, Prod.mk.injEq] at hp
      rw [← hp.1, ← hp.2.1]
      have := LStep.cons (lv := lv) (lv' := { lv with saved := some s.px }) (e1 := []) hd rfl
        (ho lv (by simp)) (by simp) (by simp) (LStep.nil rest fun l hl => ho l (by simp [hl]))
      exact this
    · obtain ⟨⟨lv', n, e1, r1⟩, h1, hp⟩ := Res.bind_eq_ok.1 hp
      dsimp only at hp
      obtain ⟨_, _, hp⟩ := Res.bind_eq_ok.1 hp
      obtain ⟨⟨rest', e2, r2⟩, h2, hp⟩ := Res.bind_eq_ok.1 hp
      simp only [Res.pure_eq, Res.ok.injEq, Prod.mk.injEq] at hp
      rw [← hp.1, ← hp.2.1]
      obtain ⟨c1, c2, c3, c4, _⟩ := writerStep_ext h1 (ho lv (by simp))
      exact LStep.cons hd c1 c2 c3 c4 (ih h2 (List.Pairwise.of_cons hd) fun l hl => ho l (by simp [hl]))

/-- Trace part of the stream invariant: `base` is what was there before the first frame. -/
structure TraceOk (st : SState) (base : List Ev) : Prop where
  distinct : Distinct (st.levels.map (·.cfg))
  sinks : ∀ lv ∈ st.levels, SinksOwned lv
  tr : ∃ evs, st.trace = base ++ evs ∧ (∀ e ∈ evs, ∃ lv ∈ st.levels, Owned lv.cfg e.path) ∧
    ∀ (i : Nat) (lv : Level), st.levels[i]? = some lv → ∀ P, OwnedAll lv.cfg P → within P evs = within P lv.st.trace

theorem Distinct.pair {cfgs : List WConfig} (h : Distinct cfgs) {i j : Nat} {a b : WConfig}
    (hi : cfgs[i]? = some a) (hj : cfgs[j]? = some b) (hij : i ≠ j) : SameStore a b ∧ a.level ≠ b.level := by
  unfold Distinct at h
  rw [List.pairwise_iff_getElem] at h
  obtain ⟨hi1, hi2⟩ := List.getElem?_eq_some_iff.1 hi
  obtain ⟨hj1, hj2⟩ := List.getElem?_eq_some_iff.1 hj
  rcases Nat.lt_or_gt_of_ne hij with hlt | hlt
  · have := h i j hi1 hj1 hlt
    rwa [hi2, hj2] at this
  · have := h j i hj1 hi1 hlt
    rw [hi2, hj2] at this
    exact ⟨this.1.symm, fun e => this.2 e.symm⟩

theorem map_cfg_get {lvs lvs' : List Level} (h : lvs'.map (·.cfg) = lvs.map (·.cfg)) {i : Nat} {lv : Level}
    (hi : lvs[i]? = some lv) : ∃ lv', lvs'[i]? = some lv' ∧ lv'.cfg = lv.cfg := by
  have : (lvs'.map (·.cfg))[i]? = some lv.cfg := by rw [h, List.getElem?_map, hi]; rfl
  rw [List.getElem?_map, Option.map_eq_some_iff] at this
  obtain ⟨x, h1, h2⟩ := this
  exact ⟨x, h1, h2⟩

/-- A step of all levels extends the trace invariant. -/
theorem TraceOk.step {st st' : SState} {base evs : List Ev} (h : TraceOk st base)
    (hs : LStep st.levels st'.levels evs) (ht : st'.trace = st.trace ++ evs) : TraceOk st' base := by
  obtain ⟨ev0, e1, e2, e3⟩ := h.tr
  refine ⟨by rw [hs.cfgs]; exact h.distinct, hs.sinks, ev0 ++ evs, by rw [ht, e1, List.append_assoc], ?_, ?_⟩
  · intro e he
    have conv : ∀ lv ∈ st.levels, ∃ lv' ∈ st'.levels, lv'.cfg = lv.cfg := by
      intro lv hlv
      obtain ⟨i, hi⟩ := List.mem_iff_getElem?.1 hlv
      obtain ⟨lv', h1, h2⟩ := map_cfg_get hs.cfgs hi
      exact ⟨lv', List.mem_of_getElem? h1, h2⟩
    have : ∃ lv ∈ st.levels, Owned lv.cfg e.path := by
      rcases List.mem_append.1 he with he | he
      · exact e2 e he
      · exact hs.own e he
    obtain ⟨lv, hlv, ho⟩ := this
    obtain ⟨lv', h1, h2⟩ := conv lv hlv
    exact ⟨lv', h1, by rw [h2]; exact ho⟩
  · intro i lv' hi P hp
    obtain ⟨lv, h1, h2⟩ := map_cfg_get hs.cfgs.symm hi
    rw [← h2] at hp
    rw [within_append, e3 i lv h1 P hp, hs.tr i lv lv' h1 hi P hp]

theorem writeLevel0_trace {env : Env} {st s1 : SState} {f : Bytes} {k : Nat} {base : List Ev}
    (h1 : writeLevel0 env st f = .ok (s1, k)) (ht : TraceOk st base) : TraceOk s1 base := by
  unfold writeLevel0 at h1
  split at h1
  · simp at h1
  · rename_i l0 rest hl
    obtain ⟨⟨l0', n, evs, errs⟩, h3, h1⟩ := Res.bind_eq_ok.1 h1
    simp only [Res.pure_eq, Res.ok.injEq, Prod.mk.injEq] at h1
    have hl0 : SinksOwned l0 := ht.sinks l0 (by rw [hl]; simp)
    obtain ⟨c1, c2, c3, c4, _⟩ := writerStep_ext h3 hl0
    rw [← h1.1]
    refine ht.step (evs := evs ++ []) ?_ (by simp)
    have hd := ht.distinct
    rw [hl] at hd ⊢
    exact LStep.cons hd c1 c2 c3 c4 (LStep.nil rest fun l hm => ht.sinks l (by rw [hl]; simp [hm]))

theorem frameStep_trace {env : Env} {st st' : SState} {f : Bytes} {base : List Ev}
    (h : frameStep env st f = .ok st') (ht : TraceOk st base) : TraceOk st' base := by
  unfold frameStep at h
  obtain ⟨⟨s1, k⟩, h1, h2⟩ := Res.bind_eq_ok.1 h
  have t1 := writeLevel0_trace h1 ht
  dsimp only at h2
  unfold writeMultiscale at h2
  split at h2
  · cases h2; exact t1
  · split at h2
    · cases h2; exact t1
    · rename_i l0 rest hl
      obtain ⟨⟨rest', evs, errs⟩, h3, h2⟩ := Res.bind_eq_ok.1 h2
      simp only [Res.pure_eq, Res.ok.injEq] at h2
      rw [← h2]
      have hd := t1.distinct
      refine t1.step (evs := [] ++ evs) ?_ (by simp)
      rw [hl] at hd ⊢
      refine LStep.cons hd rfl (t1.sinks l0 (by rw [hl]; simp)) (by simp) (by simp) ?_
      exact pyramidLoop_step h3 (List.Pairwise.of_cons hd) fun l hm => t1.sinks l (by rw [hl]; simp [hm])

theorem foldFrames_trace {env : Env} {fs : List Bytes} {st st' : SState} {base : List Ev}
    (h : foldFrames env fs st = .ok st') (ht : TraceOk st base) : TraceOk st' base := by
  induction fs generalizing st with
  | nil => cases h; exact ht
  | cons f fs ih =>
    rw [foldFrames] at h
    obtain ⟨s1, h1, h2⟩ := Res.bind_eq_ok.1 h
    exact ih h2 (frameStep_trace h1 ht)

/-- Finalizing the levels. -/
theorem finalizeLevels_spec {env : Env} {lvs : List Level} {evs : List Ev} (h : finalizeLevels env lvs = .ok evs)
    (hd : Distinct (lvs.map (·.cfg))) (ho : ∀ lv ∈ lvs, SinksOwned lv) :
    (∀ e ∈ evs, ∃ lv ∈ lvs, Owned lv.cfg e.path) ∧
    ∀ lv ∈ lvs, ∃ stf, finalizeArray env lv.cfg lv.st = .ok stf ∧ ∀ P, OwnedAll lv.cfg P →
      within P stf.trace = within P lv.st.trace ++ within P evs := by
  induction lvs generalizing evs with
  | nil =>
    simp only [finalizeLevels, Res.ok.injEq] at h
    subst h
    simp
  | cons lv rest ih =>
    rw [finalizeLevels] at h
    obtain ⟨stf, h1, h⟩ := Res.bind_eq_ok.1 h
    obtain ⟨e2, h2, h⟩ := Res.bind_eq_ok.1 h
    simp only [Res.pure_eq, Res.ok.injEq] at h
    have hx := ext_finalizeArray h1 (ho lv (by simp))
    obtain ⟨e1, ht, hown⟩ := hx.trace
    rw [ht, List.drop_left] at h
    obtain ⟨i1, i2⟩ := ih h2 (List.Pairwise.of_cons hd) fun l hl => ho l (by simp [hl])
    unfold Distinct at hd
    rw [List.map_cons, List.pairwise_cons] at hd
    have hd1 : ∀ l ∈ rest, SameStore lv.cfg l.cfg ∧ lv.cfg.level ≠ l.cfg.level :=
      fun l hl => hd.1 l.cfg (List.mem_map_of_mem hl)
    subst h
    constructor
    · intro e he
      rcases List.mem_append.1 he with he | he
      · exact ⟨lv, by simp, hown e he⟩
      · obtain ⟨l, hl, ho⟩ := i1 e he
        exact ⟨l, by simp [hl], ho⟩
    · intro l hl
      rcases List.mem_cons.1 hl with rfl | hl
      · refine ⟨stf, h1, ?_⟩
        intro P hp
        have : within P e2 = [] := within_nil_of (by
          intro e he hep
          obtain ⟨l', hl', hol⟩ := i1 e he
          exact (hd1 l' hl').2 (owned_level (hd1 l' hl').1 (hp _ hep) hol))
        rw [ht, within_append, within_append, this, List.append_nil]
      · obtain ⟨s, hs1, hs2⟩ := i2 l hl
        refine ⟨s, hs1, ?_⟩
        intro P hp
        have : within P e1 = [] := within_nil_of (by
          intro e he hep
          have hol := hown e he
          exact (hd1 l hl).2 (owned_level (hd1 l hl).1 hol (hp _ hep)))
        rw [hs2 P hp, within_append, this, List.nil_append]

end AZ
