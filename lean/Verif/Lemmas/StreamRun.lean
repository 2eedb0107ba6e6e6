import Verif.Lemmas.Levels
import Verif.Model.Stream

set_option linter.unusedSimpArgs false

/-! # From the stream to its array writers -/

namespace AZ
open Spec

/-! ### Append of whole frames -/

/-- One whole frame: level 0, then the pyramid. -/
def frameStep (env : Env) (st : SState) (data : Bytes) : Res SState :=
  writeLevel0 env st data >>= fun r => writeMultiscale env r.1 data

def foldFrames (env : Env) : List Bytes → SState → Res SState
  | [], st => .ok st
  | f :: fs, st => frameStep env st f >>= foldFrames env fs

/-- Nothing buffered; `F` is the frame size of level 0. -/
structure Aligned (F : Nat) (st : SState) : Prop where
  offset : st.offset = 0
  buf : st.buf.length = F
  level0 : ∃ l0 rest, st.levels = l0 :: rest ∧ bytesOfFrame l0.cfg.dims = F

theorem writerStep_spec {env : Env} {lv lv' : Level} {data : Bytes} {n : Nat} {evs : List Ev} {errs : List Text}
    (h : writerStep env lv data = .ok (lv', n, evs, errs)) :
    lv'.cfg = lv.cfg ∧ lv'.saved = lv.saved ∧ writeFrame env lv.cfg data lv.st = .ok (lv'.st, n) ∧
      evs = lv'.st.trace.drop lv.st.trace.length ∧ errs = lv'.st.errors.drop lv.st.errors.length := by
  unfold writerStep at h
  obtain ⟨⟨s, m⟩, h1, h⟩ := Res.bind_eq_ok.1 h
  simp only [Res.pure_eq, Res.ok.injEq, Prod.mk.injEq] at h
  obtain ⟨rfl, rfl, rfl, rfl⟩ := h
  exact ⟨rfl, rfl, h1, rfl, rfl⟩

theorem writeFrame_ret {env : Env} {cfg : WConfig} {data : Bytes} {st st' : WState} {n : Nat}
    (hd : bytesOfFrame cfg.dims = data.length) (h : writeFrame env cfg data st = .ok (st', n)) :
    n = data.length := by
  rw [writeFrame_seq, if_neg (by simp [hd])] at h
  dsimp only at h
  obtain ⟨⟨bufs, m⟩, _, h⟩ := Res.bind_eq_ok.1 h
  obtain ⟨_, hm, h⟩ := Res.bind_eq_ok.1 h
  obtain ⟨fl, _, h⟩ := Res.bind_eq_ok.1 h
  obtain ⟨s2, h2, h⟩ := Res.bind_eq_ok.1 h
  simp only [Res.pure_eq, Res.ok.injEq, Prod.mk.injEq] at h
  rw [check_eq_ok] at hm
  rw [← h.2]
  simpa using hm

theorem pyramidLoop_cfgs {env : Env} {t : DType} {lvs lvs' : List Level} {data : Bytes} {w h : Nat}
    {evs : List Ev} {errs : List Text} (hp : pyramidLoop env t lvs data w h = .ok (lvs', evs, errs)) :
    lvs'.map (·.cfg) = lvs.map (·.cfg) := by
  induction lvs generalizing data w h lvs' evs errs with
  | nil => simp [pyramidLoop] at hp; rw [← hp.1]
  | cons lv rest ih =>
    rw [pyramidLoop] at hp
    obtain ⟨s, hs, hp⟩ := Res.bind_eq_ok.1 hp
    split at hp
    · simp only [Res.pure_eq, Res.ok.injEq, Prod.mk.injEq] at hp
      rw [← hp.1]; rfl
    · obtain ⟨⟨lv', n, e1, r1⟩, h1, hp⟩ := Res.bind_eq_ok.1 hp
      dsimp only at hp
      obtain ⟨_, _, hp⟩ := Res.bind_eq_ok.1 hp
      obtain ⟨⟨rest', e2, r2⟩, h2, hp⟩ := Res.bind_eq_ok.1 hp
      simp only [Res.pure_eq, Res.ok.injEq, Prod.mk.injEq] at hp
      rw [← hp.1, List.map_cons, List.map_cons, ih h2, (writerStep_spec h1).1]

/-- Fields of the stream a frame step does not touch. -/
structure Keeps (a b : SState) : Prop where
  cfg : b.cfg = a.cfg
  multiscale : b.multiscale = a.multiscale
  buf : b.buf = a.buf
  offset : b.offset = a.offset
  cfgs : b.levels.map (·.cfg) = a.levels.map (·.cfg)

theorem writeLevel0_keeps {env : Env} {st st' : SState} {data : Bytes} {k : Nat}
    (h : writeLevel0 env st data = .ok (st', k)) : Keeps st st' := by
  unfold writeLevel0 at h
  split at h
  · simp at h
  · rename_i l0 rest hl
    obtain ⟨⟨l0', n, evs, errs⟩, h1, h⟩ := Res.bind_eq_ok.1 h
    simp only [Res.pure_eq, Res.ok.injEq, Prod.mk.injEq] at h
    rw [← h.1]
    exact ⟨rfl, rfl, rfl, rfl, by simp [hl, (writerStep_spec h1).1]⟩

theorem writeMultiscale_keeps {env : Env} {st st' : SState} {data : Bytes}
    (h : writeMultiscale env st data = .ok st') : Keeps st st' := by
  unfold writeMultiscale at h
  split at h
  · cases h; exact ⟨rfl, rfl, rfl, rfl, rfl⟩
  · split at h
    · cases h; exact ⟨rfl, rfl, rfl, rfl, rfl⟩
    · rename_i l0 rest hl
      obtain ⟨⟨rest', evs, errs⟩, h1, h⟩ := Res.bind_eq_ok.1 h
      simp only [Res.pure_eq, Res.ok.injEq] at h
      rw [← h]
      exact ⟨rfl, rfl, rfl, rfl, by simp [hl, pyramidLoop_cfgs h1]⟩

theorem Keeps.trans {a b c : SState} (h : Keeps a b) (h' : Keeps b c) : Keeps a c :=
  ⟨h'.cfg.trans h.cfg, h'.multiscale.trans h.multiscale, h'.buf.trans h.buf, h'.offset.trans h.offset,
    h'.cfgs.trans h.cfgs⟩

theorem frameStep_keeps {env : Env} {st st' : SState} {data : Bytes} (h : frameStep env st data = .ok st') :
    Keeps st st' := by
  unfold frameStep at h
  obtain ⟨⟨s1, k⟩, h1, h2⟩ := Res.bind_eq_ok.1 h
  exact (writeLevel0_keeps h1).trans (writeMultiscale_keeps h2)

theorem foldFrames_keeps {env : Env} {fs : List Bytes} {st st' : SState} (h : foldFrames env fs st = .ok st') :
    Keeps st st' := by
  induction fs generalizing st with
  | nil => cases h; exact ⟨rfl, rfl, rfl, rfl, rfl⟩
  | cons f fs ih =>
    rw [foldFrames] at h
    obtain ⟨s1, h1, h2⟩ := Res.bind_eq_ok.1 h
    exact (frameStep_keeps h1).trans (ih h2)

theorem Aligned.keeps {F : Nat} {a b : SState} (h : Aligned F a) (k : Keeps a b) : Aligned F b := by
  obtain ⟨h1, h2, l0, rest, h3, h4⟩ := h
  refine ⟨k.offset.trans h1, by rw [k.buf, h2], ?_⟩
  have := k.cfgs
  rw [h3] at this
  cases hb : b.levels with
  | nil => rw [hb] at this; simp at this
  | cons x xs =>
    rw [hb] at this
    simp only [List.map_cons, List.cons.injEq] at this
    exact ⟨x, xs, rfl, by rw [this.1]; exact h4⟩

theorem foldFrames_append {env : Env} (a b : List Bytes) (st : SState) :
    foldFrames env (a ++ b) st = (foldFrames env a st >>= foldFrames env b) := by
  induction a generalizing st with
  | nil => rfl
  | cons f fs ih =>
    simp only [List.cons_append, foldFrames]
    cases h : frameStep env st f with
    | throw => rfl
    | ub => rfl
    | ok r => simp only [Res.bind_ok, ih]

/-- Lifts the outcome of the frames to the outcome of `append`. -/
def liftRes (n : Nat) : Res SState → Option (Res (SState × Nat))
  | .ok st => some (.ok (st, n))
  | .throw => some .throw
  | .ub => some .ub

theorem appendLoop_aligned {env : Env} {F : Nat} (hF : 0 < F) (frames : List Bytes)
    (hf : ∀ f ∈ frames, f.length = F) (pre : Bytes) {fuel : Nat} (hfuel : frames.length ≤ fuel)
    {st : SState} (ha : Aligned F st) :
    appendLoop env (pre ++ frames.flatten) fuel pre.length pre.length st =
      liftRes (pre ++ frames.flatten).length (foldFrames env frames st) := by
  induction frames generalizing pre fuel st with
  | nil =>
    unfold appendLoop
    rw [if_pos (by simp)]
    simp [foldFrames, liftRes]
  | cons f fs ih =>
    have hlen := hf f (by simp)
    have hfs := fun x hx => hf x (List.mem_cons_of_mem _ hx)
    obtain ⟨fuel, rfl⟩ : ∃ k, fuel = k + 1 := ⟨fuel - 1, by simp at hfuel; omega⟩
    unfold appendLoop
    have htot : (pre ++ (f :: fs).flatten).length = pre.length + F + fs.flatten.length := by
      simp [hlen]; omega
    rw [if_neg (by rw [htot]; omega)]
    simp only [ha.offset, ha.buf]
    rw [if_neg (by omega), if_neg (by rw [htot]; omega), if_neg (by rw [htot]; omega)]
    have hsl : slice (pre ++ (f :: fs).flatten) pre.length F = f := by
      unfold slice
      rw [List.drop_left, List.flatten_cons, ← hlen, List.take_left]
    rw [hsl, foldFrames]
    unfold frameStep
    cases h0 : writeLevel0 env st f with
    | throw => simp [liftRes]
    | ub => simp [liftRes]
    | ok r =>
      obtain ⟨st2, k⟩ := r
      have hk : k = F := by
        obtain ⟨l0, rest, hl, hb⟩ := ha.level0
        unfold writeLevel0 at h0
        rw [hl] at h0
        obtain ⟨⟨l0', n, evs, errs⟩, h1, h⟩ := Res.bind_eq_ok.1 h0
        simp only [Res.pure_eq, Res.ok.injEq, Prod.mk.injEq] at h
        rw [← h.2, ← hlen]
        exact writeFrame_ret (hb.trans hlen.symm) (writerStep_spec h1).2.2.1
      subst hk
      simp only [Res.bind_ok]
      rw [if_neg (by omega)]
      cases h1 : writeMultiscale env st2 f with
      | throw => simp [liftRes]
      | ub => simp [liftRes]
      | ok st3 =>
        simp only [Res.bind_ok]
        have ha3 : Aligned k st3 := ha.keeps ((writeLevel0_keeps h0).trans (writeMultiscale_keeps h1))
        have := ih hfs (pre ++ f) (fuel := fuel) (by simp at hfuel; omega) ha3
        have e : pre ++ f ++ fs.flatten = pre ++ (f :: fs).flatten := by simp
        rw [e] at this
        rw [← this]
        simp [hlen]

theorem append_aligned {env : Env} {F : Nat} (hF : 0 < F) (frames : List Bytes)
    (hf : ∀ f ∈ frames, f.length = F) {fuel : Nat} (hfuel : frames.length ≤ fuel)
    {st : SState} (ha : Aligned F st) (he : st.error = []) :
    append env fuel frames.flatten st = liftRes frames.flatten.length (foldFrames env frames st) := by
  unfold append
  rw [he]
  have := appendLoop_aligned hF frames hf [] hfuel ha (env := env)
  simpa using this

theorem flatten_length_ge {F : Nat} (hF : 0 < F) {frames : List Bytes} (hf : ∀ f ∈ frames, f.length = F) :
    frames.length ≤ frames.flatten.length := by
  induction frames with
  | nil => simp
  | cons f fs ih =>
    have := ih (fun x hx => hf x (List.mem_cons_of_mem _ hx))
    have := hf f (by simp)
    rw [List.flatten_cons, List.length_append, List.length_cons]; omega

/-- Successful calls that each pass whole frames: the same as the frames one after another. -/
theorem appends_aligned_ok {env : Env} {F : Nat} (hF : 0 < F) (calls : List (List Bytes))
    (hf : ∀ c ∈ calls, ∀ f ∈ c, f.length = F) {st st' : SState} {ns : List Nat} (ha : Aligned F st)
    (h : appends env (calls.map List.flatten) st = .ok (st', ns)) :
    foldFrames env calls.flatten st = .ok st' ∧ ns = calls.map fun c => c.flatten.length := by
  induction calls generalizing st ns with
  | nil =>
    simp only [List.map_nil, appends, Res.ok.injEq, Prod.mk.injEq] at h
    obtain ⟨rfl, rfl⟩ := h
    exact ⟨rfl, rfl⟩
  | cons c cs ih =>
    rw [List.map_cons, appends] at h
    have hc := hf c (by simp)
    have hcs := fun x hx => hf x (List.mem_cons_of_mem _ hx)
    by_cases he : st.error = []
    · rw [append_aligned hF c hc (by unfold appendFuel; have := flatten_length_ge hF hc; omega) ha he] at h
      cases hff : foldFrames env c st with
      | throw => rw [hff] at h; simp [liftRes] at h
      | ub => rw [hff] at h; simp [liftRes] at h
      | ok s1 =>
        rw [hff] at h
        simp only [liftRes] at h
        obtain ⟨⟨s2, ns2⟩, h1, h2⟩ := Res.bind_eq_ok.1 h
        simp only [Res.pure_eq, Res.ok.injEq, Prod.mk.injEq] at h2
        obtain ⟨rfl, rfl⟩ := h2
        obtain ⟨h3, h4⟩ := ih hcs (ha.keeps (foldFrames_keeps hff)) h1
        refine ⟨?_, by simp [h4]⟩
        rw [List.flatten_cons, foldFrames_append, hff]
        exact h3
    · have : append env (appendFuel c.flatten) c.flatten st = some .throw := by
        unfold append
        rw [if_pos]
        cases hh : st.error with
        | nil => exact absurd hh he
        | cons a b => rfl
      rw [this] at h
      simp at h

/-- The converse, when no frame leaves an error message behind. -/
theorem appends_aligned_of_ok {env : Env} {F : Nat} (hF : 0 < F) (calls : List (List Bytes))
    (hf : ∀ c ∈ calls, ∀ f ∈ c, f.length = F) {st st' : SState} (ha : Aligned F st)
    (he : ∀ k s, foldFrames env (calls.flatten.take k) st = .ok s → s.error = [])
    (h : foldFrames env calls.flatten st = .ok st') :
    appends env (calls.map List.flatten) st = .ok (st', calls.map fun c => c.flatten.length) := by
  induction calls generalizing st with
  | nil =>
    simp only [List.flatten_nil, foldFrames, Res.ok.injEq] at h
    subst h
    rfl
  | cons c cs ih =>
    have hc := hf c (by simp)
    have hcs := fun x hx => hf x (List.mem_cons_of_mem _ hx)
    rw [List.map_cons, appends]
    have he0 : st.error = [] := he 0 st rfl
    rw [append_aligned hF c hc (by unfold appendFuel; have := flatten_length_ge hF hc; omega) ha he0]
    rw [List.flatten_cons, foldFrames_append] at h
    obtain ⟨s1, h1, h2⟩ := Res.bind_eq_ok.1 h
    rw [h1]
    simp only [liftRes]
    rw [ih hcs (ha.keeps (foldFrames_keeps h1)) ?_ h2]
    · rfl
    · intro k s hs
      apply he (c.length + k) s
      rw [List.flatten_cons, List.take_length_add_append, foldFrames_append, h1]
      exact hs

end AZ
