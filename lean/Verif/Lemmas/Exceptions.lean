import Verif.Model.Exceptions
import Verif.Lemmas.Owned
import Verif.Lemmas.StreamRun

set_option linter.unusedSimpArgs false

/-! # The model with exception states agrees with the one without, as long as nothing throws -/

namespace AZ
namespace Exc

/-- The same outcome: equal states if it returns, and both throw or both are undefined. -/
def Agree {σ τ α : Type} (lift : τ → σ) (o : Out σ α) : Res (τ × α) → Prop
  | .ok (s, a) => o = .ok a (lift s)
  | .throw => ∃ w, o = .throw w
  | .ub => o = .ub

/-- A writer without null sinks. -/
def XW.of (s : WState) : XW := ⟨s, 0⟩

variable {env : Env} {cfg : WConfig}

theorem agree_of {st : WState} {r : Res WState} {t : XW} :
    Agree XW.of (Out.of (r.bind fun s => .ok ⟨s, 0⟩) t) (r.bind fun s => .ok (s, ())) := by
  cases r with
  | ok s => rfl
  | throw => exact ⟨_, rfl⟩
  | ub => rfl

theorem Agree.bind {σ τ α β : Type} {lift : τ → σ} {o : Out σ α} {r : Res (τ × α)} {f : α → σ → Out σ β}
    {g : τ × α → Res (τ × β)} (h : Agree lift o r) (hf : ∀ s a, Agree lift (f a (lift s)) (g (s, a))) :
    Agree lift (o.bind f) (r.bind g) := by
  cases r with
  | ok p => obtain ⟨s, a⟩ := p; have h : o = .ok a (lift s) := h; subst h; exact hf s a
  | throw => obtain ⟨w, h⟩ := h; subst h; exact ⟨w, rfl⟩
  | ub => have h : o = .ub := h; subst h; rfl

theorem agree_flushImpl (st : WState) :
    Agree XW.of (flushImpl env cfg (XW.of st)) ((AZ.flushImpl env cfg st).bind fun s => .ok (s, ())) := by
  unfold flushImpl AZ.flushImpl XW.of
  cases cfg.version with
  | v2 => exact agree_of (st := st)
  | v3 =>
    show Agree XW.of (if 0 > 0 then _ else _) _
    rw [if_neg (Nat.lt_irrefl 0)]
    exact agree_of (st := st)

theorem agree_rollover (st : WState) :
    Agree XW.of (rolloverX env (XW.of st)) ((rollover env st).bind fun s => .ok (s, ())) := agree_of (st := st)

theorem agree_meta (st : WState) :
    Agree XW.of (writeArrayMetadataX env cfg (XW.of st)) ((writeArrayMetadata env cfg st).bind fun s => .ok (s, ())) := by
  unfold writeArrayMetadataX XW.of
  exact agree_of (st := st)

/-- Splitting a step off a sequence. -/
theorem res_split {τ α β : Type} (r : Res τ) (k : τ → Res α) (g : α → Res β) :
    (r >>= k).bind g = (r.bind fun s => .ok (s, ())).bind fun p => (k p.1).bind g := by cases r <;> rfl

theorem agree_ok (st : WState) : Agree XW.of (Out.ok () (XW.of st)) ((Res.ok st).bind fun s => .ok (s, ())) := rfl

theorem agree_flush (st : WState) :
    Agree XW.of (flushX env cfg (XW.of st)) ((flush env cfg st).bind fun s => .ok (s, ())) := by
  rw [flush_seq]
  unfold flushX
  show Agree XW.of (if st.bytesToFlush = 0 then _ else _) _
  split
  · rfl
  · rw [res_split]
    refine (agree_flushImpl (compressBuffers env cfg st)).bind ?_
    intro s _
    show Agree XW.of (match shouldRollover cfg s with | .throw => _ | .ub => _ | .ok roll => _)
      ((shouldRollover cfg s >>= _).bind _)
    cases shouldRollover cfg s with
    | throw => exact ⟨_, rfl⟩
    | ub => rfl
    | ok roll =>
      rw [Res.bind_ok, res_split]
      have h3 : Agree XW.of (if roll then rolloverX env (XW.of s) else .ok () (XW.of s))
          ((if roll then rollover env s else .ok s).bind fun s => .ok (s, ())) := by
        cases roll with
        | true => exact agree_rollover s
        | false => exact agree_ok s
      refine h3.bind ?_
      intro s3 _
      dsimp only
      rw [res_split]
      have h4 : Agree XW.of (if roll || (XW.of s3).st.finalizing then writeArrayMetadataX env cfg (XW.of s3) else .ok () (XW.of s3))
          ((if roll || s3.finalizing then writeArrayMetadata env cfg s3 else .ok s3).bind fun s => .ok (s, ())) := by
        show Agree XW.of (if roll || s3.finalizing then _ else _) _
        cases roll || s3.finalizing with
        | true => exact agree_meta s3
        | false => exact agree_ok s3
      refine h4.bind ?_
      intro s4 _
      rfl

/-- The frame is in the buffers. -/
abbrev counted (s0 : WState) (bufs : List Bytes) (n : Nat) : WState :=
  { s0 with bufs := bufs, bytesToFlush := u64 (s0.bytesToFlush + n), framesWritten := u32 (s0.framesWritten + 1) }

theorem agree_core (data : Bytes) (s0 : WState) :
    Agree XW.of (match writeFrameToChunks cfg.dims s0.framesWritten data s0.bufs with
      | .throw => .throw ({ XW.of s0 with st := s0 } : XW)
      | .ub => .ub
      | .ok (bufs, n) =>
        if n ≠ data.length then .throw ({ XW.of s0 with st := { s0 with bufs := bufs } } : XW) else
        match shouldFlush cfg.dims (counted s0 bufs n) with
        | .throw => .throw { XW.of s0 with st := (counted s0 bufs n) }
        | .ub => .ub
        | .ok fl =>
          (if fl then flushX env cfg { XW.of s0 with st := (counted s0 bufs n) }
            else .ok () { XW.of s0 with st := (counted s0 bufs n) }).bind fun _ w => .ok n w)
      (writeFrameToChunks cfg.dims s0.framesWritten data s0.bufs >>= fun r =>
      check (r.2 == data.length) >>= fun _ =>
      shouldFlush cfg.dims (counted s0 r.1 r.2) >>= fun fl =>
      (if fl then flush env cfg (counted s0 r.1 r.2) else .ok (counted s0 r.1 r.2)) >>= fun s2 =>
      pure (s2, r.2)) := by
  cases writeFrameToChunks cfg.dims s0.framesWritten data s0.bufs with
  | throw => exact ⟨_, rfl⟩
  | ub => rfl
  | ok r =>
    obtain ⟨b, n⟩ := r
    rw [Res.bind_ok]
    dsimp only
    by_cases hn : n = data.length
    · rw [if_neg (by simp [hn]), show check (n == data.length) = .ok () by simp [check, hn], Res.bind_ok]
      generalize counted s0 b n = s1
      cases shouldFlush cfg.dims s1 with
      | throw => exact ⟨_, rfl⟩
      | ub => rfl
      | ok fl =>
        rw [Res.bind_ok]
        dsimp only
        have hb : ∀ (r : Res WState), (r >>= fun s2 => pure (s2, n) : Res (WState × Nat)) =
            (r.bind fun s => .ok (s, ())).bind fun p => .ok (p.1, n) := fun r => by cases r <;> rfl
        rw [hb]
        have h3 : Agree XW.of (if fl then flushX env cfg (XW.of s1) else .ok () (XW.of s1))
            ((if fl then flush env cfg s1 else .ok s1).bind fun s => .ok (s, ())) := by
          cases fl with
          | true => exact agree_flush s1
          | false => exact agree_ok s1
        exact h3.bind fun s _ => rfl
    · rw [if_pos hn, show check (n == data.length) = .throw by simp [check, hn]]
      exact ⟨_, rfl⟩


theorem agree_writeFrame (data : Bytes) (st : WState) :
    Agree XW.of (writeFrameX env cfg data (XW.of st)) (writeFrame env cfg data st) := by
  rw [writeFrame_seq]
  unfold writeFrameX
  split
  · rfl
  · cases hb : st.bufs.isEmpty with
    | true =>
      have hb' : (XW.of st).st.bufs.isEmpty = true := hb
      simp only [hb', if_true]
      exact agree_core data { st with bufs := makeBuffers cfg.dims }
    | false =>
      have hb' : (XW.of st).st.bufs.isEmpty = false := hb
      simp only [hb', Bool.false_eq_true, if_false]
      exact agree_core data st

/-- A level without null sinks. -/
def XLevel.of (l : Level) : XLevel := ⟨l.cfg, ⟨l.st, 0⟩, l.saved⟩

/-- The result of the level loop. -/
def XPyramid.of (p : List Level × List Ev × List Text) : XPyramid := ⟨p.1.map XLevel.of, p.2.1, p.2.2⟩

theorem agree_pyramid {t : DType} (lvs : List Level) (data : Bytes) (w h : Nat) :
    Agree XPyramid.of (pyramidLoopX env t (lvs.map XLevel.of) data w h)
      ((pyramidLoop env t lvs data w h).bind fun p => .ok (p, ())) := by
  induction lvs generalizing data w h with
  | nil => rfl
  | cons lv rest ih =>
    rw [List.map_cons]
    unfold pyramidLoopX pyramidLoop
    cases scaleImage t data w h with
    | throw => exact ⟨_, rfl⟩
    | ub => rfl
    | ok s =>
      rw [Res.bind_ok]
      dsimp only
      cases hs : lv.saved with
      | none =>
        have : (XLevel.of lv).saved = none := hs
        rw [this]
        dsimp only
        show Out.ok () _ = Out.ok () _
        unfold XPyramid.of
        rfl
      | some px =>
        have : (XLevel.of lv).saved = some px := hs
        rw [this]
        dsimp only
        have hw := agree_writeFrame (env := env) (cfg := lv.cfg) (averageFrames t s.px px) lv.st
        unfold writerStep
        show Agree XPyramid.of (match writeFrameX env lv.cfg (averageFrames t s.px px) (XW.of lv.st) with
          | .ub => _ | .throw w' => _ | .ok n w' => _) _
        dsimp only
        cases hr : writeFrame env lv.cfg (averageFrames t s.px px) lv.st with
        | throw =>
          rw [hr] at hw
          obtain ⟨w', hw⟩ := hw
          rw [hw]
          exact ⟨_, rfl⟩
        | ub =>
          rw [hr] at hw
          have hw : writeFrameX env lv.cfg (averageFrames t s.px px) (XW.of lv.st) = .ub := hw
          rw [hw]
          rfl
        | ok p =>
          obtain ⟨st', n⟩ := p
          rw [hr] at hw
          have hw : writeFrameX env lv.cfg (averageFrames t s.px px) (XW.of lv.st) = .ok n (XW.of st') := hw
          rw [hw]
          dsimp only
          simp only [Res.bind_ok, Res.pure_eq]
          by_cases hn : n = 0
          · rw [if_pos hn, show check (n != 0) = .throw by simp [check, hn]]
            exact ⟨_, rfl⟩
          · rw [if_neg hn, show check (n != 0) = .ok () by simp [check, hn], Res.bind_ok]
            have := ih (averageFrames t s.px px) s.w s.h
            cases hr2 : pyramidLoop env t rest (averageFrames t s.px px) s.w s.h with
            | throw =>
              rw [hr2] at this
              obtain ⟨w', this⟩ := this
              rw [this]
              exact ⟨_, rfl⟩
            | ub =>
              rw [hr2] at this
              have this : pyramidLoopX env t (rest.map XLevel.of) (averageFrames t s.px px) s.w s.h = .ub := this
              rw [this]
              rfl
            | ok q =>
              obtain ⟨r', e', m'⟩ := q
              rw [hr2] at this
              have this : pyramidLoopX env t (rest.map XLevel.of) (averageFrames t s.px px) s.w s.h =
                .ok () (XPyramid.of (r', e', m')) := this
              rw [this]
              rfl

theorem agree_multiscale (s : SState) (data : Bytes) :
    Agree XStream.of (writeMultiscaleX env (XStream.of s) data) ((writeMultiscale env s data).bind fun s => .ok (s, ())) := by
  unfold writeMultiscaleX writeMultiscale
  show Agree XStream.of (if !s.multiscale then _ else _) _
  cases hm : s.multiscale with
  | false => rfl
  | true =>
    simp only [Bool.not_true, Bool.false_eq_true, if_false]
    cases hl : s.levels with
    | nil =>
      have : (XStream.of s).levels = [] := by unfold XStream.of; rw [hl]; rfl
      rw [this]
      rfl
    | cons l0 rest =>
      have : (XStream.of s).levels = XLevel.of l0 :: rest.map XLevel.of := by unfold XStream.of; rw [hl]; rfl
      rw [this]
      dsimp only
      have hp := agree_pyramid (env := env) (t := s.cfg.dims.dtype) rest data s.cfg.dims.width.arraySize
        s.cfg.dims.height.arraySize
      show Agree XStream.of (match pyramidLoopX env s.cfg.dims.dtype (rest.map XLevel.of) data s.cfg.dims.width.arraySize
        s.cfg.dims.height.arraySize with | .ub => _ | .throw p => _ | .ok _ p => _) _
      cases hr : pyramidLoop env s.cfg.dims.dtype rest data s.cfg.dims.width.arraySize s.cfg.dims.height.arraySize with
      | throw =>
        rw [hr] at hp
        obtain ⟨w', hp⟩ := hp
        rw [hp]
        exact ⟨_, rfl⟩
      | ub =>
        rw [hr] at hp
        have hp : pyramidLoopX env s.cfg.dims.dtype (rest.map XLevel.of) data s.cfg.dims.width.arraySize
          s.cfg.dims.height.arraySize = .ub := hp
        rw [hp]
        rfl
      | ok q =>
        obtain ⟨r', e', m'⟩ := q
        rw [hr] at hp
        have hp : pyramidLoopX env s.cfg.dims.dtype (rest.map XLevel.of) data s.cfg.dims.width.arraySize
          s.cfg.dims.height.arraySize = .ok () (XPyramid.of (r', e', m')) := hp
        rw [hp]
        show Out.ok () _ = Out.ok () _
        unfold XStream.afterPyramid XStream.of XPyramid.of
        simp only [List.map_cons, hm]
        rfl

theorem agree_level0 (s : SState) (data : Bytes) :
    Agree XStream.of (writeLevel0X env (XStream.of s) data) (writeLevel0 env s data) := by
  unfold writeLevel0X writeLevel0
  cases hl : s.levels with
  | nil =>
    have : (XStream.of s).levels = [] := by unfold XStream.of; rw [hl]; rfl
    rw [this]
    rfl
  | cons l0 rest =>
    have : (XStream.of s).levels = XLevel.of l0 :: rest.map XLevel.of := by unfold XStream.of; rw [hl]; rfl
    rw [this]
    dsimp only
    have hw := agree_writeFrame (env := env) (cfg := l0.cfg) data l0.st
    unfold writerStep
    show Agree XStream.of (match writeFrameX env l0.cfg data (XW.of l0.st) with
      | .ub => _ | .throw w' => _ | .ok n w' => _) _
    dsimp only
    cases hr : writeFrame env l0.cfg data l0.st with
    | throw =>
      rw [hr] at hw
      obtain ⟨w', hw⟩ := hw
      rw [hw]
      exact ⟨_, rfl⟩
    | ub =>
      rw [hr] at hw
      have hw : writeFrameX env l0.cfg data (XW.of l0.st) = .ub := hw
      rw [hw]
      rfl
    | ok p =>
      obtain ⟨st', n⟩ := p
      rw [hr] at hw
      have hw : writeFrameX env l0.cfg data (XW.of l0.st) = .ok n (XW.of st') := hw
      rw [hw]
      rfl

/-- The two loops have the same outcome. -/
def AgreeLoop (o : Option (Out XStream Nat)) : Option (Res (SState × Nat)) → Prop
  | none => o = none
  | some r => ∃ x, o = some x ∧ Agree XStream.of x r

theorem agree_appendLoop (data : Bytes) (fuel ptr bw : Nat) (s : SState) :
    AgreeLoop (appendLoopX env data fuel ptr bw (XStream.of s)) (appendLoop env data fuel ptr bw s) := by
  induction fuel generalizing ptr bw s with
  | zero =>
    unfold appendLoopX appendLoop
    split
    · exact ⟨_, rfl, rfl⟩
    · rfl
  | succ fuel ih =>
    unfold appendLoopX appendLoop
    split
    · exact ⟨_, rfl, rfl⟩
    · dsimp only
      show AgreeLoop (if s.offset > 0 then _ else _) _
      split
      · show AgreeLoop (if ptr + bw + min (s.buf.length - s.offset) (data.length - bw) > data.length then _ else _) _
        split
        · exact ⟨_, rfl, rfl⟩
        · show AgreeLoop (if s.offset + min (s.buf.length - s.offset) (data.length - bw) = s.buf.length then _ else _) _
          split
          · show AgreeLoop (if ptr + s.buf.length > data.length then _ else _) _
            split
            · exact ⟨_, rfl, rfl⟩
            · have hw := agree_level0 (env := env) { s with
                buf := pwrite s.buf s.offset (slice data (ptr + bw) (min (s.buf.length - s.offset) (data.length - bw)))
                offset := s.offset + min (s.buf.length - s.offset) (data.length - bw) } (slice data ptr s.buf.length)
              generalize hx : ({ s with
                buf := pwrite s.buf s.offset (slice data (ptr + bw) (min (s.buf.length - s.offset) (data.length - bw)))
                offset := s.offset + min (s.buf.length - s.offset) (data.length - bw) } : SState) = s1 at hw ⊢
              have hx' : ({ XStream.of s with
                buf := pwrite (XStream.of s).buf (XStream.of s).offset (slice data (ptr + bw)
                  (min ((XStream.of s).buf.length - (XStream.of s).offset) (data.length - bw)))
                offset := (XStream.of s).offset + min ((XStream.of s).buf.length - (XStream.of s).offset) (data.length - bw) } : XStream)
                = XStream.of s1 := by rw [← hx]; rfl
              rw [hx']
              show AgreeLoop (match writeLevel0X env (XStream.of s1) (slice data ptr s.buf.length) with
                | .throw s => _ | .ub => _ | .ok k st2 => _) _
              cases hr : writeLevel0 env s1 (slice data ptr s.buf.length) with
              | throw =>
                rw [hr] at hw
                obtain ⟨w', hw⟩ := hw
                rw [hw]
                exact ⟨_, rfl, _, rfl⟩
              | ub =>
                rw [hr] at hw
                have hw : writeLevel0X env (XStream.of s1) (slice data ptr s.buf.length) = .ub := hw
                rw [hw]
                exact ⟨_, rfl, rfl⟩
              | ok p =>
                obtain ⟨s2, k⟩ := p
                rw [hr] at hw
                have hw : writeLevel0X env (XStream.of s1) (slice data ptr s.buf.length) = .ok k (XStream.of s2) := hw
                rw [hw]
                dsimp only
                split
                · exact ⟨_, rfl, rfl⟩
                · exact ih _ _ { s2 with offset := 0 }
          · exact ih ptr _ { s with
                buf := pwrite s.buf s.offset (slice data (ptr + bw) (min (s.buf.length - s.offset) (data.length - bw)))
                offset := s.offset + min (s.buf.length - s.offset) (data.length - bw) }
      · show AgreeLoop (if data.length - bw < s.buf.length then _ else _) _
        split
        · split
          · exact ⟨_, rfl, rfl⟩
          · exact ih ptr _ { s with
              buf := pwrite s.buf 0 (slice data ptr (data.length - bw))
              offset := data.length - bw }
        · show AgreeLoop (if ptr + s.buf.length > data.length then _ else _) _
          split
          · exact ⟨_, rfl, rfl⟩
          · have hw := agree_level0 (env := env) s (slice data ptr s.buf.length)
            show AgreeLoop (match writeLevel0X env (XStream.of s) (slice data ptr s.buf.length) with
              | .throw s => _ | .ub => _ | .ok k st2 => _) _
            cases hr : writeLevel0 env s (slice data ptr s.buf.length) with
            | throw =>
              rw [hr] at hw
              obtain ⟨w', hw⟩ := hw
              rw [hw]
              exact ⟨_, rfl, _, rfl⟩
            | ub =>
              rw [hr] at hw
              have hw : writeLevel0X env (XStream.of s) (slice data ptr s.buf.length) = .ub := hw
              rw [hw]
              exact ⟨_, rfl, rfl⟩
            | ok p =>
              obtain ⟨s2, k⟩ := p
              rw [hr] at hw
              have hw : writeLevel0X env (XStream.of s) (slice data ptr s.buf.length) = .ok k (XStream.of s2) := hw
              rw [hw]
              dsimp only
              split
              · exact ⟨_, rfl, rfl⟩
              · have hm := agree_multiscale (env := env) s2 (slice data ptr s.buf.length)
                show AgreeLoop (match writeMultiscaleX env (XStream.of s2) (slice data ptr s.buf.length) with
                  | .throw s => _ | .ub => _ | .ok k st2 => _) _
                cases hr2 : writeMultiscale env s2 (slice data ptr s.buf.length) with
                | throw =>
                  rw [hr2] at hm
                  obtain ⟨w', hm⟩ := hm
                  rw [hm]
                  exact ⟨_, rfl, _, rfl⟩
                | ub =>
                  rw [hr2] at hm
                  have hm : writeMultiscaleX env (XStream.of s2) (slice data ptr s.buf.length) = .ub := hm
                  rw [hm]
                  exact ⟨_, rfl, rfl⟩
                | ok s3 =>
                  rw [hr2] at hm
                  have hm : writeMultiscaleX env (XStream.of s2) (slice data ptr s.buf.length) = .ok () (XStream.of s3) := hm
                  rw [hm]
                  exact ih _ _ s3

theorem agree_append (data : Bytes) (s : SState) :
    AgreeLoop (appendX env data (XStream.of s)) (append env (appendFuel data) data s) := by
  unfold appendX append
  show AgreeLoop (if !s.error.isEmpty then _ else _) _
  split
  · exact ⟨_, rfl, _, rfl⟩
  · exact agree_appendLoop data _ 0 0 s

/-- A sequence of append calls that all succeed is the same in both models. -/
theorem calls_of_appends {calls : List Bytes} {s s' : SState} {ns : List Nat} (h : appends env calls s = .ok (s', ns)) :
    callsX (calls.map fun d => (env, d)) (XStream.of s) = some (XStream.of s', ns.map some) := by
  induction calls generalizing s ns with
  | nil => cases h; rfl
  | cons d ds ih =>
    unfold appends at h
    have ha := agree_append (env := env) d s
    split at h
    · simp at h
    · simp at h
    · simp at h
    · rename_i s1 n h1
      obtain ⟨⟨s2, ns2⟩, h2, h⟩ := Res.bind_eq_ok.1 h
      cases h
      rw [h1] at ha
      obtain ⟨x, hx, ha⟩ := ha
      have ha : x = .ok n (XStream.of s1) := ha
      subst ha
      rw [List.map_cons]
      unfold callsX
      rw [hx]
      dsimp only
      rw [ih h2]
      rfl

theorem agree_finalizeArray (st : WState) :
    Agree XW.of (finalizeArrayX env cfg (XW.of st)) ((finalizeArray env cfg st).bind fun s => .ok (s, ())) := by
  rw [finalizeArray_seq, res_split]
  unfold finalizeArrayX
  refine (agree_flush { st with finalizing := true }).bind ?_
  intro s1 _
  dsimp only
  show Agree XW.of (if s1.metaSink then _ else _) _
  cases hm : s1.metaSink with
  | false => rfl
  | true =>
    simp only [if_true]
    cases hf : env.finalize (arrayMetaPath cfg) with
    | false =>
      rw [show check false = .throw from rfl]
      exact ⟨_, rfl⟩
    | true =>
      rw [show check true = .ok () from rfl]
      rfl

theorem finalizeLevels_of {lvs : List Level} {evs : List Ev} (h : finalizeLevels env lvs = .ok evs) :
    finalizeLevelsX env (lvs.map XLevel.of) = some (evs, true) := by
  induction lvs generalizing evs with
  | nil => cases h; rfl
  | cons lv rest ih =>
    unfold finalizeLevels at h
    obtain ⟨st', h1, h⟩ := Res.bind_eq_ok.1 h
    obtain ⟨e2, h2, h⟩ := Res.bind_eq_ok.1 h
    cases h
    have ha := agree_finalizeArray (env := env) (cfg := lv.cfg) lv.st
    rw [h1] at ha
    have ha : finalizeArrayX env lv.cfg (XW.of lv.st) = .ok () (XW.of st') := ha
    rw [List.map_cons]
    unfold finalizeLevelsX
    show (match finalizeArrayX env lv.cfg (XW.of lv.st) with | .ub => _ | .throw w => _ | .ok _ w => _) = _
    rw [ha]
    dsimp only
    rw [ih h2]
    rfl

/-- Closing a stream that has not met an exception. -/
theorem destroy_of {s : SState} {tr : List Ev} (h : destroyStream env s = .ok tr) :
    destroyX env (XStream.of s) = some (tr, true) := by
  unfold destroyStream at h
  obtain ⟨e1, h1, h⟩ := Res.bind_eq_ok.1 h
  obtain ⟨e2, h2, h⟩ := Res.bind_eq_ok.1 h
  obtain ⟨e3, h3, h⟩ := Res.bind_eq_ok.1 h
  cases h
  unfold destroyX
  have hl : (XStream.of s).levels = s.levels.map XLevel.of := rfl
  have hc : (XStream.of s).cfg = s.cfg := rfl
  dsimp only
  rw [hl, hc, List.length_map, h1]
  dsimp only
  rw [h2]
  dsimp only
  rw [finalizeLevels_of h3]
  rfl

end Exc
end AZ
