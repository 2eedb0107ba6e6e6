import Verif.Lemmas.SessionWorks
import Verif.Lemmas.WriterV3

set_option linter.unusedSimpArgs false

/-! # No undefined behaviour, whatever the storage does

The lemmas here hold for every environment: storage that fails, throws or silently drops writes. -/

namespace AZ
open Spec

theorem Res.bind_ne_ub {α β : Type} {x : Res α} {f : α → Res β} (hx : x ≠ .ub)
    (hf : ∀ a, x = .ok a → f a ≠ .ub) : (x >>= f) ≠ .ub := by
  cases x with
  | ok a => exact hf a rfl
  | throw => simp
  | ub => exact absurd rfl hx

theorem check_ne_ub (b : Bool) : check b ≠ .ub := by cases b <;> simp

/-- Size limits under which an array writer is used. -/
structure ArrOk (cfg : WConfig) : Prop where
  valid : cfg.dims.Valid
  fits : cfg.dims.Fits
  v3 : cfg.version = .v3 → cfg.dims.FitsV3

/-- The chunk buffers are not allocated yet, or there is one for every chunk, of the chunk's size. -/
def BufsHealthy (D : ArrayDims) (bufs : List Bytes) : Prop := bufs = [] ∨ Sized D bufs

theorem makeBuffers_healthy {D : ArrayDims} (hv : D.Valid) (hf : D.Fits) : Sized D (makeBuffers D) := by
  rw [ArrayDims.makeBuffers_eq hv hf (stream := []) (g := 0) (by simp)]
  exact layer_sized _ _ _

theorem compressBuffers_length (env : Env) (cfg : WConfig) (st : WState) :
    (compressBuffers env cfg st).bufs.length = st.bufs.length := by
  unfold compressBuffers
  split <;> simp

theorem appendSize_ne_ub (inner : List Dim) (n : Nat) : appendSize inner n ≠ .ub := by
  unfold appendSize
  induction inner with
  | nil => simp
  | cons d ds ih =>
    rw [List.foldr_cons]
    exact Res.bind_ne_ub ih fun a _ => Res.bind_ne_ub (check_ne_ub _) fun _ _ => by simp

theorem finalizeSinks_ne_ub (env : Env) (ps : List Text) : finalizeSinks env ps ≠ .ub := by
  induction ps with
  | nil => simp [finalizeSinks]
  | cons p ps ih =>
    rw [finalizeSinks]
    exact Res.bind_ne_ub (check_ne_ub _) fun _ _ => Res.bind_ne_ub ih fun _ _ => by simp

theorem rollover_ne_ub (env : Env) (st : WState) : rollover env st ≠ .ub := by
  unfold rollover
  exact Res.bind_ne_ub (finalizeSinks_ne_ub _ _) fun _ _ => by simp

theorem writeArrayMetadata_ne_ub (env : Env) (cfg : WConfig) (st : WState) :
    writeArrayMetadata env cfg st ≠ .ub := by
  unfold writeArrayMetadata
  refine Res.bind_ne_ub (check_ne_ub _) fun _ _ => ?_
  dsimp only
  refine Res.bind_ne_ub (appendSize_ne_ub _ _) fun n _ => ?_
  split <;> simp

theorem shouldRollover_ne_ub (cfg : WConfig) (st : WState) : shouldRollover cfg st ≠ .ub := by
  unfold shouldRollover
  split
  · simp
  · exact Res.bind_ne_ub (check_ne_ub _) fun _ _ => by simp

theorem makeDataSinks_bufs {env : Env} {cfg : WConfig} {st st' : WState} (h : makeDataSinks env cfg st = some st') :
    st'.bufs = st.bufs := by
  unfold makeDataSinks at h
  split at h
  · simp at h
  · split at h
    · cases h; rfl
    · simp at h

theorem flushImplV2_ne_ub (env : Env) (cfg : WConfig) (st : WState) : flushImplV2 env cfg st ≠ .ub := by
  unfold flushImplV2
  refine Res.bind_ne_ub (check_ne_ub _) fun _ _ => ?_
  split
  · simp
  · exact Res.bind_ne_ub (check_ne_ub _) fun _ _ => by simp

theorem shardIndicesOk_of {D : ArrayDims} (hv : D.Valid) (hf : D.Fits) (h3 : D.FitsV3) {n : Nat}
    (hn : n ≤ D.chunkCount) : shardIndicesOk D n = true := by
  unfold shardIndicesOk
  rw [List.all_eq_true]
  intro c hc
  have hc' := List.mem_range.1 hc
  rw [ArrayDims.numberOfShards_eq hv hf h3]
  simpa using ArrayDims.shardIndex_lt hv hf h3 (c := c) (by omega)

theorem flushImplV3_ne_ub {env : Env} {cfg : WConfig} (hv : cfg.dims.Valid) (hf : cfg.dims.Fits)
    (h3 : cfg.dims.FitsV3) {st : WState} (hb : st.bufs.length ≤ cfg.dims.chunkCount) :
    flushImplV3 env cfg st ≠ .ub := by
  unfold flushImplV3
  have key : ∀ st' : WState, (if st.dataSinks.isEmpty then makeDataSinks env cfg st else some st) = some st' →
      st'.bufs = st.bufs := by
    intro st' h
    split at h
    · exact makeDataSinks_bufs h
    · cases h; rfl
  dsimp only
  split
  · simp
  · rename_i st' hst
    refine Res.bind_ne_ub (check_ne_ub _) fun _ _ => ?_
    rw [shardIndicesOk_of hv hf h3 (by rw [key st' hst]; exact hb)]
    simp only [Bool.not_true, Bool.false_eq_true, if_false]
    exact Res.bind_ne_ub (shouldRollover_ne_ub _ _) fun _ _ =>
      Res.bind_ne_ub (check_ne_ub _) fun _ _ => by simp

theorem flushImpl_ne_ub {env : Env} {cfg : WConfig} (ok : ArrOk cfg) {st : WState}
    (hb : st.bufs.length ≤ cfg.dims.chunkCount) : flushImpl env cfg st ≠ .ub := by
  unfold flushImpl
  split
  · exact flushImplV2_ne_ub _ _ _
  · rename_i h
    exact flushImplV3_ne_ub ok.valid ok.fits (ok.v3 h) hb

theorem flush_ne_ub {env : Env} {cfg : WConfig} (ok : ArrOk cfg) {st : WState}
    (hb : BufsHealthy cfg.dims st.bufs) : flush env cfg st ≠ .ub := by
  rw [flush_seq]
  split
  · simp
  · refine Res.bind_ne_ub (flushImpl_ne_ub ok ?_) fun s2 _ =>
      Res.bind_ne_ub (shouldRollover_ne_ub _ _) fun roll _ =>
      Res.bind_ne_ub ?_ fun s3 _ => Res.bind_ne_ub ?_ fun s4 _ => by simp
    · rw [compressBuffers_length]
      rcases hb with h | h
      · simp [h]
      · exact Nat.le_of_eq h.1
    · split
      · exact rollover_ne_ub _ _
      · simp
    · split
      · exact writeArrayMetadata_ne_ub _ _ _
      · simp

theorem flush_healthy {env : Env} {cfg : WConfig} (ok : ArrOk cfg) {st st' : WState}
    (hb : BufsHealthy cfg.dims st.bufs) (h : flush env cfg st = .ok st') : BufsHealthy cfg.dims st'.bufs := by
  rw [flush_seq] at h
  split at h
  · cases h; exact hb
  · obtain ⟨s2, _, h⟩ := Res.bind_eq_ok.1 h
    obtain ⟨roll, _, h⟩ := Res.bind_eq_ok.1 h
    obtain ⟨s3, _, h⟩ := Res.bind_eq_ok.1 h
    obtain ⟨s4, _, h⟩ := Res.bind_eq_ok.1 h
    cases h
    exact .inr (makeBuffers_healthy ok.valid ok.fits)

/-- State of the buffers before a frame is copied. -/
theorem allocate_sized {cfg : WConfig} (ok : ArrOk cfg) {st : WState} (hb : BufsHealthy cfg.dims st.bufs) :
    Sized cfg.dims (if st.bufs.isEmpty then { st with bufs := makeBuffers cfg.dims } else st).bufs := by
  split
  · exact makeBuffers_healthy ok.valid ok.fits
  · rename_i h
    rcases hb with h' | h'
    · rw [h'] at h; simp at h
    · exact h'

/-- `write_frame` on a healthy writer, whatever the storage does. -/
theorem writeFrame_healthy {env : Env} {cfg : WConfig} (ok : ArrOk cfg) {st : WState} (data : Bytes)
    (hb : BufsHealthy cfg.dims st.bufs) : writeFrame env cfg data st ≠ .ub ∧
      ∀ st' n, writeFrame env cfg data st = .ok (st', n) → BufsHealthy cfg.dims st'.bufs ∧
        n = if data.length = cfg.dims.frameBytes then data.length else 0 := by
  rw [writeFrame_seq, ArrayDims.bytesOfFrame_eq ok.valid ok.fits]
  by_cases hd : data.length = cfg.dims.frameBytes
  · rw [if_neg (by simp [hd])]
    have hs := allocate_sized ok hb
    dsimp only
    generalize (if st.bufs.isEmpty then { st with bufs := makeBuffers cfg.dims } else st) = s0 at hs
    rw [ArrayDims.writeFrameToChunks_eq ok.valid ok.fits _ hd hs]
    simp only [Res.bind_ok, hd, beq_self_eq_true, check_true, shouldFlush_eq ok.valid ok.fits]
    have hs' := ArrayDims.writeFrameToChunks_sized ok.valid ok.fits s0.framesWritten hd hs
    generalize hs1 : ({ s0 with
        bufs := _
        bytesToFlush := _
        framesWritten := _ } : WState) = s1
    have hs1b : Sized cfg.dims s1.bufs := by rw [← hs1]; exact hs'
    constructor
    · refine Res.bind_ne_ub ?_ fun _ _ => by simp
      split
      · exact flush_ne_ub ok (.inr hs1b)
      · simp
    · intro st' n h
      obtain ⟨s2, h2, h⟩ := Res.bind_eq_ok.1 h
      simp only [Res.pure_eq, Res.ok.injEq, Prod.mk.injEq] at h
      refine ⟨?_, by rw [← h.2]; simp⟩
      rw [← h.1]
      split at h2
      · exact flush_healthy ok (.inr hs1b) h2
      · cases h2; exact .inr hs1b
  · rw [if_pos (fun h => hd h.symm)]
    refine ⟨by simp, fun st' n h => ?_⟩
    simp only [Res.ok.injEq, Prod.mk.injEq] at h
    rw [← h.1, if_neg hd]
    exact ⟨hb, h.2.symm⟩

theorem finalizeArray_ne_ub {env : Env} {cfg : WConfig} (ok : ArrOk cfg) {st : WState}
    (hb : BufsHealthy cfg.dims st.bufs) : finalizeArray env cfg st ≠ .ub := by
  rw [finalizeArray_seq]
  refine Res.bind_ne_ub (flush_ne_ub ok hb) fun s2 _ => ?_
  refine Res.bind_ne_ub ?_ fun _ _ => by simp
  split
  · exact Res.bind_ne_ub (check_ne_ub _) fun _ _ => by simp
  · simp

/-! ### The stream -/

theorem writerStep_healthy {env : Env} {lv : Level} (ok : ArrOk lv.cfg) (data : Bytes)
    (hb : BufsHealthy lv.cfg.dims lv.st.bufs) : writerStep env lv data ≠ .ub ∧
      ∀ lv' n evs errs, writerStep env lv data = .ok (lv', n, evs, errs) →
        lv'.cfg = lv.cfg ∧ lv'.saved = lv.saved ∧ BufsHealthy lv'.cfg.dims lv'.st.bufs ∧
        n = if data.length = lv.cfg.dims.frameBytes then data.length else 0 := by
  obtain ⟨h1, h2⟩ := writeFrame_healthy (env := env) ok data hb
  constructor
  · unfold writerStep
    exact Res.bind_ne_ub h1 fun _ _ => by simp
  · intro lv' n evs errs h
    obtain ⟨a, b, c, _⟩ := writerStep_spec h
    obtain ⟨d, e⟩ := h2 _ _ c
    exact ⟨a, b, by rw [a]; exact d, e⟩

/-- Saved half-averages have the size of a level's frame. -/
def SavedOk : List Level → Nat → Nat → Prop
  | [], _, _ => True
  | lv :: rest, w, h => (∀ px, lv.saved = some px → px.length = (h + h % 2) / 2 * ((w + w % 2) / 2)) ∧
      SavedOk rest ((w + w % 2) / 2) ((h + h % 2) / 2)

def LevelHealthy (lv : Level) : Prop := ArrOk lv.cfg ∧ BufsHealthy lv.cfg.dims lv.st.bufs

theorem pyramidLoop_healthy {env : Env} {t : DType} (ht : t ≠ .i8) {lvs : List Level} {f : Bytes}
    {w h : Nat} (hl : ∀ lv ∈ lvs, LevelHealthy lv) (hp : PyrOk t (lvs.map (·.cfg)) w h)
    (hs : SavedOk lvs w h) (hf : f.length = w * h * t.bytes) :
    pyramidLoop env t lvs f w h ≠ .ub ∧
      ∀ lvs' evs errs, pyramidLoop env t lvs f w h = .ok (lvs', evs, errs) →
        (∀ lv ∈ lvs', LevelHealthy lv) ∧ SavedOk lvs' w h := by
  induction lvs generalizing f w h with
  | nil =>
    refine ⟨by simp [pyramidLoop], fun lvs' evs errs h => ?_⟩
    simp only [pyramidLoop, Res.ok.injEq, Prod.mk.injEq] at h
    rw [← h.1]
    exact ⟨by simp, trivial⟩
  | cons lv rest ih =>
    obtain ⟨p1, p2, p3, p4, p5⟩ := hp
    obtain ⟨s1, s2⟩ := hs
    have hlv := hl lv (by simp)
    rw [pyramidLoop, scaleImage_works (scales_of ht) hf p1 p2 (p3 ▸ p4)]
    simp only [Res.bind_ok]
    cases hsv : lv.saved with
    | none =>
      refine ⟨by simp, fun lvs' evs errs h => ?_⟩
      simp only [Res.pure_eq, Res.ok.injEq, Prod.mk.injEq] at h
      rw [← h.1]
      refine ⟨?_, ?_, s2⟩
      · intro x hx
        rcases List.mem_cons.1 hx with rfl | hx
        · exact hlv
        · exact hl x (by simp [hx])
      · intro px hpx
        simp only [Option.some.injEq] at hpx
        rw [← hpx, scaledPx_length]
    | some px =>
      dsimp only
      have hpx := s1 px hsv
      have havg : (averageFrames t (scaledPx f w h) px).length =
          (w + w % 2) / 2 * ((h + h % 2) / 2) * t.bytes := by
        rw [averageFrames_length, scaledPx_length, hpx, Nat.min_self, Nat.mul_comm ((h + h % 2) / 2)]
      generalize hA : averageFrames t (scaledPx f w h) px = avg at havg ⊢
      obtain ⟨w1, w2⟩ := writerStep_healthy (env := env) (lv := { lv with saved := none }) hlv.1 avg hlv.2
      obtain ⟨i1, i2⟩ := ih (fun x hx => hl x (by simp [hx])) p5 s2 havg
      constructor
      · refine Res.bind_ne_ub w1 ?_
        rintro ⟨lv', n, evs, errs⟩ _
        refine Res.bind_ne_ub (check_ne_ub _) fun _ _ => Res.bind_ne_ub i1 fun _ _ => by simp
      · intro lvs' evs errs h
        obtain ⟨⟨lv', n, e1, r1⟩, h1, h⟩ := Res.bind_eq_ok.1 h
        dsimp only at h
        obtain ⟨_, _, h⟩ := Res.bind_eq_ok.1 h
        obtain ⟨⟨rest', e2, r2⟩, h2, h⟩ := Res.bind_eq_ok.1 h
        simp only [Res.pure_eq, Res.ok.injEq, Prod.mk.injEq] at h
        obtain ⟨a1, a2, a3, a4⟩ := w2 _ _ _ _ h1
        obtain ⟨b1, b2⟩ := i2 _ _ _ h2
        rw [← h.1]
        refine ⟨?_, ?_, b2⟩
        · intro x hx
          rcases List.mem_cons.1 hx with rfl | hx
          · exact ⟨by rw [a1]; exact hlv.1, a3⟩
          · exact b1 x hx
        · intro px' hpx'
          rw [a2] at hpx'
          simp at hpx'

/-- Invariant of a stream between and during append calls. `F` is the frame size. -/
structure Healthy (F : Nat) (st : SState) : Prop where
  levels : ∀ lv ∈ st.levels, LevelHealthy lv
  first : ∃ l0 rest, st.levels = l0 :: rest ∧ l0.cfg = st.cfg ∧ l0.cfg.dims.frameBytes = F ∧
    (st.multiscale = true → st.cfg.dims.dtype ≠ .i8 ∧
      PyrOk st.cfg.dims.dtype (rest.map (·.cfg)) st.cfg.dims.width.arraySize st.cfg.dims.height.arraySize ∧
      SavedOk rest st.cfg.dims.width.arraySize st.cfg.dims.height.arraySize)
  buf : st.buf.length = F
  offset : st.offset ≤ F

theorem writeLevel0_healthy {env : Env} {F : Nat} {st : SState} (h : Healthy F st) {data : Bytes}
    (hd : data.length = F) : writeLevel0 env st data ≠ .ub ∧
      ∀ st' k, writeLevel0 env st data = .ok (st', k) → Healthy F st' ∧ k = F := by
  obtain ⟨l0, rest, h1, h2, h3, h4⟩ := h.first
  have hl0 := h.levels l0 (by simp [h1])
  obtain ⟨w1, w2⟩ := writerStep_healthy (env := env) hl0.1 data hl0.2
  unfold writeLevel0
  rw [h1]
  dsimp only
  constructor
  · exact Res.bind_ne_ub w1 fun _ _ => by simp
  · intro st' k hk
    obtain ⟨⟨l0', n, evs, errs⟩, a1, hk⟩ := Res.bind_eq_ok.1 hk
    simp only [Res.pure_eq, Res.ok.injEq, Prod.mk.injEq] at hk
    obtain ⟨b1, b2, b3, b4⟩ := w2 _ _ _ _ a1
    rw [if_pos (by rw [hd, h3]), hd] at b4
    refine ⟨?_, by rw [← hk.2]; exact b4⟩
    rw [← hk.1]
    refine ⟨?_, ⟨l0', rest, rfl, b1.trans h2, by rw [b1]; exact h3, h4⟩, h.buf, h.offset⟩
    intro x hx
    rcases List.mem_cons.1 hx with rfl | hx
    · exact ⟨by rw [b1]; exact hl0.1, b3⟩
    · exact h.levels x (by rw [h1]; simp [hx])

theorem writeMultiscale_healthy {env : Env} {F : Nat} {st : SState} (h : Healthy F st) {data : Bytes}
    (hd : data.length = F) : writeMultiscale env st data ≠ .ub ∧
      ∀ st', writeMultiscale env st data = .ok st' → Healthy F st' := by
  obtain ⟨l0, rest, h1, h2, h3, h4⟩ := h.first
  have hl0 := h.levels l0 (by simp [h1])
  unfold writeMultiscale
  cases hm : st.multiscale with
  | false =>
    simp only [Bool.not_false, if_true]
    exact ⟨by simp, fun st' hs => by cases hs; exact h⟩
  | true =>
    simp only [Bool.not_true, Bool.false_eq_true, if_false]
    rw [h1]
    dsimp only
    obtain ⟨t, p, s⟩ := h4 hm
    have hlen : data.length = st.cfg.dims.width.arraySize * st.cfg.dims.height.arraySize *
        st.cfg.dims.dtype.bytes := by
      rw [hd, ← h3, h2]
      unfold ArrayDims.frameBytes
      rw [Nat.mul_comm st.cfg.dims.height.arraySize]
    obtain ⟨i1, i2⟩ := pyramidLoop_healthy (env := env) t (fun x hx => h.levels x (by rw [h1]; simp [hx])) p s hlen
    constructor
    · exact Res.bind_ne_ub i1 fun _ _ => by simp
    · intro st' hk
      obtain ⟨⟨rest', evs, errs⟩, a1, hk⟩ := Res.bind_eq_ok.1 hk
      simp only [Res.pure_eq, Res.ok.injEq] at hk
      obtain ⟨b1, b2⟩ := i2 _ _ _ a1
      rw [← hk]
      refine ⟨?_, ⟨l0, rest', rfl, h2, h3, ?_⟩, h.buf, h.offset⟩
      · intro x hx
        rcases List.mem_cons.1 hx with rfl | hx
        · exact hl0
        · exact b1 x hx
      · intro _
        refine ⟨t, ?_, b2⟩
        dsimp only
        rw [pyramidLoop_cfgs a1]
        exact p

end AZ
