import Verif.Props.Memory
import Verif.Props.ReadBackV2
import Verif.Lemmas.StreamRun
import Verif.Lemmas.AppendCalls

set_option linter.unusedSimpArgs false

/-!
# C89: the model of allocations follows the stream

`Model.Memory` keeps of a level only whether its chunk buffers exist and whether a frame waits for its partner. Here: these are what they are in the
stream of `Model.Stream`, after every append call that returns.
-/

namespace AZ.Memory

/-- What `Model.Memory` keeps of a level of the stream. -/
def Level.of (l : AZ.Level) : Level := ⟨l.cfg.dims, !l.st.bufs.isEmpty, l.saved.isSome⟩

/-- Memory for everything. -/
def Plenty (e : Env) : Prop := ∀ s b n, e s b n = true

theorem Plenty.buffers {e : Env} (h : Plenty e) : BuffersFit e := h .chunkBuffer

theorem copyRows_length {D : ArrayDims} {data : Bytes} {g o nx : Nat} (ts : List (Nat × Nat × Nat)) {s s' : CopyState}
    (h : copyRows D data g o nx ts s = .ok s') : s'.bufs.length = s.bufs.length := by
  induction ts generalizing s with
  | nil => cases h; rfl
  | cons t ts ih =>
    unfold copyRows at h
    obtain ⟨s1, h1, h⟩ := Res.bind_eq_ok.1 h
    rw [ih h]
    obtain ⟨i, j, k⟩ := t
    unfold copyRow at h1
    dsimp only at h1
    split at h1
    · cases h1; rfl
    · split at h1
      · cases h1
      · split at h1
        · split at h1
          · cases h1; rfl
          · split at h1
            · cases h1; rfl
            · cases h1; simp
        · cases h1; rfl

theorem writeFrameToChunks_length {D : ArrayDims} {f : Nat} {data : Bytes} {bufs : List Bytes} {r : List Bytes × Nat}
    (h : writeFrameToChunks D f data bufs = .ok r) : r.1.length = bufs.length := by
  unfold writeFrameToChunks at h
  split at h
  · cases h; rfl
  · dsimp only at h
    obtain ⟨_, _, h⟩ := Res.bind_eq_ok.1 h
    obtain ⟨s, h1, h⟩ := Res.bind_eq_ok.1 h
    cases h
    exact copyRows_length _ h1

theorem flush_bufs {env : AZ.Env} {cfg : WConfig} {st st' : WState} (h : flush env cfg st = .ok st') :
    st'.bufs = st.bufs ∨ st'.bufs = AZ.makeBuffers cfg.dims := by
  rw [flush_seq] at h
  split at h
  · cases h; exact .inl rfl
  · obtain ⟨_, _, h⟩ := Res.bind_eq_ok.1 h
    obtain ⟨_, _, h⟩ := Res.bind_eq_ok.1 h
    obtain ⟨_, _, h⟩ := Res.bind_eq_ok.1 h
    obtain ⟨_, _, h⟩ := Res.bind_eq_ok.1 h
    cases h
    exact .inr rfl

/-- After a frame has been written the chunk buffers exist. -/
theorem writeFrame_buffers {env : AZ.Env} {cfg : WConfig} {data : Bytes} {st st' : WState} {n : Nat} (hc : 0 < cfg.dims.numberOfChunksInMemory)
    (h : AZ.writeFrame env cfg data st = .ok (st', n)) (hn : n ≠ 0) : st'.bufs ≠ [] := by
  have hm : AZ.makeBuffers cfg.dims ≠ [] := by
    unfold AZ.makeBuffers
    intro h
    rw [List.replicate_eq_nil_iff] at h
    omega
  rw [writeFrame_seq] at h
  split at h
  · cases h; exact absurd rfl hn
  · dsimp only at h
    obtain ⟨r, h1, h⟩ := Res.bind_eq_ok.1 h
    obtain ⟨_, _, h⟩ := Res.bind_eq_ok.1 h
    obtain ⟨fl, _, h⟩ := Res.bind_eq_ok.1 h
    obtain ⟨s2, h4, h⟩ := Res.bind_eq_ok.1 h
    cases h
    have hb : r.1 ≠ [] := by
      have := writeFrameToChunks_length h1
      intro h0
      rw [h0] at this
      split at this
      · exact hm (List.length_eq_zero_iff.1 this.symm)
      · rename_i hne
        apply hne
        rw [List.isEmpty_iff]
        exact List.length_eq_zero_iff.1 this.symm
    cases fl with
    | false => cases h4; exact hb
    | true =>
      simp only [if_true] at h4
      rcases flush_bufs h4 with q | q
      · rw [q]; exact hb
      · rw [q]; exact hm

theorem writerStep_follows {e : Env} (he : Plenty e) {env : AZ.Env} {l l' : AZ.Level} {data : Bytes} {n : Nat} {evs : List Ev} {errs : List Text}
    (hc : 0 < l.cfg.dims.numberOfChunksInMemory) (h : writerStep env l data = .ok (l', n, evs, errs)) (hn : n ≠ 0) (k : Nat) :
    ∃ k', writeFrame e (Level.of l) k = .ret (Level.of l') k' := by
  obtain ⟨h1, h2, h3, _⟩ := writerStep_spec h
  obtain ⟨k', hk⟩ := writeFrame_ok he.buffers (Level.of l) k
  refine ⟨k', hk.trans ?_⟩
  have hb := writeFrame_buffers hc h3 hn
  have : (!l'.st.bufs.isEmpty) = true := by
    cases hx : l'.st.bufs with
    | nil => exact absurd hx hb
    | cons _ _ => rfl
  unfold Level.of
  rw [h1, h2, this]

theorem pyramid_follows {e : Env} (he : Plenty e) {env : AZ.Env} {t : DType} {xs xs' : List AZ.Level} {data : Bytes} {w h : Nat} {evs : List Ev}
    {errs : List Text} (hc : ∀ l ∈ xs, 0 < l.cfg.dims.numberOfChunksInMemory) (hp : pyramidLoop env t xs data w h = .ok (xs', evs, errs)) (k : Nat) :
    ∃ k', writePyramid e t (xs.map Level.of) w h k = .ret (xs'.map Level.of) k' := by
  induction xs generalizing xs' data w h evs errs k with
  | nil =>
    cases hp
    exact ⟨k, rfl⟩
  | cons x xs ih =>
    unfold pyramidLoop at hp
    obtain ⟨sc, hs, hp⟩ := Res.bind_eq_ok.1 hp
    have hw : sc.w = (w + w % 2) / 2 ∧ sc.h = (h + h % 2) / 2 := by
      unfold scaleImage at hs
      dsimp only at hs
      obtain ⟨_, _, hs⟩ := Res.bind_eq_ok.1 hs
      split at hs
      · cases hs
      · split at hs
        · cases hs
        · cases hs; exact ⟨rfl, rfl⟩
    rw [List.map_cons]
    unfold writePyramid
    rw [bind_ret (a := ()) (n' := k + 1) (by rw [alloc, if_pos (he _ _ k)])]
    cases hsv : x.saved with
    | none =>
      rw [hsv] at hp
      cases hp
      have : (Level.of x).saved = false := by simp [Level.of, hsv]
      rw [this]
      exact ⟨k + 1, rfl⟩
    | some px =>
      rw [hsv] at hp
      dsimp only at hp
      obtain ⟨⟨l1, n, e1, m1⟩, h1, hp⟩ := Res.bind_eq_ok.1 hp
      obtain ⟨u, h2, hp⟩ := Res.bind_eq_ok.1 hp
      obtain ⟨⟨r2, e2, m2⟩, h3, hp⟩ := Res.bind_eq_ok.1 hp
      cases hp
      have hs1 : (Level.of x).saved = true := by simp [Level.of, hsv]
      have hn : n ≠ 0 := by rw [check_eq_ok] at h2; simpa using h2
      obtain ⟨q1, q2, q3, _⟩ := writerStep_spec h1
      obtain ⟨k1, hk1⟩ := writeFrame_ok he.buffers (Level.of x) (k + 1)
      have hb := writeFrame_buffers (hc x (by simp)) q3 hn
      rw [hs1, if_pos rfl, bind_ret hk1]
      rw [hw.1, hw.2] at h3
      obtain ⟨k2, hk2⟩ := ih (fun l hl => hc l (by simp [hl])) h3 k1
      rw [bind_ret hk2]
      refine ⟨k2, ?_⟩
      have : (!l1.st.bufs.isEmpty) = true := by
        cases hx : l1.st.bufs with
        | nil => exact absurd hx hb
        | cons _ _ => rfl
      show Ends.ret _ _ = Ends.ret _ _
      rw [List.map_cons]
      unfold Level.of
      rw [q1, q2, this]
      rfl

/-- A stream with a pyramid below its first level only if it is multiscale, and whose levels have chunks. -/
structure Regular (st : SState) : Prop where
  single : st.multiscale = false → st.levels.length = 1
  first : ∀ l ∈ st.levels.head?, l.cfg = st.cfg
  chunks : ∀ l ∈ st.levels, 0 < l.cfg.dims.numberOfChunksInMemory

theorem frame_follows {e : Env} (he : Plenty e) {env : AZ.Env} {st st' : SState} {f : Bytes} (hr : Regular st) (hf : f.length = bytesOfFrame st.cfg.dims)
    (h0 : f.length ≠ 0) (h : frameStep env st f = .ok st') (k : Nat) :
    (∃ k', appendFrame e (st.levels.map Level.of) k = .ret (st'.levels.map Level.of) k') ∧ Regular st' ∧ st'.cfg = st.cfg := by
  unfold frameStep at h
  obtain ⟨⟨s1, n⟩, h1, h⟩ := Res.bind_eq_ok.1 h
  dsimp only at h
  have c1 := writeLevel0_keeps h1
  have c2 := writeMultiscale_keeps h
  unfold writeLevel0 at h1
  cases hl : st.levels with
  | nil => rw [hl] at h1; cases h1
  | cons x xs =>
    rw [hl] at h1
    dsimp only at h1
    obtain ⟨⟨x', n', e1, m1⟩, g1, h1⟩ := Res.bind_eq_ok.1 h1
    cases h1
    have hx : x.cfg = st.cfg := hr.first x (by simp [hl])
    obtain ⟨q1, q2, q3, _⟩ := writerStep_spec g1
    have hn : n' ≠ 0 := by
      have := writeFrame_ret (by rw [hx]; exact hf.symm) q3
      omega
    obtain ⟨k1, hk1⟩ := writerStep_follows he (hr.chunks x (by simp [hl])) g1 hn k
    rw [List.map_cons]
    simp only [appendFrame]
    rw [bind_ret hk1]
    have hd : (Level.of x').dims = st.cfg.dims := by unfold Level.of; rw [q1, hx]
    rw [hd]
    unfold writeMultiscale at h
    dsimp only at h
    cases hm : st.multiscale with
    | false =>
      have hx1 := hr.single hm
      rw [hl] at hx1
      obtain rfl : xs = [] := by
        cases xs with
        | nil => rfl
        | cons _ _ => simp at hx1
      rw [if_pos (by rw [hm]; rfl)] at h
      cases h
      refine ⟨⟨k1, rfl⟩, ⟨fun _ => rfl, ?_, ?_⟩, rfl⟩
      · intro l hl'
        obtain rfl : x' = l := by simpa using hl'
        rw [q1, hx]
      · intro l hl'
        obtain rfl : l = x' := by simpa using hl'
        rw [q1]
        exact hr.chunks x (by simp [hl])
    | true =>
      rw [if_neg (by rw [hm]; exact nofun)] at h
      obtain ⟨⟨r2, e2, m2⟩, h3, h⟩ := Res.bind_eq_ok.1 h
      cases h
      obtain ⟨k2, hk2⟩ := pyramid_follows he (fun l hl' => hr.chunks l (by simp [hl, hl'])) h3 k1
      rw [bind_ret hk2]
      have hcf := pyramidLoop_cfgs h3
      refine ⟨⟨k2, rfl⟩, ⟨(fun hf => by rw [hm] at hf; cases hf), ?_, ?_⟩, rfl⟩
      · intro l hl'
        obtain rfl : x' = l := by simpa using hl'
        rw [q1, hx]
      · intro l hl'
        rcases List.mem_cons.1 hl' with rfl | hl'
        · rw [q1]
          exact hr.chunks x (by simp [hl])
        · have : l.cfg ∈ r2.map (·.cfg) := List.mem_map_of_mem hl'
          rw [hcf] at this
          obtain ⟨y, hy, e⟩ := List.mem_map.1 this
          rw [← e]
          exact hr.chunks y (by simp [hl, hy])

/-- Appending whole frames: if the call returns, the model of allocations, given enough memory, returns with the buffers and waiting frames of the stream. -/
theorem memory_agrees {e : Env} (he : Plenty e) {env : AZ.Env} (frames : List Bytes) {st st' : SState} (hr : Regular st)
    (hf : ∀ f ∈ frames, f.length = bytesOfFrame st.cfg.dims) (h0 : 0 < bytesOfFrame st.cfg.dims) (h : foldFrames env frames st = .ok st') (k : Nat) :
    ∃ k', appendFrames e frames.length (st.levels.map Level.of) k = .ret (st'.levels.map Level.of) k' := by
  induction frames generalizing st k with
  | nil => cases h; exact ⟨k, rfl⟩
  | cons f fs ih =>
    unfold foldFrames at h
    obtain ⟨s1, h1, h⟩ := Res.bind_eq_ok.1 h
    have hlen := hf f (by simp)
    obtain ⟨⟨k1, q1⟩, q2, q3⟩ := frame_follows he hr hlen (by omega) h1 k
    obtain ⟨k2, q4⟩ := ih q2 (fun g hg => by rw [q3]; exact hf g (by simp [hg])) (by rw [q3]; exact h0) h k1
    refine ⟨k2, ?_⟩
    simp only [List.length_cons, appendFrames]
    rw [bind_ret q1]
    exact q4

section
variable {w : World} {env : AZ.Env} {fuel : Nat} {s : Settings} {cfg : WConfig} {cfgs : List WConfig} {s0 s1 : SState} {e : Env}

theorem created_levels (hc : Created w env fuel s cfg cfgs s0) :
    s0.levels.map Level.of = cfgs.map fun c => ⟨c.dims, false, false⟩ := by
  rw [hc.slevels, List.map_map]
  rfl

theorem created_regular (h : Setup w fuel s cfg cfgs) (hc : Created w env fuel s cfg cfgs s0) : Regular s0 := by
  obtain ⟨rest, hrest⟩ := levelConfigs_head h.levels
  refine ⟨?_, ?_, ?_⟩
  · intro hm
    have hl := h.levels
    rw [← hc.sms, hm] at hl
    simp only [levelConfigs, Bool.false_eq_true, if_false, Option.some.injEq, Res.ok.injEq] at hl
    rw [hc.slevels, ← hl]
    rfl
  · intro l hl
    rw [hc.slevels, hrest] at hl
    simp only [List.map_cons, List.head?_cons, Option.mem_def, Option.some.injEq] at hl
    rw [← hl, hc.scfg]
  · intro l hl
    rw [hc.slevels] at hl
    obtain ⟨c, hm, rfl⟩ := List.mem_map.1 hl
    obtain ⟨hv, hf⟩ := h.levelDims.1 c hm
    show 0 < c.dims.numberOfChunksInMemory
    rw [ArrayDims.numberOfChunksInMemory_eq hv hf]
    exact ArrayDims.chunkCount_pos hv

/-- The levels of the stream that was created are those of the settings. -/
theorem created_of (h : Setup w fuel s cfg cfgs) (hc : createStream w env fuel (some s) = some (.ok s0)) : Created w env fuel s cfg cfgs s0 := by
  obtain ⟨cfg', cfgs', q⟩ := createStream_ok hc
  have h1 := q.commit
  rw [h.commit] at h1
  cases h1
  have h2 := q.levels
  rw [h.levels] at h2
  cases h2
  exact q

/-- **C89, the models agree.** A stream that was created, and append calls with whole frames that return: `Model.Memory`, started with the levels of the
created stream and given enough memory, returns with the chunk buffers and waiting frames of the stream, level by level. -/
theorem memory_agrees_session (he : Plenty e) (h : Setup w fuel s cfg cfgs) (hc : createStream w env fuel (some s) = some (.ok s0))
    {calls : List (List Bytes)} (hf : ∀ c ∈ calls, ∀ f ∈ c, f.length = cfg.dims.frameBytes) {ns : List Nat}
    (ha : appends env (calls.map List.flatten) s0 = .ok (s1, ns)) :
    ∃ k, appendFrames e calls.flatten.length (s0.levels.map Level.of) 0 = .ret (s1.levels.map Level.of) k := by
  have q := created_of h hc
  have hb := ArrayDims.bytesOfFrame_eq h.dimsValid h.fits
  have hpos : 0 < bytesOfFrame cfg.dims := by rw [hb]; exact ArrayDims.frameBytes_pos h.dimsValid h.fits.toRoom
  obtain ⟨rest, hrest⟩ := levelConfigs_head h.levels
  have hal : Aligned (bytesOfFrame cfg.dims) s0 := by
    refine ⟨q.offset, by rw [q.buf, List.length_replicate], ⟨cfg, WState.init cfg, none⟩, rest.map fun c => ⟨c, WState.init c, none⟩, ?_, rfl⟩
    rw [q.slevels, hrest]
    rfl
  have hff : ∀ c ∈ calls, ∀ f ∈ c, f.length = bytesOfFrame cfg.dims := by rw [hb]; exact hf
  have hfold := (appends_aligned_ok hpos calls hff hal ha).1
  refine memory_agrees he calls.flatten (created_regular h q) ?_ (by rw [q.scfg]; exact hpos) hfold 0
  intro f hfm
  obtain ⟨c, hc, hfc⟩ := List.mem_flatten.1 hfm
  rw [q.scfg]
  exact hff c hc f hfc

/-- **C89 is violated by the code**, for every stream: if a chunk does not fit into memory, the first append to a stream that was created terminates
the process. -/
theorem created_terminates_violated (h : Setup w fuel s cfg cfgs) (hc : createStream w env fuel (some s) = some (.ok s0))
    (hm : ∀ n, e .chunkBuffer cfg.dims.bytesPerChunk n = false) (k : Nat) : append e (k + 1) (s0.levels.map Level.of) = .terminated := by
  obtain ⟨rest, hrest⟩ := levelConfigs_head h.levels
  rw [created_levels (created_of h hc), hrest, List.map_cons]
  refine chunk_buffers_terminate_violated rfl ?_ hm _ k
  show 0 < cfg.dims.numberOfChunksInMemory
  rw [ArrayDims.numberOfChunksInMemory_eq h.dimsValid h.fits]
  exact ArrayDims.chunkCount_pos h.dimsValid

end

/-- Not vacuous: a stream with a pyramid of three levels, to which three frames are appended in two calls. -/
example : ∃ s0 s1 ns, createStream Sample.world Sample.env 9 (some Sample.settings) = some (.ok s0) ∧ s0.levels.length = 3 ∧
    appends Sample.env [Sample.frame 0 ++ Sample.frame 1, Sample.frame 2] s0 = .ok (s1, ns) ∧
    (∃ k, appendFrames (fun _ _ _ => true) 3 (s0.levels.map Level.of) 0 = .ret (s1.levels.map Level.of) k) ∧
    append tight 1 (s0.levels.map Level.of) = .terminated := by
  obtain ⟨cfgs, hS, h3⟩ := Sample.setup
  have hf : ∀ c ∈ [[Sample.frame 0, Sample.frame 1], [Sample.frame 2]], ∀ f ∈ c, f.length = Sample.cfg.dims.frameBytes := by
    intro c hc f hf
    have : f.length = 70 := by
      simp only [List.mem_cons, List.not_mem_nil, or_false] at hc
      rcases hc with rfl | rfl
      · simp only [List.mem_cons, List.not_mem_nil, or_false] at hf
        rcases hf with rfl | rfl <;> exact Sample.frame_length _
      · simp only [List.mem_cons, List.not_mem_nil, or_false] at hf
        subst hf; exact Sample.frame_length _
    rw [this]; rfl
  obtain ⟨st, tr, h, _⟩ := session_v2 hS Sample.storageOk rfl (by decide) hf
  unfold runStream at h
  cases hc : createStream Sample.world Sample.env 9 (some Sample.settings) with
  | none => rw [hc] at h; cases h
  | some r =>
    rw [hc] at h
    cases r with
    | throw => cases h
    | ub => cases h
    | ok s0 =>
      simp only [Option.some.injEq] at h
      obtain ⟨⟨s1, ns⟩, ha, h⟩ := Res.bind_eq_ok.1 h
      refine ⟨s0, s1, ns, rfl, ?_, by simpa using ha, memory_agrees_session (fun _ _ _ => rfl) hS hc hf ha,
        created_terminates_violated hS hc (fun _ => rfl) 0⟩
      rw [(created_of hS hc).slevels, List.length_map, h3]

end AZ.Memory
