import Verif.Lemmas.AppendCalls
import Verif.Props.ReadBackV3

set_option linter.unusedSimpArgs false

/-!
# Append calls (C13, C14, C15, C16) and memory use (C36)

The theorems quantify over every environment (storage may fail, throw or drop writes at any point), every
accepted settings struct and every history of append calls that returned success; `Setup` and `FitsV3` are
the size limits described there. -/

namespace AZ
open Spec

/-- `st` is the state of the stream after it was created from `s` and the buffers `prev` were appended, each
call returning success. -/
def Reached (w : World) (env : Env) (fuel : Nat) (s : Settings) (prev : List Bytes) (st : SState) : Prop :=
  ∃ st0 ns, createStream w env fuel (some s) = some (.ok st0) ∧ appends env prev st0 = .ok (st, ns)

variable {w : World} {env : Env} {fuel : Nat} {s : Settings} {cfg : WConfig} {cfgs : List WConfig}
variable {a : DimProps} {inner : List DimProps} {y x : DimProps} {prev : List Bytes} {st : SState}

/-- Size of a frame in bytes. -/
def frameSize (s : Settings) (y x : DimProps) : Nat := y.arraySize * x.arraySize * itemSize s.dataType

theorem reached_healthy (h : Setup w fuel s cfg cfgs) (h3 : s.version = 3 → cfg.dims.FitsV3)
    (hd : s.dimensions = some (a :: (inner ++ [y, x]))) (hr : Reached w env fuel s prev st) :
    0 < frameSize s y x ∧ Healthy (frameSize s y x) st ∧
      st.offset = pending (frameSize s y x) (prev.map List.length) ∧ st.levels.map (·.cfg) = cfgs := by
  obtain ⟨st0, ns, h1, h2⟩ := hr
  obtain ⟨cfg', cfgs', hc⟩ := createStream_ok h1
  have e1 : cfg' = cfg := by
    have := hc.commit.symm.trans h.commit
    simpa using this
  subst e1
  have e2 : cfgs' = cfgs := by
    have := hc.levels.symm.trans h.levels
    simpa using this
  subst e2
  have hF : cfg'.dims.frameBytes = frameSize s y x := (dimsOf h.valid h.commit hd).frame
  have hpos := ArrayDims.frameBytes_pos h.dimsValid h.fits
  rw [hF] at hpos
  have hh := created_healthy h h3 hc
  rw [hF] at hh
  obtain ⟨a1, a2, a3⟩ := appends_healthy hpos prev hh h2
  rw [hc.offset] at a2
  exact ⟨hpos, a1, a2, a3.trans hc.cfgsEq⟩

theorem append_error {env : Env} {fuel : Nat} {data : Bytes} {st : SState} (h : st.error ≠ []) :
    append env fuel data st = some .throw := by
  unfold append
  rw [if_pos]
  cases hh : st.error with
  | nil => exact absurd hh h
  | cons a b => rfl

/-! ### C16: append terminates -/

/-- The append loop ends after at most `whole frames in the buffer + 2` iterations, in every reachable state and
for every buffer (`append` with that much fuel has a result, and more fuel does not change it). -/
theorem append_terminates (h : Setup w fuel s cfg cfgs) (h3 : s.version = 3 → cfg.dims.FitsV3)
    (hd : s.dimensions = some (a :: (inner ++ [y, x]))) (hr : Reached w env fuel s prev st) (data : Bytes)
    (n : Nat) (hn : data.length / frameSize s y x + 2 ≤ n) : ∃ r, append env n data st = some r := by
  obtain ⟨hF, hh, _⟩ := reached_healthy h h3 hd hr
  by_cases he : st.error = []
  · obtain ⟨r, h1, _⟩ := append_healthy (env := env) hF data hh he hn
    exact ⟨r, h1⟩
  · exact ⟨_, append_error he⟩

/-! ### C15: reads stay inside the buffers -/

/-- The only calls that read outside the caller's buffer are those that complete a frame begun by an earlier
call from a buffer smaller than a frame. -/
theorem append_in_bounds_partial (h : Setup w fuel s cfg cfgs) (h3 : s.version = 3 → cfg.dims.FitsV3)
    (hd : s.dimensions = some (a :: (inner ++ [y, x]))) (hr : Reached w env fuel s prev st) (data : Bytes) :
    append env (appendFuel data) data st = some .ub ↔
      st.error = [] ∧ Overreads (frameSize s y x) (pending (frameSize s y x) (prev.map List.length)) data.length := by
  obtain ⟨hF, hh, ho, _⟩ := reached_healthy h h3 hd hr
  rw [← ho]
  by_cases he : st.error = []
  · obtain ⟨r, h1, h2, _⟩ := append_healthy (env := env) hF data hh he (appendFuel_enough data)
    rw [h1, Option.some.injEq, h2]
    exact ⟨fun h => ⟨he, h⟩, fun h => h.2⟩
  · rw [append_error he]
    simp [he]

/-- If every call passes whole frames, no call reads outside its buffer. -/
theorem append_whole_frames_in_bounds (h : Setup w fuel s cfg cfgs) (h3 : s.version = 3 → cfg.dims.FitsV3)
    (hd : s.dimensions = some (a :: (inner ++ [y, x]))) (hr : Reached w env fuel s prev st)
    (hp : ∀ c ∈ prev, frameSize s y x ∣ c.length) (data : Bytes) :
    append env (appendFuel data) data st ≠ some .ub := by
  intro hu
  have := ((append_in_bounds_partial h h3 hd hr data).1 hu).2
  rw [pending_whole (by simpa using hp)] at this
  exact absurd this.1.1 (by omega)

/-! ### C14: bytes_out -/

/-- On success `bytes_out` is at least `bytes_in`; it is exactly `bytes_in` unless the call completes a frame
begun by an earlier call, in particular when all earlier calls passed whole frames. -/
theorem append_bytes_out_partial (h : Setup w fuel s cfg cfgs) (h3 : s.version = 3 → cfg.dims.FitsV3)
    (hd : s.dimensions = some (a :: (inner ++ [y, x]))) (hr : Reached w env fuel s prev st) {data : Bytes}
    {st' : SState} {n : Nat} (ha : append env (appendFuel data) data st = some (.ok (st', n))) :
    data.length ≤ n ∧
    (¬ Completes (frameSize s y x) (pending (frameSize s y x) (prev.map List.length)) data.length → n = data.length) ∧
    ((∀ c ∈ prev, frameSize s y x ∣ c.length) → n = data.length) := by
  obtain ⟨hF, hh, ho, _⟩ := reached_healthy h h3 hd hr
  have he : st.error = [] := by
    by_cases he : st.error = []
    · exact he
    · rw [append_error he] at ha; simp at ha
  obtain ⟨r, h1, _, h2⟩ := append_healthy (env := env) hF data hh he (appendFuel_enough data)
  rw [ha, Option.some.injEq] at h1
  obtain ⟨_, hn, _⟩ := h2 _ _ h1.symm
  rw [ho] at hn
  have key : ¬ Completes (frameSize s y x) (pending (frameSize s y x) (prev.map List.length)) data.length →
      n = data.length := by
    intro hc
    rw [hn, bytesOut, if_neg hc]
  refine ⟨?_, key, fun hp => key ?_⟩
  · rw [hn]
    unfold bytesOut
    split
    · omega
    · exact Nat.le_refl _
  · rw [pending_whole (by simpa using hp)]
    unfold Completes; omega

/-! ### C36: memory -/

/-- The chunk buffers an array holds: none, or `count` buffers of `size` bytes. -/
def Holds (bufs : List Bytes) (count size : Nat) : Prop := bufs = [] ∨ (bufs.length = count ∧ ∀ b ∈ bufs, b.length = size)

/-- Between calls the full-resolution array holds no chunk buffers (no frame yet) or one per chunk of an append
layer, each of the uncompressed chunk size, however many frames were appended, and every further pyramid level
likewise with its own sizes; the frame buffer has the size of a frame. -/
theorem memory_constant (h : Setup w fuel s cfg cfgs) (h3 : s.version = 3 → cfg.dims.FitsV3)
    (hd : s.dimensions = some (a :: (inner ++ [y, x]))) (hr : Reached w env fuel s prev st) :
    st.buf.length = frameSize s y x ∧ st.levels.length = cfgs.length ∧
    (∀ l0, st.levels[0]? = some l0 → Holds l0.st.bufs
      (prod ((inner ++ [y, x]).map fun d => ceilDiv d.arraySize d.chunkSize))
      (prod ((a :: (inner ++ [y, x])).map fun d => d.chunkSize) * itemSize s.dataType)) ∧
    ∀ (i : Nat) (lv : Level) (c : WConfig), st.levels[i]? = some lv → cfgs[i]? = some c → Holds lv.st.bufs
      (prod (c.dims.tailDims.map fun d => ceilDiv d.arraySize d.chunkSize))
      (prod (c.dims.toList.map fun d => d.chunkSize) * c.dims.dtype.bytes) := by
  obtain ⟨hF, hh, ho, hcf⟩ := reached_healthy h h3 hd hr
  have hlen : st.levels.length = cfgs.length := by rw [← hcf, List.length_map]
  have hall : ∀ (i : Nat) (lv : Level) (c : WConfig), st.levels[i]? = some lv → cfgs[i]? = some c → Holds lv.st.bufs
      (prod (c.dims.tailDims.map fun d => ceilDiv d.arraySize d.chunkSize))
      (prod (c.dims.toList.map fun d => d.chunkSize) * c.dims.dtype.bytes) := by
    intro i lv c hlv hc
    rw [← hcf, List.getElem?_map, hlv, Option.map_some, Option.some.injEq] at hc
    rw [← hc]
    rcases (hh.levels lv (List.mem_of_getElem? hlv)).2 with hb | hb
    · exact .inl hb
    · exact .inr ⟨hb.1, hb.2⟩
  refine ⟨hh.buf, hlen, ?_, hall⟩
  intro l0 hl0
  obtain ⟨rest, hrest⟩ := levelConfigs_head h.levels
  have := hall 0 l0 cfg hl0 (by rw [hrest]; rfl)
  have hD := dimsOf h.valid h.commit hd
  obtain ⟨cfg', h1, h2⟩ := commit_dims hd
  rw [h.commit] at h1
  cases h1
  have e1 : cfg.dims.tailDims.map (fun d => ceilDiv d.arraySize d.chunkSize) =
      (inner ++ [y, x]).map fun d => ceilDiv d.arraySize d.chunkSize := by
    rw [h2]; simp [ArrayDims.tailDims, DimProps.toDim]
  have e2 : cfg.dims.toList.map (fun d => d.chunkSize) = (a :: (inner ++ [y, x])).map fun d => d.chunkSize := hD.chunks
  rw [e1, e2, hD.item] at this
  exact this

/-! ### C13: where the byte stream is cut -/

theorem appends_single {env : Env} {d : Bytes} {st st' : SState} {ns : List Nat}
    (h : appends env [d] st = .ok (st', ns)) : ∃ n, append env (appendFuel d) d st = some (.ok (st', n)) := by
  rw [appends] at h
  split at h
  · simp at h
  · simp at h
  · simp at h
  · rename_i st1 n hr
    simp only [appends, Res.bind_ok, Res.pure_eq, Res.ok.injEq, Prod.mk.injEq] at h
    rw [hr, h.1]
    exact ⟨n, rfl⟩

/-- State after whole-frame calls and a last call that may end inside a frame. -/
theorem appends_cut {env : Env} {F : Nat} (hF : 0 < F) {calls : List (List Bytes)} {last : List Bytes} {tail : Bytes}
    (hf : ∀ c ∈ calls, ∀ f ∈ c, f.length = F) (hl : ∀ f ∈ last, f.length = F) (ht : tail.length < F)
    {st st' : SState} {ns : List Nat} (ha : Aligned F st)
    (h : appends env (calls.map List.flatten ++ [last.flatten ++ tail]) st = .ok (st', ns)) :
    ∃ st1, foldFrames env (calls.flatten ++ last) st = .ok st1 ∧ st' = keepTail tail st1 := by
  obtain ⟨s1, n1, n2, h1, h2, _⟩ := appends_append_ok _ _ h
  obtain ⟨h3, _⟩ := appends_aligned_ok hF calls hf ha h1
  obtain ⟨n, h4⟩ := appends_single h2
  have he : s1.error = [] := by
    by_cases he : s1.error = []
    · exact he
    · rw [append_error he] at h4; simp at h4
  rw [append_tail hF last tail hl ht (ha.keeps (foldFrames_keeps h3)) he] at h4
  cases hr : foldFrames env last s1 with
  | throw => rw [hr] at h4; simp [liftTail] at h4
  | ub => rw [hr] at h4; simp [liftTail] at h4
  | ok s2 =>
    rw [hr] at h4
    simp only [liftTail, Option.some.injEq, Res.ok.injEq, Prod.mk.injEq] at h4
    refine ⟨s2, ?_, h4.1.symm⟩
    rw [foldFrames_append, h3]
    exact hr

theorem runStream_ok {w : World} {env : Env} {fuel : Nat} {s : Settings} {calls : List Bytes} {st : SState}
    {ns : List Nat} {tr : List Ev} (h : runStream w env fuel s calls = some (.ok (st, ns, tr))) :
    ∃ st0, createStream w env fuel (some s) = some (.ok st0) ∧ appends env calls st0 = .ok (st, ns) ∧
      destroyStream env st = .ok tr := by
  unfold runStream at h
  split at h
  · simp at h
  · simp at h
  · simp at h
  · rename_i st0 h0
    rw [Option.some.injEq] at h
    obtain ⟨⟨s1, n1⟩, h1, h⟩ := Res.bind_eq_ok.1 h
    dsimp only at h
    obtain ⟨t1, h2, h⟩ := Res.bind_eq_ok.1 h
    simp only [Res.pure_eq, Res.ok.injEq, Prod.mk.injEq] at h
    obtain ⟨rfl, rfl, rfl⟩ := h
    exact ⟨st0, h0, h1, h2⟩

theorem destroy_keepTail (env : Env) (tail : Bytes) (st : SState) :
    destroyStream env (keepTail tail st) = destroyStream env st := rfl

/-- As long as calls begin at frame boundaries it does not matter how the bytes are divided into calls: two
successful sessions with the same frames have exactly the same history of storage operations, hence the same
dataset; bytes of an incomplete last frame leave no trace in the dataset. -/
theorem append_cuts_irrelevant_partial (h : Setup w fuel s cfg cfgs)
    (hd : s.dimensions = some (a :: (inner ++ [y, x]))) {calls1 calls2 : List (List Bytes)}
    {last1 last2 : List Bytes} {tail1 tail2 : Bytes}
    (hf1 : ∀ c ∈ last1 :: calls1, ∀ f ∈ c, f.length = frameSize s y x)
    (hf2 : ∀ c ∈ last2 :: calls2, ∀ f ∈ c, f.length = frameSize s y x)
    (ht1 : tail1.length < frameSize s y x) (ht2 : tail2.length < frameSize s y x)
    (hsame : calls1.flatten ++ last1 = calls2.flatten ++ last2)
    {st1 st2 : SState} {ns1 ns2 : List Nat} {tr1 tr2 : List Ev}
    (h1 : runStream w env fuel s (calls1.map List.flatten ++ [last1.flatten ++ tail1]) = some (.ok (st1, ns1, tr1)))
    (h2 : runStream w env fuel s (calls2.map List.flatten ++ [last2.flatten ++ tail2]) = some (.ok (st2, ns2, tr2))) :
    tr1 = tr2 ∧ (tail1 = tail2 → st1 = st2) := by
  obtain ⟨s0, a1, a2, a3⟩ := runStream_ok h1
  obtain ⟨s0', b1, b2, b3⟩ := runStream_ok h2
  rw [a1, Option.some.injEq, Res.ok.injEq] at b1
  subst b1
  obtain ⟨cfg', cfgs', hc⟩ := createStream_ok a1
  have e1 : cfg' = cfg := by
    have := hc.commit.symm.trans h.commit
    simpa using this
  subst e1
  have hF : bytesOfFrame cfg'.dims = frameSize s y x := by
    rw [ArrayDims.bytesOfFrame_eq h.dimsValid h.fits]; exact (dimsOf h.valid h.commit hd).frame
  have hpos : 0 < frameSize s y x := by
    have := ArrayDims.frameBytes_pos h.dimsValid h.fits
    rw [← hF, ArrayDims.bytesOfFrame_eq h.dimsValid h.fits]; exact this
  have ha := hc.aligned
  rw [hF] at ha
  obtain ⟨t1, c1, rfl⟩ := appends_cut hpos (fun c hc => hf1 c (by simp [hc])) (hf1 last1 (by simp)) ht1 ha a2
  obtain ⟨t2, d1, rfl⟩ := appends_cut hpos (fun c hc => hf2 c (by simp [hc])) (hf2 last2 (by simp)) ht2 ha b2
  rw [hsame, d1, Res.ok.injEq] at c1
  subst c1
  rw [destroy_keepTail] at a3 b3
  rw [a3, Res.ok.injEq] at b3
  exact ⟨b3, fun e => by rw [e]⟩

/-! ### Split frames -/

/-- Completing a split frame does not depend on the bytes kept from the earlier call. -/
theorem writeLevel0_buf (env : Env) (st : SState) (b : Bytes) (o : Nat) (d : Bytes) :
    writeLevel0 env { st with buf := b, offset := o } d =
      (writeLevel0 env st d >>= fun r => .ok ({ r.1 with buf := b, offset := o }, r.2)) := by
  unfold writeLevel0
  dsimp only
  split
  · rfl
  · cases writerStep env _ d with
    | throw => rfl
    | ub => rfl
    | ok r => rfl

/-- A call of at least a frame that completes a frame begun by an earlier call stores the first `F` bytes of its
own buffer instead of that frame. (Stated for calls with no further whole frame.) -/
theorem append_split {env : Env} {F : Nat} {st : SState} (h : Healthy F st) (he : st.error = []) {data : Bytes}
    (ho : 0 < st.offset) (hl : F ≤ data.length) (hs : data.length < 2 * (F - st.offset) + F) {fuel : Nat} :
    ∃ b o, append env (fuel + 2) data st =
      match writeLevel0 env st (data.take F) with
      | .ok (st', _) => some (.ok ({ st' with buf := b, offset := o }, max data.length (2 * (F - st.offset))))
      | .throw => some .throw
      | .ub => some .ub := by
  have hoF := h.offset
  unfold append
  rw [he]
  simp only [List.isEmpty_nil, Bool.not_true, Bool.false_eq_true, if_false]
  unfold appendLoop
  rw [if_neg (by omega)]
  dsimp only
  rw [if_pos (by omega), h.buf, Nat.sub_zero, Nat.zero_add, Nat.zero_add, if_neg (by omega)]
  have hmin : min (F - st.offset) data.length = F - st.offset := by omega
  rw [hmin, if_pos (by omega), Nat.zero_add, if_neg (by omega), writeLevel0_buf]
  have hsl : slice data 0 F = data.take F := by simp [slice]
  rw [hsl]
  have hlen : (data.take F).length = F := by simp; omega
  obtain ⟨a1, a2⟩ := writeLevel0_healthy (env := env) h hlen
  cases hw : writeLevel0 env st (data.take F) with
  | ub => exact absurd hw a1
  | throw => exact ⟨[], 0, rfl⟩
  | ok r =>
    obtain ⟨st', k⟩ := r
    obtain ⟨b1, rfl⟩ := a2 _ _ hw
    simp only [Res.bind_ok]
    rw [if_neg (by omega)]
    unfold appendLoop
    by_cases hb : k - st.offset + (k - st.offset) ≥ data.length
    · rw [if_pos hb]
      have e : k - st.offset + (k - st.offset) = max data.length (2 * (k - st.offset)) := by omega
      rw [e]
      exact ⟨_, _, rfl⟩
    · rw [if_neg hb]
      dsimp only
      rw [if_neg (by omega)]
      have hbl : (pwrite st.buf st.offset (slice data 0 (k - st.offset))).length = k := by
        rw [pwrite_length_le (by rw [slice_length (by omega), h.buf]; omega), h.buf]
      rw [hbl, if_pos (by omega), if_neg (by omega)]
      unfold appendLoop
      rw [if_pos (by omega)]
      have e : k - st.offset + (k - st.offset) + (data.length - (k - st.offset + (k - st.offset))) =
        max data.length (2 * (k - st.offset)) := by omega
      rw [e]
      exact ⟨_, _, rfl⟩

theorem runStream_of {w : World} {env : Env} {fuel : Nat} {s : Settings} {calls : List Bytes} {st0 st : SState}
    {ns : List Nat} {tr : List Ev} (h0 : createStream w env fuel (some s) = some (.ok st0))
    (h1 : appends env calls st0 = .ok (st, ns)) (h2 : destroyStream env st = .ok tr) :
    runStream w env fuel s calls = some (.ok (st, ns, tr)) := by
  unfold runStream
  rw [h0]
  dsimp only
  rw [h1, Res.bind_ok, h2]
  rfl

/-- Without multiscale: a first call with the beginning of a frame (at most half) and a second call that
completes it give exactly the dataset of the single frame formed by the beginning of the second buffer. -/
theorem split_session (h : Setup w fuel s cfg cfgs) (hE : StorageOk env s) (h3 : s.version = 3 → cfg.dims.FitsV3)
    (hms : s.multiscale = false)
    (hd : s.dimensions = some (a :: (inner ++ [y, x]))) {p q : Bytes} (hp : 0 < p.length)
    (hp' : p.length < frameSize s y x) (hq : frameSize s y x ≤ q.length)
    (hq' : q.length < 2 * (frameSize s y x - p.length) + frameSize s y x) {st : SState} {ns : List Nat} {tr : List Ev}
    (hone : runStream w env fuel s [q.take (frameSize s y x)] = some (.ok (st, ns, tr))) :
    ∃ st', runStream w env fuel s [p, q] =
      some (.ok (st', [p.length, max q.length (2 * (frameSize s y x - p.length))], tr)) := by
  obtain ⟨s0, a1, a2, a3⟩ := runStream_ok hone
  obtain ⟨cfg', cfgs', hc⟩ := createStream_ok a1
  have e1 : cfg' = cfg := by
    have := hc.commit.symm.trans h.commit
    simpa using this
  subst e1
  have e2 : cfgs' = cfgs := by
    have := hc.levels.symm.trans h.levels
    simpa using this
  subst e2
  have hF : bytesOfFrame cfg'.dims = frameSize s y x := by
    rw [ArrayDims.bytesOfFrame_eq h.dimsValid h.fits]; exact (dimsOf h.valid h.commit hd).frame
  have hpos : 0 < frameSize s y x := by omega
  have ha := hc.aligned
  rw [hF] at ha
  have hh := created_healthy h h3 hc
  rw [show cfg'.dims.frameBytes = frameSize s y x from (dimsOf h.valid h.commit hd).frame] at hh
  generalize hFF : frameSize s y x = F at *
  have hlen : (q.take F).length = F := by simp; omega
  -- the session with the single frame
  obtain ⟨n1, c1⟩ := appends_single a2
  have c2 := append_aligned hpos [q.take F] (by simpa using hlen) (fuel := appendFuel (q.take F))
    (by unfold appendFuel; simp) (env := env) ha hc.error
  simp only [List.flatten_cons, List.flatten_nil, List.append_nil, foldFrames] at c2
  rw [c1] at c2
  obtain ⟨l1, l2⟩ := writeLevel0_healthy (env := env) hh hlen
  cases hw : writeLevel0 env s0 (q.take F) with
  | ub => exact absurd hw l1
  | throw => simp [frameStep, hw, liftRes] at c2
  | ok r =>
    obtain ⟨s1, k⟩ := r
    have hk := (writeLevel0_keeps hw).multiscale
    have hm : writeMultiscale env s1 (q.take F) = .ok s1 := by
      unfold writeMultiscale
      rw [hk, hc.sms, hms]
      rfl
    have hst : st = s1 := by
      simp [frameStep, hw, hm, liftRes] at c2
      exact c2.1
    subst hst
    -- the split session
    have d1 := append_tail hpos [] p (by simp) hp' ha hc.error (env := env)
    simp only [List.flatten_nil, List.nil_append, foldFrames, liftTail] at d1
    have hh' : Healthy F (keepTail p s0) := by
      refine ⟨hh.levels, hh.first, ?_, ?_⟩
      · unfold keepTail
        dsimp only
        rw [pwrite_length_le (by rw [hh.buf]; omega), hh.buf]
      · unfold keepTail; dsimp only; omega
    obtain ⟨b, o, d2⟩ := append_split (env := env) hh' hc.error (data := q) hp hq hq' (fuel := q.length + 1)
    have d3 : writeLevel0 env (keepTail p s0) (q.take F) =
        .ok ({ st with buf := pwrite s0.buf 0 p, offset := p.length }, k) := by
      unfold keepTail
      rw [writeLevel0_buf, hw]
      rfl
    rw [d3] at d2
    dsimp only at d2
    have e : appendFuel q = q.length + 1 + 2 := rfl
    have d4 : appends env [p, q] s0 = .ok ({ st with buf := b, offset := o },
        [p.length, max q.length (2 * (F - p.length))]) := by
      rw [appends, d1]
      dsimp only
      rw [appends, e, d2]
      rfl
    exact ⟨_, runStream_of a1 d4 a3⟩

/-! ### The sample: all four claims fail for split frames -/

/-- V2, no pyramid: frames of 70 bytes. -/
def Sample.settings1 : Settings := { Sample.settings with multiscale := false }

theorem Sample.setup1 : Setup Sample.world 9 Sample.settings1 Sample.cfg [Sample.cfg] :=
  ⟨by decide, by decide, rfl, rfl, by decide, by decide⟩

theorem Sample.noV3 : Sample.settings1.version = 3 → Sample.cfg.dims.FitsV3 := by decide

theorem Sample.storedAt1 : StoredAt Sample.settings1 "/tmp/a.zarr".toList := Sample.storedAt

theorem Sample.fresh1 : Fresh Sample.world Sample.settings1 "/tmp/a.zarr".toList := Sample.fresh

/-- Ten bytes of frame 0, then its other sixty bytes and frame 1. -/
def Sample.p : Bytes := (Sample.frame 0).take 10
def Sample.q : Bytes := (Sample.frame 0).drop 10 ++ Sample.frame 1

theorem Sample.p_length : Sample.p.length = 10 := by simp [Sample.p, Sample.frame_length]
theorem Sample.q_length : Sample.q.length = 130 := by simp [Sample.q, Sample.frame_length]
theorem Sample.pq : Sample.p ++ Sample.q = [Sample.frame 0, Sample.frame 1].flatten := by
  simp only [Sample.p, Sample.q, List.flatten_cons, List.flatten_nil, List.append_nil]
  rw [← List.append_assoc, List.take_append_drop]

theorem Sample.fs : frameSize Sample.settings1 Sample.dimY Sample.dimX = 70 := rfl

theorem Sample.one_frame (f : Bytes) (hf : f.length = 70) :
    ∃ st tr, runStream Sample.world Sample.env 9 Sample.settings1 [f] = some (.ok (st, [70], tr)) ∧
      readV2 (fun p => fileInStore Sample.world Sample.cfg p tr) "/tmp/a.zarr/0/".toList some [2, 2, 2, 3] 2
        [0, 0, 0, 0] = some (pixelOf f 7 2 0 0) ∧
      readV2 (fun p => fileInStore Sample.world Sample.cfg p tr) "/tmp/a.zarr/0/".toList some [2, 2, 2, 3] 2
        [0, 1, 0, 0] = some [0, 0] := by
  obtain ⟨st, tr, h1, _, h3⟩ := v2_read (calls := [[f]]) Sample.setup1 Sample.storageOk rfl
    (a := Sample.dimT) (inner := [Sample.dimC]) (y := Sample.dimY) (x := Sample.dimX) rfl Sample.storedAt1 Sample.fresh1
    (decode := some) (by unfold Decodes; exact fun b => rfl) (by simp) (by
      intro c hc g hg
      simp at hc; subst hc
      simp at hg; subst hg
      exact hf)
  refine ⟨st, tr, ?_, h3 0 [0] 0 0 (by decide) (by decide) (by decide), h3 0 [1] 0 0 (by decide) (by decide) (by decide)⟩
  have e : [[f]].map List.flatten = [f] := by simp
  have e2 : [[f]].map (fun c => c.flatten.length) = [70] := by simp [hf]
  rw [e, e2] at h1
  exact h1

/-- The claim fails: 140 bytes in one call store two frames; cut after ten bytes, the same bytes are accepted
but only one frame is stored, and it is not the first one. -/
theorem append_cuts_irrelevant_violated :
    ∃ st1 tr1 st2 tr2,
      runStream Sample.world Sample.env 9 Sample.settings1 [Sample.p ++ Sample.q] = some (.ok (st1, [140], tr1)) ∧
      runStream Sample.world Sample.env 9 Sample.settings1 [Sample.p, Sample.q] = some (.ok (st2, [10, 130], tr2)) ∧
      (let read := fun tr c => readV2 (fun p => fileInStore Sample.world Sample.cfg p tr) "/tmp/a.zarr/0/".toList some
        [2, 2, 2, 3] 2 c
       read tr1 [0, 0, 0, 0] = some [0, 3] ∧ read tr2 [0, 0, 0, 0] = some [30, 33] ∧
       read tr1 [0, 1, 0, 0] = some [1, 4] ∧ read tr2 [0, 1, 0, 0] = some [0, 0]) := by
  obtain ⟨st1, tr1, h1, _, h3⟩ := v2_read (calls := [[Sample.frame 0, Sample.frame 1]]) Sample.setup1 Sample.storageOk rfl
    (a := Sample.dimT) (inner := [Sample.dimC]) (y := Sample.dimY) (x := Sample.dimX) rfl Sample.storedAt1 Sample.fresh1
    (decode := some) (by unfold Decodes; exact fun b => rfl) (by decide) (by
      intro c hc g hg
      simp at hc; subst hc
      simp at hg
      rcases hg with rfl | rfl <;> exact Sample.frame_length _)
  have hq : (Sample.q.take 70).length = 70 := by simp [Sample.q_length]
  obtain ⟨st, tr2, g1, g2, g3⟩ := Sample.one_frame _ hq
  obtain ⟨st2, g4⟩ := split_session Sample.setup1 Sample.storageOk Sample.noV3 rfl
    (a := Sample.dimT) (inner := [Sample.dimC]) (y := Sample.dimY) (x := Sample.dimX) rfl (p := Sample.p) (q := Sample.q)
    (by rw [Sample.p_length]; omega) (by rw [Sample.p_length, Sample.fs]; omega)
    (by rw [Sample.q_length, Sample.fs]; omega) (by rw [Sample.p_length, Sample.q_length, Sample.fs]; omega)
    (by rw [Sample.fs]; exact g1)
  refine ⟨st1, tr1, st2, tr2, ?_, ?_, h3 0 [0] 0 0 (by decide) (by decide) (by decide), g2,
    h3 0 [1] 0 0 (by decide) (by decide) (by decide), g3⟩
  · have e : [[Sample.frame 0, Sample.frame 1]].map List.flatten = [Sample.p ++ Sample.q] := by
      rw [Sample.pq]; rfl
    have e2 : [[Sample.frame 0, Sample.frame 1]].map (fun c => c.flatten.length) = [140] := by
      simp [Sample.frame_length]
    rw [e, e2] at h1
    exact h1
  · rw [Sample.p_length, Sample.q_length, Sample.fs] at g4
    exact g4

theorem Sample.created1 : ∃ st0, createStream Sample.world Sample.env 9 (some Sample.settings1) = some (.ok st0) :=
  createStream_works (Sample.storageOk (s := Sample.settings)).works Sample.setup1.valid Sample.setup1.commit Sample.setup1.store
    Sample.setup1.levels

/-- A stream that has been given the first `d.length < 70` bytes of a frame. -/
theorem Sample.reached_tail (d : Bytes) (hd : d.length < 70) :
    ∃ st, Reached Sample.world Sample.env 9 Sample.settings1 [d] st ∧ st.error = [] := by
  obtain ⟨st0, h0⟩ := Sample.created1
  obtain ⟨cfg', cfgs', hc⟩ := createStream_ok h0
  have e1 : cfg' = Sample.cfg := by
    have := hc.commit.symm.trans Sample.setup1.commit
    simpa using this
  subst e1
  have ha := hc.aligned
  have hb : bytesOfFrame Sample.cfg.dims = 70 := by decide
  rw [hb] at ha
  have h1 := append_tail (env := Sample.env) (by omega) [] d (by simp) hd ha hc.error
  simp only [List.flatten_nil, List.nil_append, foldFrames, liftTail] at h1
  refine ⟨keepTail d st0, ⟨st0, [d.length], h0, ?_⟩, hc.error⟩
  rw [appends, h1]
  rfl

/-- The claim fails: a frame of 70 bytes in two calls of 35 bytes makes the second call read beyond the caller's
buffer. -/
theorem append_in_bounds_violated : ∃ st, Reached Sample.world Sample.env 9 Sample.settings1 [(Sample.frame 0).take 35] st ∧
    append Sample.env (appendFuel ((Sample.frame 0).drop 35)) ((Sample.frame 0).drop 35) st = some .ub := by
  obtain ⟨st, h1, h2⟩ := Sample.reached_tail ((Sample.frame 0).take 35) (by simp [Sample.frame_length])
  refine ⟨st, h1, ?_⟩
  rw [append_in_bounds_partial Sample.setup1 Sample.noV3 (a := Sample.dimT) (inner := [Sample.dimC]) (y := Sample.dimY)
    (x := Sample.dimX) rfl h1]
  refine ⟨h2, ?_⟩
  rw [Sample.fs]
  simp only [List.map_cons, List.map_nil, List.length_take, List.length_drop, Sample.frame_length]
  decide

/-- The claim fails: after ten bytes of a frame, a call with 70 bytes reports 120 bytes. -/
theorem append_bytes_out_violated : ∃ st, Reached Sample.world Sample.env 9 Sample.settings1 [(Sample.frame 0).take 10] st ∧
    ∃ st', append Sample.env (appendFuel (Sample.frame 1)) (Sample.frame 1) st = some (.ok (st', 120)) := by
  have hone := Sample.one_frame (Sample.frame 1) (Sample.frame_length 1)
  obtain ⟨st0, tr, g1, _⟩ := hone
  have ht : (Sample.frame 1).take 70 = Sample.frame 1 :=
    List.take_of_length_le (by rw [Sample.frame_length])
  obtain ⟨st', g2⟩ := split_session Sample.setup1 Sample.storageOk Sample.noV3 rfl
    (a := Sample.dimT) (inner := [Sample.dimC]) (y := Sample.dimY) (x := Sample.dimX) rfl (p := (Sample.frame 0).take 10)
    (q := Sample.frame 1) (by simp [Sample.frame_length]) (by simp [Sample.frame_length, Sample.fs])
    (by simp [Sample.frame_length, Sample.fs]) (by simp [Sample.frame_length, Sample.fs])
    (by rw [Sample.fs, ht]; exact g1)
  obtain ⟨s0, a1, a2, _⟩ := runStream_ok g2
  obtain ⟨s1, n1, n2, b1, b2, b3⟩ := appends_append_ok [(Sample.frame 0).take 10] [Sample.frame 1] a2
  refine ⟨s1, ⟨s0, n1, a1, b1⟩, st', ?_⟩
  obtain ⟨n, c1⟩ := appends_single b2
  have hr : Reached Sample.world Sample.env 9 Sample.settings1 [(Sample.frame 0).take 10] s1 := ⟨s0, n1, a1, b1⟩
  obtain ⟨hF, hh, ho, _⟩ := reached_healthy Sample.setup1 Sample.noV3 (a := Sample.dimT) (inner := [Sample.dimC])
    (y := Sample.dimY) (x := Sample.dimX) rfl hr
  have he : s1.error = [] := by
    by_cases he : s1.error = []
    · exact he
    · rw [append_error he] at c1; simp at c1
  obtain ⟨r, d1, _, d2⟩ := append_healthy (env := Sample.env) hF (Sample.frame 1) hh he (appendFuel_enough _)
  rw [c1, Option.some.injEq] at d1
  obtain ⟨_, hn, _⟩ := d2 _ _ d1.symm
  rw [ho, Sample.fs, Sample.frame_length] at hn
  rw [c1, hn]
  simp only [List.map_cons, List.map_nil, List.length_take, Sample.frame_length]
  rfl

/-! ### Non-vacuity of the positive theorems -/

/-- The hypotheses of `append_terminates`, `append_in_bounds_partial`, `append_bytes_out_partial` and
`memory_constant` hold for the sample after a call of ten bytes: nothing is read out of bounds by a call of 59
bytes, and one of 60 bytes completes the frame. -/
example : ∃ st, Reached Sample.world Sample.env 9 Sample.settings1 [(Sample.frame 0).take 10] st ∧
    (∀ data : Bytes, data.length = 59 → append Sample.env (appendFuel data) data st ≠ some .ub) ∧
    (∀ data : Bytes, data.length = 60 → append Sample.env (appendFuel data) data st = some .ub) := by
  obtain ⟨st, h1, h2⟩ := Sample.reached_tail ((Sample.frame 0).take 10) (by simp [Sample.frame_length])
  refine ⟨st, h1, ?_, ?_⟩
  · intro data hd hu
    rw [append_in_bounds_partial Sample.setup1 Sample.noV3 (a := Sample.dimT) (inner := [Sample.dimC]) (y := Sample.dimY)
      (x := Sample.dimX) rfl h1, Sample.fs, hd] at hu
    simp only [List.map_cons, List.map_nil, List.length_take, Sample.frame_length] at hu
    exact absurd hu.2 (by decide)
  · intro data hd
    rw [append_in_bounds_partial Sample.setup1 Sample.noV3 (a := Sample.dimT) (inner := [Sample.dimC]) (y := Sample.dimY)
      (x := Sample.dimX) rfl h1, Sample.fs, hd]
    simp only [List.map_cons, List.map_nil, List.length_take, Sample.frame_length]
    exact ⟨h2, by decide⟩

/-- The sample array holds 2 * 3 * 3 buffers of 2 * 2 * 2 * 3 two-byte pixels. -/
example : ∃ st, Reached Sample.world Sample.env 9 Sample.settings1 [(Sample.frame 0).take 10] st ∧
    ∀ l0, st.levels[0]? = some l0 → Holds l0.st.bufs 18 48 := by
  obtain ⟨st, h1, h2⟩ := Sample.reached_tail ((Sample.frame 0).take 10) (by simp [Sample.frame_length])
  exact ⟨st, h1, (memory_constant Sample.setup1 Sample.noV3 (a := Sample.dimT) (inner := [Sample.dimC])
    (y := Sample.dimY) (x := Sample.dimX) rfl h1).2.2.1⟩

/-- Two successful sessions for `append_cuts_irrelevant_partial` with different calls and tails. -/
example : ∃ st1 ns1 tr1, runStream Sample.world Sample.env 9 Sample.settings1
      ([[Sample.frame 0]].map List.flatten ++ [[Sample.frame 1].flatten ++ []]) = some (.ok (st1, ns1, tr1)) := by
  obtain ⟨st1, tr1, h1, _, h3⟩ := v2_read (calls := [[Sample.frame 0], [Sample.frame 1]]) Sample.setup1 Sample.storageOk rfl
    (a := Sample.dimT) (inner := [Sample.dimC]) (y := Sample.dimY) (x := Sample.dimX) rfl Sample.storedAt1 Sample.fresh1
    (decode := some) (by unfold Decodes; exact fun b => rfl) (by decide) (by
      intro c hc g hg
      simp at hc
      rcases hc with rfl | rfl <;> (simp at hg; subst hg; exact Sample.frame_length _))
  exact ⟨_, _, _, by rw [List.append_nil]; exact h1⟩

end AZ
