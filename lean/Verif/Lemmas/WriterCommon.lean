import Verif.Model.Store
import Verif.Lemmas.Layer
import Verif.Lemmas.Paths
import Verif.Lemmas.Store

set_option linter.unusedSimpArgs false

namespace AZ
open Spec

theorem ceilDiv_ceilDiv {n a b : Nat} (ha : 0 < a) (hb : 0 < b) :
    ceilDiv (ceilDiv n a) b = ceilDiv n (a * b) := by
  have h : ∀ k, k < ceilDiv (ceilDiv n a) b ↔ k < ceilDiv n (a * b) := by
    intro k
    rw [lt_ceilDiv_iff hb, lt_ceilDiv_iff ha, lt_ceilDiv_iff (Nat.mul_pos ha hb), Nat.mul_assoc,
      Nat.mul_comm b a]
  have h1 := h (ceilDiv n (a * b))
  have h2 := h (ceilDiv (ceilDiv n a) b)
  omega

theorem ceilDiv_mono {m n b : Nat} (h : m ≤ n) : ceilDiv m b ≤ ceilDiv n b :=
  Nat.div_le_div_right (by omega)

theorem appendSize_eq {inner : List Dim} (h : ∀ d ∈ inner, DimOk d) {n : Nat} (hn : n < 2 ^ 32) :
    appendSize inner n = .ok (ceilDiv n (prod (aShape inner))) := by
  induction inner with
  | nil => simp [appendSize, ceilDiv, aShape]
  | cons d ds ih =>
    have hds := fun x hx => h x (List.mem_cons_of_mem _ hx)
    have hd := h d (by simp)
    have ih := ih hds
    have hp := prodA_pos hds
    have hle := ceilDiv_le (a := n) hp
    unfold appendSize at *
    rw [List.foldr_cons, ih]
    simp only [Res.bind_ok, Res.pure_eq]
    have : decide (d.arraySize ≠ 0) = true := by
      have := hd.2.1
      simp; omega
    rw [this, check_true]
    simp only [Res.bind_ok]
    have hlt := hd.2.2
    have hpos := hd.2.1
    have hpos' := hd.1
    rw [u64_of_lt (n := ceilDiv n (prod (aShape ds)) + d.arraySize - 1) (by omega)]
    have := ceilDiv_ceilDiv (n := n) hp hd.2.1
    rw [Nat.mul_comm] at this
    show Res.ok (ceilDiv (ceilDiv n (prod (aShape ds))) d.arraySize) = _
    rw [this]
    rfl

/-- An environment in which nothing fails: sinks can be created, writes store their bytes, finalizing
succeeds, and Blosc succeeds on the chunk buffers. -/
structure GoodEnv (env : Env) (cfg : WConfig) : Prop where
  sinks : ∀ r, env.makeSinks r = true
  metaSink : ∀ p, env.makeMetaSink p = true
  write : ∀ p o d, env.write p o d = .stored
  finalize : ∀ p, env.finalize p = true
  compress : ∀ q, cfg.compression = some q → ∀ b : Bytes, b.length = cfg.dims.chunkBytes →
    (env.compress q cfg.dims.dtype.bytes b).isSome

/-- The bytes stored for a chunk. -/
def storedForm (env : Env) (cfg : WConfig) (buf : Bytes) : Bytes :=
  match cfg.compression with
  | none => buf
  | some q => (env.compress q cfg.dims.dtype.bytes buf).getD buf

theorem compressBuffers_eq {env : Env} {cfg : WConfig} (hE : GoodEnv env cfg) {st : WState}
    (hs : Sized cfg.dims st.bufs) :
    compressBuffers env cfg st = { st with bufs := st.bufs.map (storedForm env cfg) } := by
  unfold compressBuffers storedForm
  cases hc : cfg.compression with
  | none => simp
  | some q =>
    simp only
    have h1 : ∀ b ∈ st.bufs, compressJob env q cfg.dims.dtype.bytes b =
        ((env.compress q cfg.dims.dtype.bytes b).getD b, []) := by
      intro b hb
      have := hE.compress q hc b (hs.2 b hb)
      unfold compressJob
      cases hcb : env.compress q cfg.dims.dtype.bytes b with
      | none => rw [hcb] at this; simp at this
      | some out => rfl
    have h2 : st.bufs.map (compressJob env q cfg.dims.dtype.bytes) =
        st.bufs.map fun b => ((env.compress q cfg.dims.dtype.bytes b).getD b, []) :=
      List.map_congr_left h1
    rw [h2]
    simp only [List.map_map, List.flatMap_map, Function.comp_def]
    have h3 : (List.flatMap (fun _ : Bytes => ([] : List Text)) st.bufs) = [] := by simp
    rw [h3, List.append_nil]

theorem innerFrames_eq {D : ArrayDims} (hv : D.Valid) (hf : D.Room) :
    innerFrames D D.append.chunkSize = D.framesPerChunk := by
  have h := ArrayDims.framesPerChunk_lt hv hf
  unfold innerFrames
  exact foldl_u64_eq (fun d : Dim => d.arraySize) D.inner D.append.chunkSize
    (fun d hd => (ArrayDims.innerOk hv hf d hd).2.1) (by
      have : D.append.chunkSize * prod (D.inner.map fun d => d.arraySize) = D.framesPerChunk := rfl
      omega)

theorem shouldFlush_eq {D : ArrayDims} (hv : D.Valid) (hf : D.Room) (st : WState) :
    shouldFlush D st = .ok (st.framesWritten % D.framesPerChunk == 0) := by
  have h := ArrayDims.framesPerChunk_pos hv hf
  unfold shouldFlush
  rw [innerFrames_eq hv hf]
  simp [h]

theorem makeBuffers_ne_nil {D : ArrayDims} (hv : D.Valid) (hf : D.Room) : (makeBuffers D).isEmpty = false := by
  have := ArrayDims.chunkCount_pos hv
  unfold makeBuffers
  rw [ArrayDims.numberOfChunksInMemory_eq hv hf]
  cases h : D.chunkCount with
  | zero => omega
  | succ n => simp [List.replicate_succ]

theorem layer_ne_nil {D : ArrayDims} (hv : D.Valid) (S : Bytes) (g : Nat) :
    (layer D S g).isEmpty = false := by
  have := ArrayDims.chunkCount_pos hv
  unfold layer
  cases h : D.chunkCount with
  | zero => omega
  | succ n => simp [List.range_succ]

/-- State of the buffers after `n` frames: not allocated yet, or the layer of the current group. -/
def BufsOk (D : ArrayDims) (S : Bytes) (n : Nat) (bufs : List Bytes) : Prop :=
  (n = 0 ∧ bufs = []) ∨ bufs = layer D S (n / D.framesPerChunk)

/-- `write_frame` up to the flush decision; the frame counter wraps. -/
theorem writeFrame_seen {env : Env} {cfg : WConfig} (hv : cfg.dims.Valid) (hf : cfg.dims.Room)
    {st : WState} {S data : Bytes} {n : Nat} (hn : n < 2 ^ 32)
    (hS : S.length = n * cfg.dims.frameBytes) (hd : data.length = cfg.dims.frameBytes)
    (hfw : st.framesWritten = n) (hb : BufsOk cfg.dims S n st.bufs)
    (hbt : st.bytesToFlush = n % cfg.dims.framesPerChunk * cfg.dims.frameBytes) :
    writeFrame env cfg data st =
      (let st' := { st with bufs := layer cfg.dims (S ++ cfg.dims.seen data) (n / cfg.dims.framesPerChunk)
                            bytesToFlush := (n % cfg.dims.framesPerChunk + 1) * cfg.dims.frameBytes
                            framesWritten := u32 (n + 1) }
       if u32 (n + 1) % cfg.dims.framesPerChunk = 0 then
         (flush env cfg st').bind fun st'' => .ok (st'', cfg.dims.frameBytes)
       else .ok (st', cfg.dims.frameBytes)) := by
  have hF := ArrayDims.frameBytes_pos hv hf
  have hFB := ArrayDims.framesPerChunk_pos hv hf
  unfold writeFrame
  rw [ArrayDims.bytesOfFrame_eq hv hf, if_neg (by omega)]
  have hbufs : (if st.bufs.isEmpty then { st with bufs := makeBuffers cfg.dims } else st) =
      { st with bufs := layer cfg.dims S (n / cfg.dims.framesPerChunk) } := by
    rcases hb with ⟨h0, h1⟩ | h1
    · subst h0
      rw [h1]
      simp only [List.isEmpty_nil, if_true, Nat.zero_div]
      rw [ArrayDims.makeBuffers_eq hv hf (stream := S) (g := 0) (by omega)]
    · rw [h1, layer_ne_nil hv]
      cases st
      simp_all
  rw [hbufs]
  have hsz := layer_sized cfg.dims S (n / cfg.dims.framesPerChunk)
  have hw := ArrayDims.writeFrameToChunks_seen hv hf n hd hsz
  rw [ArrayDims.applyOps_layer hv hf hS ((ArrayDims.seen_length data).trans hd) rfl] at hw
  simp only [hfw, hw, Res.bind_ok, Res.pure_eq, hd, beq_self_eq_true, check_true]
  rw [shouldFlush_eq hv hf]
  simp only [Res.bind_ok, Res.pure_eq, hbt, beq_iff_eq]
  have hmod := Nat.mod_lt n hFB
  have h1 : u64 (n % cfg.dims.framesPerChunk * cfg.dims.frameBytes + cfg.dims.frameBytes) =
      (n % cfg.dims.framesPerChunk + 1) * cfg.dims.frameBytes := by
    have h2 : (n % cfg.dims.framesPerChunk + 1) * cfg.dims.frameBytes ≤
        cfg.dims.framesPerChunk * cfg.dims.frameBytes := Nat.mul_le_mul_right _ hmod
    have h3 := ArrayDims.frames_le_mem hv hf
    have h4 := hf.mem
    rw [Nat.add_mul, Nat.one_mul] at *
    rw [u64_of_lt (by omega)]
  rw [h1]
  split
  · rfl
  · rfl

theorem writeFrame_wrap {env : Env} {cfg : WConfig} (hv : cfg.dims.Valid) (hf : cfg.dims.Fits)
    {st : WState} {S data : Bytes} {n : Nat} (hn : n < 2 ^ 32)
    (hS : S.length = n * cfg.dims.frameBytes) (hd : data.length = cfg.dims.frameBytes)
    (hfw : st.framesWritten = n) (hb : BufsOk cfg.dims S n st.bufs)
    (hbt : st.bytesToFlush = n % cfg.dims.framesPerChunk * cfg.dims.frameBytes) :
    writeFrame env cfg data st =
      (let st' := { st with bufs := layer cfg.dims (S ++ data) (n / cfg.dims.framesPerChunk)
                            bytesToFlush := (n % cfg.dims.framesPerChunk + 1) * cfg.dims.frameBytes
                            framesWritten := u32 (n + 1) }
       if u32 (n + 1) % cfg.dims.framesPerChunk = 0 then
         (flush env cfg st').bind fun st'' => .ok (st'', cfg.dims.frameBytes)
       else .ok (st', cfg.dims.frameBytes)) := by
  rw [writeFrame_seen hv hf hn hS hd hfw hb hbt, ArrayDims.seen_eq (Nat.le_of_lt hf.plane) hd]

/-- `write_frame` up to the flush decision. -/
theorem writeFrame_seen_eq {env : Env} {cfg : WConfig} (hv : cfg.dims.Valid) (hf : cfg.dims.Room)
    {st : WState} {S data : Bytes} {n : Nat} (hn : n + 1 < 2 ^ 32)
    (hS : S.length = n * cfg.dims.frameBytes) (hd : data.length = cfg.dims.frameBytes)
    (hfw : st.framesWritten = n) (hb : BufsOk cfg.dims S n st.bufs)
    (hbt : st.bytesToFlush = n % cfg.dims.framesPerChunk * cfg.dims.frameBytes) :
    writeFrame env cfg data st =
      (let st' := { st with bufs := layer cfg.dims (S ++ cfg.dims.seen data) (n / cfg.dims.framesPerChunk)
                            bytesToFlush := (n % cfg.dims.framesPerChunk + 1) * cfg.dims.frameBytes
                            framesWritten := n + 1 }
       if (n + 1) % cfg.dims.framesPerChunk = 0 then
         (flush env cfg st').bind fun st'' => .ok (st'', cfg.dims.frameBytes)
       else .ok (st', cfg.dims.frameBytes)) := by
  rw [writeFrame_seen hv hf (by omega) hS hd hfw hb hbt, u32_of_lt hn]

/-- `write_frame` up to the flush decision. -/
theorem writeFrame_eq {env : Env} {cfg : WConfig} (hv : cfg.dims.Valid) (hf : cfg.dims.Fits)
    {st : WState} {S data : Bytes} {n : Nat} (hn : n + 1 < 2 ^ 32)
    (hS : S.length = n * cfg.dims.frameBytes) (hd : data.length = cfg.dims.frameBytes)
    (hfw : st.framesWritten = n) (hb : BufsOk cfg.dims S n st.bufs)
    (hbt : st.bytesToFlush = n % cfg.dims.framesPerChunk * cfg.dims.frameBytes) :
    writeFrame env cfg data st =
      (let st' := { st with bufs := layer cfg.dims (S ++ data) (n / cfg.dims.framesPerChunk)
                            bytesToFlush := (n % cfg.dims.framesPerChunk + 1) * cfg.dims.frameBytes
                            framesWritten := n + 1 }
       if (n + 1) % cfg.dims.framesPerChunk = 0 then
         (flush env cfg st').bind fun st'' => .ok (st'', cfg.dims.frameBytes)
       else .ok (st', cfg.dims.frameBytes)) := by
  rw [writeFrame_wrap hv hf (by omega) hS hd hfw hb hbt, u32_of_lt hn]

/-- Frames of at most `2^32` pixels are stored as they are. -/
theorem map_seen {D : ArrayDims} (hf : D.Fits) {frames : List Bytes}
    (hd : ∀ f ∈ frames, f.length = D.frameBytes) : frames.map D.seen = frames := by
  conv_rhs => rw [← List.map_id frames]
  exact List.map_congr_left fun f h => ArrayDims.seen_eq (Nat.le_of_lt hf.plane) (hd f h)

end AZ
