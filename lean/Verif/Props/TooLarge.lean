import Verif.Props.Settings
import Verif.Props.Crash

set_option linter.unusedSimpArgs false

/-!
# C23: accepted settings whose later appends must fail

`validate_dimension` bounds neither chunk nor shard sizes. The number of chunks along a dimension is computed as
`(array_size + chunk_size - 1) / chunk_size` in 32 bits, so a chunk size such as 2^32 - 1 ("everything in one chunk") gives
no chunks at all, and a shard size such as 2^32 - 1 no shards.
-/

namespace AZ
open Spec

/-- The chunk (or shard) count along a dimension wraps to zero. -/
theorem wrapped_count {a c : Nat} (ha : a < 2 ^ 32) (hc : c < 2 ^ 32) (h : 2 ^ 32 < a + c) : u32 (a + c - 1) / c = 0 := by
  unfold u32
  rw [Nat.div_eq_of_lt]
  omega

theorem tileRowsOf_zero {ny nx rows : Nat} (h : ny = 0 ∨ nx = 0) : tileRowsOf ny nx rows = [] := by
  unfold tileRowsOf
  rcases h with rfl | rfl
  · rfl
  · simp

theorem offsetGuards_ne_ub {D : ArrayDims} (hv : D.Valid) : offsetGuards D ≠ .ub := by
  unfold offsetGuards
  have h1 : D.tailDims.any (fun d => d.chunkSize == 0) = false := by
    rw [List.any_eq_false]
    intro d hd
    have := hv.tail_chunk d hd
    simp; omega
  have h2 : D.inner.any (fun d => d.arraySize == 0) = false := by
    rw [List.any_eq_false]
    intro d hd
    have := hv.tail_array d (by unfold ArrayDims.tailDims; simp [hd])
    simp; omega
  have h3 : (D.append.chunkSize == 0) = false := by
    have := hv.append_chunk
    simp; omega
  rw [h1, h2, h3]
  simp
  split <;> simp

/-- Without tiles a frame cannot be written. -/
theorem writeFrame_no_tiles {env : Env} {cfg : WConfig} {data : Bytes} {st : WState} (hv : cfg.dims.Valid)
    (hl : data.length = bytesOfFrame cfg.dims) (hp : 0 < data.length)
    (h : u32 (cfg.dims.height.arraySize + cfg.dims.height.chunkSize - 1) / cfg.dims.height.chunkSize = 0 ∨
      u32 (cfg.dims.width.arraySize + cfg.dims.width.chunkSize - 1) / cfg.dims.width.chunkSize = 0) :
    writeFrame env cfg data st = .throw := by
  rw [writeFrame_seq, if_neg (by omega)]
  dsimp only
  generalize (if st.bufs.isEmpty = true then { st with bufs := makeBuffers cfg.dims } else st) = s0
  have : writeFrameToChunks cfg.dims s0.framesWritten data s0.bufs = .throw ∨
      writeFrameToChunks cfg.dims s0.framesWritten data s0.bufs = .ok (s0.bufs, 0) := by
    unfold writeFrameToChunks
    split
    · exact .inr rfl
    · cases hg : offsetGuards cfg.dims with
      | ub => exact absurd hg (offsetGuards_ne_ub hv)
      | throw => exact .inl rfl
      | ok u =>
        simp only [Res.bind_ok]
        rw [tileRowsOf_zero h]
        exact .inr rfl
  rcases this with h | h
  · rw [h]; rfl
  · rw [h, Res.bind_ok]
    have : ((0 : Nat) == data.length) = false := by simp; omega
    simp [this]

/-- Without chunk buffers a frame with at least one tile is written out of bounds. -/
theorem writeFrame_no_buffers {env : Env} {cfg : WConfig} {data : Bytes} {st : WState} (hg : offsetGuards cfg.dims = .ok ())
    (hl : data.length = bytesOfFrame cfg.dims) (hb : st.bufs = []) (hm : makeBuffers cfg.dims = [])
    (hr : cfg.dims.height.chunkSize ≠ 0) (hc : cfg.dims.width.chunkSize ≠ 0)
    (hy : u32 (cfg.dims.height.arraySize + cfg.dims.height.chunkSize - 1) / cfg.dims.height.chunkSize ≠ 0)
    (hx : u32 (cfg.dims.width.arraySize + cfg.dims.width.chunkSize - 1) / cfg.dims.width.chunkSize ≠ 0) :
    writeFrame env cfg data st = .ub := by
  rw [writeFrame_seq, if_neg (by omega)]
  dsimp only
  rw [hb, hm]
  dsimp only [List.isEmpty]
  have : ∀ id, writeFrameToChunks cfg.dims id data [] = .ub := by
    intro id
    unfold writeFrameToChunks
    rw [if_neg (by simp [hr, hc]), hg]
    simp only [Res.bind_ok]
    obtain ⟨ny, hny⟩ := Nat.exists_eq_succ_of_ne_zero hy
    obtain ⟨nx, hnx⟩ := Nat.exists_eq_succ_of_ne_zero hx
    obtain ⟨nr, hnr⟩ := Nat.exists_eq_succ_of_ne_zero hr
    have hcons : ∃ t ts, tileRowsOf (ny + 1) (nx + 1) (nr + 1) = t :: ts := by
      unfold tileRowsOf
      simp only [List.range_succ_eq_map, List.flatMap_cons, List.map_cons, List.cons_append]
      exact ⟨_, _, rfl⟩
    rw [hny, hnx, hnr]
    obtain ⟨t, ts, ht⟩ := hcons
    rw [ht, copyRows]
    obtain ⟨i, j, k⟩ := t
    simp [copyRow]
  rw [if_pos rfl, this]
  rfl

/-- The first frame of the first call goes to the writer of the first level. -/
theorem append_first {env : Env} {st : SState} {data : Bytes} {cfg : WConfig} {rest : List Level} {F : Nat}
    (ho : st.offset = 0) (he : st.error = []) (hb : st.buf.length = F) (hF : 0 < F) (hd : F ≤ data.length)
    (hl : st.levels = ⟨cfg, WState.init cfg, none⟩ :: rest) :
    (writeFrame env cfg (data.take F) (WState.init cfg) = .throw → append env (appendFuel data) data st = some .throw) ∧
    (writeFrame env cfg (data.take F) (WState.init cfg) = .ub → append env (appendFuel data) data st = some .ub) := by
  have : append env (appendFuel data) data st = appendLoop env data (data.length + 2 + 1) 0 0 st := by
    unfold append
    rw [he]
    rfl
  rw [this]
  have hs : slice data 0 F = data.take F := by simp [slice]
  constructor <;> intro h <;>
  · unfold appendLoop
    rw [if_neg (by omega)]
    dsimp only
    rw [if_neg (by omega), hb, if_neg (by omega), if_neg (by omega), hs]
    unfold writeLevel0
    rw [hl]
    simp [writerStep, h]

section
variable {w : World} {env : Env} {fuel : Nat} {s : Settings} {a y x : DimProps} {inner : List DimProps} {st : SState}
  {data : Bytes}

theorem Created.first {cfg : WConfig} {cfgs : List WConfig} (h : Created w env fuel s cfg cfgs st) :
    ∃ rest, st.levels = ⟨cfg, WState.init cfg, none⟩ :: rest := by
  obtain ⟨rest, hr⟩ := levelConfigs_head h.levels
  exact ⟨_, by rw [h.slevels, hr]; rfl⟩

theorem bytesOfFrame_exact {D : ArrayDims} (h : D.height.arraySize * D.width.arraySize * D.dtype.bytes < 2 ^ 64)
    (hw : 0 < D.width.arraySize) : bytesOfFrame D = D.height.arraySize * D.width.arraySize * D.dtype.bytes := by
  have e : D.dtype.bytes * D.height.arraySize * D.width.arraySize = D.height.arraySize * D.width.arraySize * D.dtype.bytes := by
    rw [Nat.mul_comm D.dtype.bytes, Nat.mul_right_comm]
  have h1 : D.dtype.bytes * D.height.arraySize < 2 ^ 64 := by
    refine Nat.lt_of_le_of_lt ?_ h
    rw [← e]
    exact Nat.le_mul_of_pos_right _ hw
  unfold bytesOfFrame
  rw [u64_of_lt h1, u64_of_lt (by rw [e]; exact h), e]

/-- **C23 is violated** by every accepted stream whose chunk height or width is so large that adding it to the array size
exceeds 2^32: creation succeeds, and the first append call with a whole frame fails in an internal check. -/
theorem large_plane_chunk_fails (h : createStream w env fuel (some s) = some (.ok st))
    (hd : s.dimensions = some (a :: (inner ++ [y, x])))
    (hz : ∀ d ∈ [y, x], d.arraySize < 2 ^ 32 ∧ d.chunkSize < 2 ^ 32)
    (hs : y.arraySize * x.arraySize * itemSize s.dataType < 2 ^ 64)
    (hw : 2 ^ 32 < y.arraySize + y.chunkSize ∨ 2 ^ 32 < x.arraySize + x.chunkSize)
    (hn : y.arraySize * x.arraySize * itemSize s.dataType ≤ data.length) :
    append env (appendFuel data) data st = some .throw := by
  obtain ⟨cfg, cfgs, hc⟩ := createStream_ok h
  have hv := (accepted_valid hc.valid hc.commit).1
  obtain ⟨rest, hr⟩ := hc.first
  have hD := dimsOf hc.valid hc.commit hd
  obtain ⟨cfg', h1, h2⟩ := commit_dims hd
  rw [hc.commit] at h1
  cases h1
  have hwp := hv.tail_array cfg.dims.width (by simp [ArrayDims.tailDims])
  have hhp := hv.tail_array cfg.dims.height (by simp [ArrayDims.tailDims])
  have hb : bytesOfFrame cfg.dims = cfg.dims.frameBytes := bytesOfFrame_exact (by rw [← hD.frame] at hs; exact hs) hwp
  have hpos : 0 < cfg.dims.frameBytes := Nat.mul_pos (Nat.mul_pos hhp hwp) (by cases cfg.dims.dtype <;> decide)
  rw [← hD.frame] at hn
  refine (append_first (F := cfg.dims.frameBytes) hc.offset hc.error (by rw [hc.buf, hb]; simp) hpos hn hr).1 ?_
  have hl : (data.take cfg.dims.frameBytes).length = cfg.dims.frameBytes := by simp; omega
  refine writeFrame_no_tiles hv (by rw [hl, hb]) (by rw [hl]; exact hpos) ?_
  rw [h2]
  rcases hw with hw | hw
  · exact .inl (wrapped_count (hz y (by simp)).1 (hz y (by simp)).2 hw)
  · exact .inr (wrapped_count (hz x (by simp)).1 (hz x (by simp)).2 hw)

theorem foldl_pos_lt {l : List Dim} {k : Nat} (hk : 0 < k) (ha : ∀ d ∈ l, 0 < d.arraySize)
    (h : k * prod (aShape l) < 2 ^ 64) : l.foldl (fun acc d => u64 (acc * d.arraySize)) k = k * prod (aShape l) := by
  induction l generalizing k with
  | nil => simp [aShape, prod]
  | cons d ds ih =>
    have hd := ha d (by simp)
    have e : k * prod (aShape (d :: ds)) = k * d.arraySize * prod (aShape ds) := by
      simp [aShape, prod, Nat.mul_assoc]
    have hp : 0 < prod (aShape ds) := by
      refine prod_pos ?_
      intro n hn
      simp only [aShape, List.mem_map] at hn
      obtain ⟨q, hq, rfl⟩ := hn
      exact ha q (by simp [hq])
    have h1 : k * d.arraySize < 2 ^ 64 := by
      rw [e] at h
      exact Nat.lt_of_le_of_lt (Nat.le_mul_of_pos_right _ hp) h
    rw [List.foldl_cons, u64_of_lt h1, ih (Nat.mul_pos hk hd) (fun q hq => ha q (by simp [hq])) (by rw [← e]; exact h), e]

theorem latticeChecks_true {l : List Dim} (ha : ∀ d ∈ l, 0 < d.arraySize) (hc : ∀ d ∈ l, 0 < d.chunkSize ∧ d.chunkSize < 2 ^ 32)
    (h : prod (aShape l) < 2 ^ 32) : latticeChecks l = true := by
  induction l with
  | nil => rfl
  | cons d ds ih =>
    have hd := ha d (by simp)
    have e : prod (aShape (d :: ds)) = d.arraySize * prod (aShape ds) := by
      simp [aShape, prod]
    have hds : ∀ q ∈ ds, 0 < q.arraySize := fun q hq => ha q (by simp [hq])
    have hp : 0 < prod (aShape ds) := by
      refine prod_pos ?_
      intro n hn
      simp only [aShape, List.mem_map] at hn
      obtain ⟨q, hq, rfl⟩ := hn
      exact hds q hq
    have hle : prod (aShape ds) ≤ prod (aShape (d :: ds)) := by
      rw [e]; exact Nat.le_mul_of_pos_left _ hd
    obtain ⟨hc1, hc2⟩ := hc d (by simp)
    have hpp : 0 < prod (aShape (d :: ds)) := by omega
    have hm : d.chunkSize * prod (aShape ds) < 2 ^ 64 := by
      calc d.chunkSize * prod (aShape ds) < 2 ^ 32 * 2 ^ 32 := Nat.mul_lt_mul'' hc2 (by omega)
        _ = 2 ^ 64 := by decide
    rw [latticeChecks, ih hds (fun q hq => hc q (by simp [hq])) (by omega), foldl_pos_lt (by omega) ha (by omega),
      Nat.one_mul, Nat.one_mul, u64_of_lt (Nat.lt_of_lt_of_le hc2 (by decide)), foldl_pos_lt hc1 hds hm]
    have := Nat.mul_pos hc1 hp
    simp
    omega

/-- **C23 is violated** by every accepted stream in which an inner chunk size (not height, not width) is that large: no
chunk buffers are allocated, and the first append call with a whole frame writes out of bounds. -/
theorem large_inner_chunk_ub (h : createStream w env fuel (some s) = some (.ok st))
    (hd : s.dimensions = some (a :: (inner ++ [y, x])))
    (hz : ∀ d ∈ inner ++ [y, x], d.arraySize < 2 ^ 32 ∧ d.chunkSize < 2 ^ 32)
    (hs : y.arraySize * x.arraySize * itemSize s.dataType < 2 ^ 64) (hi : prod (inner.map (·.arraySize)) < 2 ^ 32)
    (hy : y.arraySize + y.chunkSize ≤ 2 ^ 32) (hx : x.arraySize + x.chunkSize ≤ 2 ^ 32)
    (hw : ∃ d ∈ inner, 2 ^ 32 < d.arraySize + d.chunkSize)
    (hn : y.arraySize * x.arraySize * itemSize s.dataType ≤ data.length) :
    append env (appendFuel data) data st = some .ub := by
  obtain ⟨cfg, cfgs, hc⟩ := createStream_ok h
  have hv := (accepted_valid hc.valid hc.commit).1
  obtain ⟨rest, hr⟩ := hc.first
  have hD := dimsOf hc.valid hc.commit hd
  obtain ⟨cfg', h1, h2⟩ := commit_dims hd
  rw [hc.commit] at h1
  cases h1
  have hwp := hv.tail_array cfg.dims.width (by simp [ArrayDims.tailDims])
  have hhp := hv.tail_array cfg.dims.height (by simp [ArrayDims.tailDims])
  have hwc := hv.tail_chunk cfg.dims.width (by simp [ArrayDims.tailDims])
  have hhc := hv.tail_chunk cfg.dims.height (by simp [ArrayDims.tailDims])
  have hb : bytesOfFrame cfg.dims = cfg.dims.frameBytes := bytesOfFrame_exact (by rw [← hD.frame] at hs; exact hs) hwp
  have hpos : 0 < cfg.dims.frameBytes := Nat.mul_pos (Nat.mul_pos hhp hwp) (by cases cfg.dims.dtype <;> decide)
  rw [← hD.frame] at hn
  refine (append_first (F := cfg.dims.frameBytes) hc.offset hc.error (by rw [hc.buf, hb]; simp) hpos hn hr).2 ?_
  have hl : (data.take cfg.dims.frameBytes).length = cfg.dims.frameBytes := by simp; omega
  have hcount : ∀ {p c : Nat}, 0 < p → 0 < c → p + c ≤ 2 ^ 32 → u32 (p + c - 1) / c ≠ 0 := by
    intro p c hp hc h
    rw [u32_of_lt (by omega)]
    have : 0 < (p + c - 1) / c := Nat.div_pos (by omega) hc
    omega
  have eh : cfg.dims.height = y.toDim := by rw [h2]
  have ew : cfg.dims.width = x.toDim := by rw [h2]
  have ei : cfg.dims.inner = inner.map DimProps.toDim := by rw [h2]
  refine writeFrame_no_buffers ?_ (by rw [hl, hb]) rfl ?_ (by omega) (by omega)
    (hcount hhp hhc (by rw [eh]; exact hy)) (hcount hwp hwc (by rw [ew]; exact hx))
  · have hlc : latticeChecks cfg.dims.inner = true := by
      refine latticeChecks_true (fun d hd => hv.tail_array d (by simp [ArrayDims.tailDims, hd])) ?_
        (by rw [hD.innerSizes]; exact hi)
      intro d hdm
      refine ⟨hv.tail_chunk d (by simp [ArrayDims.tailDims, hdm]), ?_⟩
      rw [ei] at hdm
      obtain ⟨q, hq, rfl⟩ := List.mem_map.1 hdm
      exact (hz q (by simp [hq])).2
    cases hg : offsetGuards cfg.dims with
    | ub => exact absurd hg (offsetGuards_ne_ub hv)
    | throw =>
      unfold offsetGuards at hg
      rw [hlc] at hg
      simp at hg
      split at hg
      · simp at hg
      · split at hg <;> simp at hg
    | ok u => rfl
  · have : cfg.dims.numberOfChunksInMemory = 0 := by
      unfold ArrayDims.numberOfChunksInMemory
      obtain ⟨q, hq, hq2⟩ := hw
      have hqm : q.toDim ∈ cfg.dims.tailDims := by
        unfold ArrayDims.tailDims
        rw [ei]
        simp only [List.mem_append, List.mem_map]
        exact .inl ⟨q, hq, rfl⟩
      have hq0 : chunksAlong q.toDim = 0 := wrapped_count (hz q (by simp [hq])).1 (hz q (by simp [hq])).2 hq2
      have key : ∀ (l : List Dim) (k : Nat), (k = 0 ∨ ∃ d ∈ l, chunksAlong d = 0) →
          l.foldl (fun acc d => u32 (acc * chunksAlong d)) k = 0 := by
        intro l
        induction l with
        | nil =>
          intro k hk
          rcases hk with hk | ⟨d, hd, _⟩
          · exact hk
          · simp at hd
        | cons d ds ih =>
          intro k hk
          rw [List.foldl_cons]
          refine ih _ ?_
          rcases hk with rfl | ⟨d', hd', h0⟩
          · left; simp [u32]
          · rcases List.mem_cons.1 hd' with rfl | hd'
            · left; rw [h0]; simp [u32]
            · exact .inr ⟨d', hd', h0⟩
      exact key _ _ (.inr ⟨_, hqm, hq0⟩)
    unfold makeBuffers
    rw [this]
    rfl

theorem flatten_sized {F : Nat} {fs : List Bytes} (h : ∀ x ∈ fs, x.length = F) : fs.flatten.length = fs.length * F := by
  induction fs with
  | nil => simp
  | cons g gs ih =>
    rw [List.flatten_cons, List.length_append, h g (by simp), ih (fun x hx => h x (by simp [hx])), List.length_cons,
      Nat.succ_mul, Nat.add_comm]

/-- Frames before the first flush. -/
theorem writeFrames_before_flush {cfg : WConfig} (hv : cfg.dims.Valid) (hf : cfg.dims.Fits)
    (hp : cfg.dims.framesPerChunk < 2 ^ 32) (frames : List Bytes) (hn : frames.length < cfg.dims.framesPerChunk)
    (hl : ∀ f ∈ frames, f.length = cfg.dims.frameBytes) :
    ∃ st, writeFrames env cfg frames (WState.init cfg) = .ok st ∧ st.framesWritten = frames.length ∧
      BufsOk cfg.dims frames.flatten frames.length st.bufs ∧
      st.bytesToFlush = frames.length % cfg.dims.framesPerChunk * cfg.dims.frameBytes ∧ st.dataSinks = [] ∧ st.finalizing = false := by
  have hF := ArrayDims.frameBytes_pos hv hf
  induction frames using List.reverseRec with
  | nil => exact ⟨_, rfl, rfl, .inl ⟨rfl, rfl⟩, by simp [WState.init], rfl, rfl⟩
  | append_singleton fs f ih =>
    rw [List.length_append, List.length_singleton] at hn
    obtain ⟨st, h1, h2, h3, h4, h5, h6⟩ := ih (by omega) (fun x hx => hl x (by simp [hx]))
    have hlen : fs.flatten.length = fs.length * cfg.dims.frameBytes := flatten_sized fun x hx => hl x (by simp [hx])
    have hw := writeFrame_wrap (env := env) hv hf (n := fs.length) (by omega) hlen (hl f (by simp)) h2 h3 h4
    rw [u32_of_lt (by omega)] at hw
    dsimp only at hw
    rw [Nat.mod_eq_of_lt hn, if_neg (by omega)] at hw
    refine ⟨{ st with
        bufs := layer cfg.dims (fs.flatten ++ f) (fs.length / cfg.dims.framesPerChunk)
        bytesToFlush := (fs.length % cfg.dims.framesPerChunk + 1) * cfg.dims.frameBytes
        framesWritten := fs.length + 1 }, ?_, by simp, ?_, ?_, h5, h6⟩
    · rw [writeFrames_append, h1, Res.bind_ok, writeFrames, hw]
      have : (cfg.dims.frameBytes != 0) = true := by simp; omega
      simp [this, writeFrames]
    · right
      simp only [List.flatten_append, List.flatten_singleton, List.length_append, List.length_singleton]
      rw [Nat.div_eq_of_lt hn, Nat.div_eq_of_lt (show fs.length < _ by omega)]
    · dsimp only
      rw [List.length_append, List.length_singleton, Nat.mod_eq_of_lt hn, Nat.mod_eq_of_lt (show fs.length < _ by omega)]

/-- The frames of a stream without pyramid are the frames of its writer. -/
theorem foldFrames_single {frames : List Bytes} {lv : Level} {st : SState} (hm : st.multiscale = false) (hl : st.levels = [lv])
    (h : writeFrames env lv.cfg frames lv.st = .throw) (hs : ∀ f ∈ frames, f.length = bytesOfFrame lv.cfg.dims ∧ 0 < f.length) :
    foldFrames env frames st = .throw := by
  induction frames generalizing lv st with
  | nil => cases h
  | cons f fs ih =>
    rw [writeFrames] at h
    have hf := hs f (by simp)
    unfold foldFrames frameStep writeLevel0
    rw [hl]
    dsimp only
    unfold writerStep
    cases hw : writeFrame env lv.cfg f lv.st with
    | ub => rw [hw] at h; cases h
    | throw => rfl
    | ok r =>
      obtain ⟨s1, n⟩ := r
      rw [hw] at h
      have hn : n = f.length := by
        exact writeFrame_ret hf.1.symm hw
      simp only [Res.bind_ok, Res.pure_eq] at h ⊢
      have : (n != 0) = true := by simp; omega
      rw [this, check_true, Res.bind_ok] at h
      have hms : ∀ x : SState, x.multiscale = false → writeMultiscale env x f = .ok x := by
        intro x hx
        unfold writeMultiscale
        rw [hx]
        rfl
      rw [hms _ (by exact hm), Res.bind_ok]
      exact ih hm rfl h (fun g hg => hs g (by simp [hg]))

theorem dataPathsFrom_none {v : Version} {ds : List Dim} {ps : List Text} (h : ∃ d ∈ ds, partsAlong v d = 0) :
    dataPathsFrom v ds ps = none := by
  induction ds generalizing ps with
  | nil => obtain ⟨d, hd, _⟩ := h; simp at hd
  | cons d ds ih =>
    rw [dataPathsFrom]
    split
    · rfl
    · rename_i h0
      refine ih ?_
      obtain ⟨q, hq, hq0⟩ := h
      rcases List.mem_cons.1 hq with rfl | hq
      · exact absurd hq0 h0
      · exact ⟨q, hq, hq0⟩

/-- **C23 is violated** by every version 3 stream without pyramid in which a shard size is so large that adding it to the
number of chunks exceeds 2^32: creation succeeds, frames are accepted until the first chunk is complete, and the call that
completes it fails in an internal check, whatever the storage. -/
theorem large_shard_fails (h : createStream w env fuel (some s) = some (.ok st)) (hV : s.version = 3)
    (hm : s.multiscale = false) (hd : s.dimensions = some (a :: (inner ++ [y, x])))
    (hfit : ∀ cfg, commitSettings s = .ok cfg → cfg.dims.Fits)
    (hw : ∃ d ∈ inner ++ [y, x], d.shardSize < 2 ^ 32 ∧ 2 ^ 32 < ceilDiv d.arraySize d.chunkSize + d.shardSize)
    {frames : List Bytes} (hn : frames.length = a.chunkSize * prod (inner.map (·.arraySize))) (hb : frames.length < 2 ^ 32)
    (hf : ∀ f ∈ frames, f.length = y.arraySize * x.arraySize * itemSize s.dataType) :
    append env (appendFuel frames.flatten) frames.flatten st = some .throw := by
  obtain ⟨cfg, cfgs, hc⟩ := createStream_ok h
  have hv := (accepted_valid hc.valid hc.commit).1
  have hfi := hfit cfg hc.commit
  have hF := ArrayDims.frameBytes_pos hv hfi
  have hFB := ArrayDims.framesPerChunk_pos hv hfi
  have hFe := ArrayDims.bytesOfFrame_eq hv hfi
  have hD := dimsOf hc.valid hc.commit hd
  have hv3 : cfg.version = .v3 := by
    obtain ⟨cfg', e1, _⟩ := commit_dims hd
    have := hc.commit
    unfold commitSettings at this
    obtain ⟨ds, _, this⟩ := Res.bind_eq_ok.1 this
    simp only [Res.pure_eq, Res.ok.injEq] at this
    rw [← this, hV]
    rfl
  rw [← hD.frame] at hf
  rw [← hD.perChunk] at hn
  have hlev : cfgs = [cfg] := by
    have := hc.levels
    rw [hm] at this
    exact levels_of_single this
  have hal : Aligned cfg.dims.frameBytes st := by rw [← hFe]; exact hc.aligned
  have hfl := flatten_length_ge hF hf
  rw [append_aligned hF frames hf (fuel := appendFuel frames.flatten) (by unfold appendFuel; omega) hal hc.error]
  have hlv : st.levels = [⟨cfg, WState.init cfg, none⟩] := by rw [hc.slevels, hlev]; rfl
  rw [foldFrames_single (by rw [hc.sms, hm]) hlv ?_ (fun f hfm => by dsimp only; rw [hf f hfm, hFe]; exact ⟨rfl, hF⟩)]
  · rfl
  dsimp only
  have hne : frames ≠ [] := by
    rintro rfl
    simp at hn
    omega
  obtain ⟨fs, f, rfl⟩ : ∃ fs f, frames = fs ++ [f] := ⟨frames.dropLast, frames.getLast hne, (List.dropLast_append_getLast hne).symm⟩
  rw [List.length_append, List.length_singleton] at hn hb
  obtain ⟨s1, h1, h2, h3, h4, h5, h6⟩ := writeFrames_before_flush (env := env) hv hfi (by omega) fs (by omega)
    (fun g hg => hf g (by simp [hg]))
  have hlen : fs.flatten.length = fs.length * cfg.dims.frameBytes := flatten_sized fun x hx => hf x (by simp [hx])
  have hwf := writeFrame_wrap (env := env) hv hfi (n := fs.length) (by omega) hlen (hf f (by simp)) h2 h3 h4
  rw [u32_of_lt (by omega)] at hwf
  dsimp only at hwf
  rw [hn, Nat.mod_self, if_pos rfl] at hwf
  have hparts : dataPaths cfg s1.appendIdx = none := by
    unfold dataPaths
    refine dataPathsFrom_none ?_
    obtain ⟨q, hq, hq1, hq2⟩ := hw
    have hmem : q.toDim ∈ cfg.dims.tailDims := by
      obtain ⟨cfg', e1, e2⟩ := commit_dims hd
      rw [hc.commit] at e1
      cases e1
      rw [e2]
      unfold ArrayDims.tailDims
      simp only [List.mem_append, List.mem_map, List.mem_cons, List.not_mem_nil, or_false] at hq ⊢
      rcases hq with hq | rfl | rfl
      · exact .inl ⟨q, hq, rfl⟩
      · exact .inr (.inl rfl)
      · exact .inr (.inr rfl)
    refine ⟨q.toDim, hmem, ?_⟩
    have hok : DimOk q.toDim := ⟨hv.tail_chunk _ hmem, hv.tail_array _ hmem, hfi.size _ hmem⟩
    have hlt : chunksAlong q.toDim < 2 ^ 32 := by
      unfold chunksAlong
      exact Nat.lt_of_le_of_lt (Nat.div_le_self _ _) (Nat.mod_lt _ (by decide))
    have hce := chunksAlong_eq hok
    rw [hv3]
    unfold partsAlong shardsAlong
    dsimp only
    split
    · rfl
    · refine wrapped_count hlt hq1 ?_
      rw [hce]
      exact hq2
  rw [writeFrames_append, h1, Res.bind_ok, writeFrames, hwf]
  have hflush : ∀ t : WState, t.bytesToFlush ≠ 0 → t.dataSinks = [] → t.appendIdx = s1.appendIdx → flush env cfg t = .throw := by
    intro t ht0 ht1 ht2
    unfold flush
    rw [if_neg ht0, hv3]
    dsimp only
    have : flushImplV3 env cfg (compressBuffers env cfg t) = .throw := by
      unfold flushImplV3
      have e1 : (compressBuffers env cfg t).dataSinks = [] := by
        unfold compressBuffers
        split <;> exact ht1
      have e2 : (compressBuffers env cfg t).appendIdx = s1.appendIdx := by
        unfold compressBuffers
        split <;> exact ht2
      rw [e1]
      dsimp only [List.isEmpty]
      rw [if_pos rfl]
      unfold makeDataSinks
      rw [e2, hparts]
    rw [this]
    rfl
  rw [hflush { s1 with
      bufs := layer cfg.dims (fs.flatten ++ f) (fs.length / cfg.dims.framesPerChunk)
      bytesToFlush := (fs.length % cfg.dims.framesPerChunk + 1) * cfg.dims.frameBytes
      framesWritten := cfg.dims.framesPerChunk } (Nat.ne_of_gt (Nat.mul_pos (by omega) hF)) h5 rfl]
  rfl

end

/-! ### Concrete settings -/

/-- "The whole width in one chunk." -/
def Sample.wideChunk : Settings := { Sample.settings1 with
  dimensions := some [Sample.dimT, Sample.dimC, Sample.dimY, { Sample.dimX with chunkSize := 2 ^ 32 - 1 }] }

/-- "All channels in one chunk." -/
def Sample.innerChunk : Settings := { Sample.settings1 with
  dimensions := some [Sample.dimT, { Sample.dimC with chunkSize := 2 ^ 32 - 1 }, Sample.dimY, Sample.dimX] }

/-- "All chunks along x in one shard." -/
def Sample.wideShard : Settings := { Sample.settings3 with
  dimensions := some [Sample.dimT, Sample.dimC, Sample.dimY, { Sample.dimX with shardSize := 2 ^ 32 - 1 }] }

theorem Sample.works : StorageWorks Sample.env := ⟨fun _ => rfl, fun _ _ _ => rfl, fun _ => rfl⟩

/-- **C23 is violated**: settings that `ZarrStream_create` accepts, on storage that always works, and whole frames that
cannot be appended. -/
theorem accepted_sizes_violated :
    (∃ st, createStream Sample.world Sample.env 9 (some Sample.wideChunk) = some (.ok st) ∧
      append Sample.env (appendFuel (Sample.frame 0)) (Sample.frame 0) st = some .throw) ∧
    (∃ st, createStream Sample.world Sample.env 9 (some Sample.innerChunk) = some (.ok st) ∧
      append Sample.env (appendFuel (Sample.frame 0)) (Sample.frame 0) st = some .ub) ∧
    (∃ st, createStream Sample.world Sample.env 9 (some Sample.wideShard) = some (.ok st) ∧
      append Sample.env (appendFuel ((List.range 6).map Sample.frame).flatten) ((List.range 6).map Sample.frame).flatten st =
        some .throw) := by
  refine ⟨?_, ?_, ?_⟩
  · obtain ⟨st, h⟩ := createStream_works (w := Sample.world) (fuel := 9) (s := Sample.wideChunk) Sample.works rfl rfl rfl rfl
    refine ⟨st, h, large_plane_chunk_fails (inner := [Sample.dimC]) h rfl (by decide) (by decide) (by decide) ?_⟩
    rw [Sample.frame_length]
    decide
  · obtain ⟨st, h⟩ := createStream_works (w := Sample.world) (fuel := 9) (s := Sample.innerChunk) Sample.works rfl rfl rfl rfl
    refine ⟨st, h, large_inner_chunk_ub (inner := [{ Sample.dimC with chunkSize := 2 ^ 32 - 1 }]) h rfl (by decide) (by decide)
      (by decide) (by decide) (by decide) (by decide) ?_⟩
    rw [Sample.frame_length]
    decide
  · obtain ⟨st, h⟩ := createStream_works (w := Sample.world) (fuel := 9) (s := Sample.wideShard) Sample.works rfl rfl rfl rfl
    refine ⟨st, h, large_shard_fails (inner := [Sample.dimC]) h rfl rfl rfl ?_ (by decide) rfl (by simp) ?_⟩
    · intro cfg hc
      cases hc
      decide
    · intro f hf
      obtain ⟨k, _, rfl⟩ := List.mem_map.1 hf
      exact Sample.frame_length k

end AZ
