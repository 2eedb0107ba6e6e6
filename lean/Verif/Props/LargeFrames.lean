import Verif.Props.ReadBackV3
import Verif.Spec.LargeFrames

set_option linter.unusedSimpArgs false

/-!
# C93: every pixel of an acknowledged frame is stored, however large the frame

The copy loop of `write_frame_to_chunks_` computes the index of the first pixel of each run of pixels in 32
bits (`array.writer.cpp:297-298`: `frame_row * frame_cols + frame_col`, all `uint32_t`). The frame size itself is
computed in 64 bits, so that frames of more than `2^32` pixels are accepted, acknowledged and stored — with the
pixels from the top of the frame in place of those beyond `2^32`.
-/

namespace AZ
open Spec

/-- Settings accepted by `ZarrStream_create` in world `w`, without pyramid, whose sizes stay within the limits of
the code except that the frames may have any number of pixels. -/
structure WideSetup (w : World) (s : Settings) (cfg : WConfig) : Prop where
  valid : validateSettings w (some s) = .ok true
  commit : commitSettings s = .ok cfg
  store : w.storeOk cfg.storePath = true
  room : cfg.dims.Room
  flat : s.multiscale = false

namespace WideSetup

variable {w : World} {env : Env} {fuel : Nat} {s : Settings} {cfg : WConfig}
  {a y x : DimProps} {inner : List DimProps} {root : Text} {calls : List (List Bytes)}

theorem dimsValid (h : WideSetup w s cfg) : cfg.dims.Valid := (accepted_valid h.valid h.commit).1

theorem levels (h : WideSetup w s cfg) (fuel : Nat) : levelConfigs fuel s.multiscale cfg = some (.ok [cfg]) := by
  rw [h.flat]; rfl

theorem good (h : WideSetup w s cfg) (hE : StorageOk env s) : GoodEnv env cfg := by
  refine ⟨hE.sinks, hE.metaSink, hE.write, hE.finalize, fun q hq b _ => ?_⟩
  rw [(commit_fields h.commit).2.2.2.1] at hq
  cases hs : s.compression with
  | none => rw [hs] at hq; cases hq
  | some r =>
    rw [hs] at hq
    simp only [Option.map_some, Option.some.injEq] at hq
    rw [← hq]
    exact hE.compress r hs _ b

theorem widthChunk (h : WideSetup w s cfg) (hd : s.dimensions = some (a :: (inner ++ [y, x]))) :
    cfg.dims.width.chunkSize = x.chunkSize := by
  obtain ⟨cfg', h1, h2⟩ := commit_dims hd
  rw [h.commit] at h1
  cases h1
  rw [h2]; rfl

theorem decoded (h : WideSetup w s cfg) (hE : StorageOk env s) {decode : Bytes → Option Bytes}
    (hd : Decodes env s decode) (hds : s.dimensions = some (a :: (inner ++ [y, x]))) (b : Bytes)
    (hb : b.length = cfg.dims.chunkBytes) : decode (storedForm env cfg b) = some b := by
  have hD := dimsOf h.valid h.commit hds
  have hle : b.length ≤ fullChunk s := by
    rw [hb]
    unfold ArrayDims.chunkBytes fullChunk
    rw [hD.chunks, hD.item, hds]
    exact Nat.le_refl _
  unfold storedForm
  rw [(commit_fields h.commit).2.2.2.1]
  unfold Decodes at hd
  cases hs : s.compression with
  | none => rw [hs] at hd; exact hd b
  | some q =>
    rw [hs] at hd
    simp only [Option.map_some]
    have := hE.compress q hs cfg.dims.dtype.bytes b
    cases ho : env.compress ⟨codecName q.codec, q.level, q.shuffle⟩ cfg.dims.dtype.bytes b with
    | none => rw [ho] at this; simp at this
    | some out =>
      rw [hD.item] at ho
      exact hd b out hle ho

theorem flatSizes (hf : ∀ c ∈ calls, ∀ f ∈ c, f.length = cfg.dims.frameBytes) :
    ∀ f ∈ calls.flatten, f.length = cfg.dims.frameBytes := by
  intro f hfm
  obtain ⟨c, hcm, hfc⟩ := List.mem_flatten.1 hfm
  exact hf c hcm f hfc

theorem seenSizes (hf : ∀ c ∈ calls, ∀ f ∈ c, f.length = cfg.dims.frameBytes) :
    ∀ f ∈ calls.flatten.map cfg.dims.seen, f.length = cfg.dims.frameBytes := by
  intro f hfm
  obtain ⟨g, hg, rfl⟩ := List.mem_map.1 hfm
  rw [ArrayDims.seen_length]
  exact flatSizes hf g hg

theorem levelsWork (h : WideSetup w s cfg) (hw : WriterWorks (2 ^ 32) env cfg) :
    LevelsWork (2 ^ 32) env s.multiscale cfg [cfg] := by
  have he := ArrayDims.bytesOfFrame_eq h.dimsValid h.room
  refine ⟨⟨fun c hc => ?_, ?_, ?_, trivial⟩, fun hm => (by rw [h.flat] at hm; cases hm)⟩
  · rw [List.mem_singleton.1 hc]; exact hw
  · rw [he]; exact ArrayDims.frameBytes_pos h.dimsValid h.room
  · rw [he]
    unfold ArrayDims.frameBytes
    rw [Nat.mul_comm cfg.dims.height.arraySize]

theorem session_v2 (h : WideSetup w s cfg) (hE : StorageOk env s) (hV : s.version = 2)
    (hn : calls.flatten.length < 2 ^ 32) (hf : ∀ c ∈ calls, ∀ f ∈ c, f.length = cfg.dims.frameBytes) :
    ∃ st tr, runStream w env fuel s (calls.map List.flatten) =
      some (.ok (st, calls.map (fun c => c.flatten.length), tr)) ∧ st.error = [] ∧
      ∀ p, Owned cfg p → about p tr =
        about p (runEventsV2 env cfg (calls.flatten.map cfg.dims.seen).flatten calls.flatten.length) := by
  have hv := h.dimsValid
  have hver : cfg.version = .v2 := by rw [(commit_fields h.commit).2.2.2.2, if_pos hV]
  have hw : WriterWorks (2 ^ 32) env cfg := by
    intro frames hn hd
    rw [ArrayDims.bytesOfFrame_eq hv h.room] at hd
    obtain ⟨st, h1, h2⟩ := writeFrames_inv2_seen (h.good hE) hver hv h.room frames (n := 0) (by omega) hd (inv2_init env hver)
    obtain ⟨stf, h3, _⟩ := finalizeArray_v2 (h.good hE) hver hv h.room (by omega) h2
    exact ⟨st, h1, h2.errs, stf, h3⟩
  obtain ⟨st, tr, h1, h2, h3⟩ := session_works hE.works h.valid h.commit h.store (h.levels fuel) (h.levelsWork hw) hn
    (by rw [ArrayDims.bytesOfFrame_eq hv h.room]; exact hf)
  refine ⟨st, tr, h1, h3, fun p hp => ?_⟩
  obtain ⟨stf, g1, g2⟩ := h2.level 0 cfg rfl
  obtain ⟨stf', k1, _, k3⟩ := runArray_v2_seen (h.good hE) hver hv h.room calls.flatten hn (flatSizes hf)
  rw [framesOfLevel_zero, k1] at g1
  cases g1
  rw [g2 p hp, k3]

theorem session_v3 (h : WideSetup w s cfg) (h3 : cfg.dims.FitsV3) (hE : StorageOk env s) (ho : SmallOverhead env)
    (hV : s.version = 3)
    (hn : calls.flatten.length < 2 ^ 32) (hf : ∀ c ∈ calls, ∀ f ∈ c, f.length = cfg.dims.frameBytes) :
    ∃ st tr, runStream w env fuel s (calls.map List.flatten) =
      some (.ok (st, calls.map (fun c => c.flatten.length), tr)) ∧ st.error = [] ∧
      ∀ p, Owned cfg p → about p tr =
        about p (runEventsV3 env cfg (calls.flatten.map cfg.dims.seen).flatten calls.flatten.length) := by
  have hv := h.dimsValid
  have hver : cfg.version = .v3 := by
    rw [(commit_fields h.commit).2.2.2.2, if_neg (by rw [hV]; decide)]
  have hw : WriterWorks (2 ^ 32) env cfg := by
    intro frames hn hd
    rw [ArrayDims.bytesOfFrame_eq hv h.room] at hd
    obtain ⟨st, h1, h2⟩ := writeFrames_inv3_seen (h.good hE) ho hver hv h.room h3 frames (n := 0) (by omega) hd
      (inv3_init hver hv h.room h3)
    obtain ⟨stf, h4, _⟩ := finalizeArray_v3 (h.good hE) ho hver hv h.room h3 (by omega) h2
    exact ⟨st, h1, h2.errs, stf, h4⟩
  obtain ⟨st, tr, h1, h2, h4⟩ := session_works hE.works h.valid h.commit h.store (h.levels fuel) (h.levelsWork hw) hn
    (by rw [ArrayDims.bytesOfFrame_eq hv h.room]; exact hf)
  refine ⟨st, tr, h1, h4, fun p hp => ?_⟩
  obtain ⟨stf, g1, g2⟩ := h2.level 0 cfg rfl
  obtain ⟨stf', k1, _, k3⟩ := runArray_v3_seen (h.good hE) ho hver hv h.room h3 calls.flatten hn (flatSizes hf)
  rw [framesOfLevel_zero, k1] at g1
  cases g1
  rw [g2 p hp, k3]

/-- The pixel of the stored frame. -/
theorem pixel_seen {bpp W c H py px : Nat} (hb : 0 < bpp) {f : Bytes} (hf : f.length = H * W * bpp)
    (hpy : py < H) (hpx : px < W) :
    slice (seenFrame bpp W c f) ((py * W + px) * bpp) bpp = slice f (seenPixel W c (py * W + px) * bpp) bpp := by
  have hlt : py * W + px < H * W :=
    calc py * W + px < (py + 1) * W := by rw [Nat.add_mul, Nat.one_mul]; omega
      _ ≤ _ := Nat.mul_le_mul_right _ hpy
  have hle : seenPixel W c (py * W + px) ≤ py * W + px := by
    unfold seenPixel
    have h1 := Nat.mod_le (py * W + px - (py * W + px) % W % c) (2 ^ 32)
    have h2 : (py * W + px) % W % c ≤ py * W + px := Nat.le_trans (Nat.mod_le _ _) (Nat.mod_le _ _)
    omega
  generalize hp : py * W + px = p at *
  have e1 : (p + 1) * bpp ≤ f.length := by rw [hf]; exact Nat.mul_le_mul_right _ hlt
  have e2 : (seenPixel W c p + 1) * bpp ≤ f.length :=
    Nat.le_trans (Nat.mul_le_mul_right _ (by omega)) e1
  rw [Nat.add_mul, Nat.one_mul] at e1 e2
  apply List.ext_getElem (by simp [slice, seenFrame]; omega)
  intro i h1 h2
  have hi : i < bpp := by simp [slice] at h2; omega
  simp only [slice, List.getElem_take, List.getElem_drop, seenFrame, List.getElem_map, List.getElem_range]
  have d1 : (p * bpp + i) / bpp = p := by
    rw [Nat.mul_comm, Nat.mul_add_div hb, Nat.div_eq_of_lt hi, Nat.add_zero]
  have d2 : (p * bpp + i) % bpp = i := by rw [Nat.mul_add_mod_self_right, Nat.mod_eq_of_lt hi]
  rw [d1, d2, List.getD_eq_getElem?_getD, List.getElem?_eq_getElem (by omega)]
  rfl

/-- The pixel read at a coordinate of the array of the stored frames. -/
theorem pixels_of_seen (h : WideSetup w s cfg) (hd : s.dimensions = some (a :: (inner ++ [y, x])))
    {frames : List Bytes} (hf : ∀ f ∈ frames, f.length = y.arraySize * x.arraySize * itemSize s.dataType) (n : Nat)
    {py px : Nat} (hpy : py < y.arraySize) (hpx : px < x.arraySize) :
    (match (frames.map cfg.dims.seen)[n]? with
      | some f => pixelOf f x.arraySize (itemSize s.dataType) py px
      | none => List.replicate (itemSize s.dataType) 0) =
    (match frames[n]? with
      | some f => slice f (seenPixel x.arraySize x.chunkSize (py * x.arraySize + px) * itemSize s.dataType)
          (itemSize s.dataType)
      | none => List.replicate (itemSize s.dataType) 0) := by
  have hD := dimsOf h.valid h.commit hd
  rw [List.getElem?_map]
  cases hfr : frames[n]? with
  | none => rfl
  | some f =>
    simp only [Option.map_some]
    unfold pixelOf ArrayDims.seen
    rw [hD.item, hD.width, h.widthChunk hd]
    exact pixel_seen (by rw [← hD.item]; exact ArrayDims.dtype_pos _) (hf f (List.mem_of_getElem? hfr)) hpy hpx

/-- **V2**: sessions of frames of any number of pixels succeed, every call consumes its whole buffer, and the array
that is read back holds, at each pixel, the pixel `seenPixel` of the frame appended for it. -/
theorem v2_read (h : WideSetup w s cfg) (hE : StorageOk env s) (hV : s.version = 2)
    (hd : s.dimensions = some (a :: (inner ++ [y, x]))) (hr : StoredAt s root) (hfr : Fresh w s root)
    {decode : Bytes → Option Bytes} (hdec : Decodes env s decode) (hn : calls.flatten.length < 2 ^ 32)
    (hf : ∀ c ∈ calls, ∀ f ∈ c, f.length = y.arraySize * x.arraySize * itemSize s.dataType) :
    ∃ st tr, runStream w env fuel s (calls.map List.flatten) =
        some (.ok (st, calls.map (fun c => c.flatten.length), tr)) ∧ st.error = [] ∧
      ∀ (t : Nat) (i : List Nat) (py px : Nat), InBounds (inner.map (·.arraySize)) i → py < y.arraySize →
        px < x.arraySize →
        readV2 (fun p => fileInStore w cfg p tr) (levelDir root 0) decode
          ((a :: (inner ++ [y, x])).map (·.chunkSize)) (itemSize s.dataType) (t :: (i ++ [py, px])) =
        some (match calls.flatten[t * prod (inner.map (·.arraySize)) + ravel (inner.map (·.arraySize)) i]? with
          | some f => slice f (seenPixel x.arraySize x.chunkSize (py * x.arraySize + px) * itemSize s.dataType)
              (itemSize s.dataType)
          | none => List.replicate (itemSize s.dataType) 0) := by
  have hD := dimsOf h.valid h.commit hd
  have hv := h.dimsValid
  have hver : cfg.version = .v2 := by rw [(commit_fields h.commit).2.2.2.2, if_pos hV]
  rw [← hD.frame] at hf
  obtain ⟨st, tr, h1, h2, h3⟩ := h.session_v2 (fuel := fuel) hE hV hn hf
  refine ⟨st, tr, h1, h2, ?_⟩
  intro t i py px hi hpy hpx
  have hdir : arrayDirV2 cfg = levelDir root 0 := by
    rw [arrayDirV2_eq (hr.storeAt h.commit (SameStore.refl _)), (commit_fields h.commit).1]; rfl
  have hib : InBounds (aShape cfg.dims.inner) i := by rw [hD.innerSizes]; exact hi
  have hy' : py < cfg.dims.height.arraySize := by rw [hD.height]; exact hpy
  have hx' : px < cfg.dims.width.arraySize := by rw [hD.width]; exact hpx
  have hread := readV2_run env hver hv h.room (calls.flatten.map cfg.dims.seen).flatten
    calls.flatten.length (by rw [flatten_length_const (seenSizes hf), List.length_map])
    (file := fun p => fileInStore w cfg p tr)
    (by
      rintro p ⟨g, l, rfl⟩
      have ho : Owned cfg (arrayDirV2 cfg ++ chunkKey (g :: l)) := .inr ⟨g, l, by rw [objectPath_key hver]⟩
      have e : arrayDirV2 cfg ++ chunkKey (g :: l) = root ++ '/' :: (decimal 0 ++ ['/'] ++ chunkKey (g :: l)) := by
        rw [hdir]; simp [levelDir]
      rw [← fileAfter_about (h3 _ ho), e]
      exact fileInStore_fresh h.commit hfr _ _)
    (decode := decode) (h.decoded hE hdec hd)
    (t := t) (y := i ++ [py, px]) (by
      unfold ArrayDims.tailDims
      rw [aShape_append]
      exact (inBounds_append _ _ hib.length).2 ⟨hib, hy', hx', trivial⟩)
  rw [logical_is_pixel hv h.room (seenSizes hf) hib hy' hx', hdir, hD.chunks, hD.item, hD.innerSizes, hD.width] at hread
  rw [hD.frame] at hf
  exact hread.trans (congrArg some (h.pixels_of_seen hd (fun f hm => by
    obtain ⟨c, hcm, hfc⟩ := List.mem_flatten.1 hm
    exact hf c hcm f hfc) _ hpy hpx))

/-- **V3**, one append chunk per shard: the same. -/
theorem v3_read (h : WideSetup w s cfg) (h3 : cfg.dims.FitsV3) (hE : StorageOk env s) (ho : SmallOverhead env)
    (hV : s.version = 3)
    (hd : s.dimensions = some (a :: (inner ++ [y, x]))) (hr : StoredAt s root) (hfr : Fresh w s root)
    {decode : Bytes → Option Bytes} (hdec : Decodes env s decode) (hn : calls.flatten.length < 2 ^ 32)
    (hf : ∀ c ∈ calls, ∀ f ∈ c, f.length = y.arraySize * x.arraySize * itemSize s.dataType)
    (hone : a.shardSize = 1) :
    ∃ st tr, runStream w env fuel s (calls.map List.flatten) =
        some (.ok (st, calls.map (fun c => c.flatten.length), tr)) ∧ st.error = [] ∧
      ∀ (t : Nat) (i : List Nat) (py px : Nat), InBounds (inner.map (·.arraySize)) i → py < y.arraySize →
        px < x.arraySize →
        readV3 (fun p => fileInStore w cfg p tr) (levelDirV3 root 0) decode
          ((a :: (inner ++ [y, x])).map (·.chunkSize)) ((a :: (inner ++ [y, x])).map (·.shardSize))
          (itemSize s.dataType) (t :: (i ++ [py, px])) =
        some (match calls.flatten[t * prod (inner.map (·.arraySize)) + ravel (inner.map (·.arraySize)) i]? with
          | some f => slice f (seenPixel x.arraySize x.chunkSize (py * x.arraySize + px) * itemSize s.dataType)
              (itemSize s.dataType)
          | none => List.replicate (itemSize s.dataType) 0) := by
  have hD := dimsOf h.valid h.commit hd
  obtain ⟨hK, hka⟩ := shards_of h.commit hd
  have hv := h.dimsValid
  have hver : cfg.version = .v3 := by
    rw [(commit_fields h.commit).2.2.2.2, if_neg (by rw [hV]; decide)]
  rw [← hD.frame] at hf
  obtain ⟨st, tr, h1, h2, h4⟩ := h.session_v3 (fuel := fuel) h3 hE ho hV hn hf
  refine ⟨st, tr, h1, h2, ?_⟩
  intro t i py px hi hpy hpx
  have hdir : arrayDirV3 cfg = levelDirV3 root 0 := by
    unfold arrayDirV3 levelDirV3
    rw [storeAt_base (hr.storeAt h.commit (SameStore.refl _)), (commit_fields h.commit).1]
    rw [List.append_assoc, List.singleton_append]
  have hib : InBounds (aShape cfg.dims.inner) i := by rw [hD.innerSizes]; exact hi
  have hy' : py < cfg.dims.height.arraySize := by rw [hD.height]; exact hpy
  have hx' : px < cfg.dims.width.arraySize := by rw [hD.width]; exact hpx
  have hread := readV3_run ho hver hv h.room h3 (calls.flatten.map cfg.dims.seen).flatten
    calls.flatten.length (by rw [flatten_length_const (seenSizes hf), List.length_map])
    (file := fun p => fileInStore w cfg p tr)
    (by
      rintro p ⟨g, l, rfl⟩
      have ho : Owned cfg (arrayDirV3 cfg ++ chunkKey (g :: l)) := .inr ⟨g, l, by rw [objectPath_keyV3 hver]⟩
      have e : arrayDirV3 cfg ++ chunkKey (g :: l) = root ++ '/' :: (("data/root/".toList ++ decimal 0 ++ "/c".toList) ++
          chunkKey (g :: l)) := by
        rw [hdir]
        unfold levelDirV3
        rw [List.append_assoc, List.cons_append]
      rw [← fileAfter_about (h4 _ ho), e]
      exact fileInStore_fresh h.commit hfr _ _)
    (decode := decode) (h.decoded hE hdec hd)
    (t := t) (y := i ++ [py, px]) (by
      unfold ArrayDims.tailDims
      rw [aShape_append]
      exact (inBounds_append _ _ hib.length).2 ⟨hib, hy', hx', trivial⟩)
    (by
      rw [hka, hone, Nat.div_one]
      generalize groups cfg calls.flatten.length = n
      generalize t / cfg.dims.append.chunkSize = g
      omega)
  have hsh : shownT cfg calls.flatten.length t = t := by
    unfold shownT layersIn
    have : min cfg.dims.append.shardSize (groups cfg calls.flatten.length -
        t / cfg.dims.append.chunkSize / cfg.dims.append.shardSize * cfg.dims.append.shardSize) - 1 = 0 := by
      rw [hka, hone]; omega
    rw [this, Nat.add_zero, Nat.mul_comm]
    exact Nat.div_add_mod ..
  have hm : t / cfg.dims.append.chunkSize % cfg.dims.append.shardSize = 0 := by rw [hka, hone]; exact Nat.mod_one _
  simp only [if_pos hm, hsh] at hread
  rw [logical_is_pixel hv h.room (seenSizes hf) hib hy' hx', hdir, hK, hD.chunks, hD.item, hD.innerSizes, hD.width] at hread
  rw [hD.frame] at hf
  exact hread.trans (congrArg some (h.pixels_of_seen hd (fun f hm => by
    obtain ⟨c, hcm, hfc⟩ := List.mem_flatten.1 hm
    exact hf c hcm f hfc) _ hpy hpx))

end WideSetup

section
variable {w : World} {env : Env} {fuel : Nat} {s : Settings} {cfg : WConfig}
  {a y x : DimProps} {inner : List DimProps} {root : Text} {calls : List (List Bytes)}

/-- **C93, V2** (missing: the pixels beyond the first `2^32` of a frame, for which the property is false, see
`v2_large_frames_violated`). Frames of any number of pixels: each of the first `2^32` pixels of every frame reads
back. -/
theorem v2_large_frames_partial (h : WideSetup w s cfg) (hE : StorageOk env s) (hV : s.version = 2)
    (hd : s.dimensions = some (a :: (inner ++ [y, x]))) (hr : StoredAt s root) (hfr : Fresh w s root)
    {decode : Bytes → Option Bytes} (hdec : Decodes env s decode) (hn : calls.flatten.length < 2 ^ 32)
    (hf : ∀ c ∈ calls, ∀ f ∈ c, f.length = y.arraySize * x.arraySize * itemSize s.dataType) :
    ∃ st tr, runStream w env fuel s (calls.map List.flatten) =
        some (.ok (st, calls.map (fun c => c.flatten.length), tr)) ∧ st.error = [] ∧
      ∀ (t : Nat) (i : List Nat) (py px : Nat) (f : Bytes), InBounds (inner.map (·.arraySize)) i → py < y.arraySize →
        px < x.arraySize → py * x.arraySize + px < 2 ^ 32 →
        calls.flatten[t * prod (inner.map (·.arraySize)) + ravel (inner.map (·.arraySize)) i]? = some f →
        readV2 (fun p => fileInStore w cfg p tr) (levelDir root 0) decode
          ((a :: (inner ++ [y, x])).map (·.chunkSize)) (itemSize s.dataType) (t :: (i ++ [py, px])) =
        some (pixelOf f x.arraySize (itemSize s.dataType) py px) := by
  obtain ⟨st, tr, h1, h2, h3⟩ := h.v2_read (fuel := fuel) hE hV hd hr hfr hdec hn hf
  refine ⟨st, tr, h1, h2, fun t i py px f hi hpy hpx hlt hfm => ?_⟩
  rw [h3 t i py px hi hpy hpx, hfm]
  simp only [ArrayDims.seenPixel_small hlt]
  rfl

/-- **C93, V3**, one append chunk per shard: the same. -/
theorem v3_large_frames_partial (h : WideSetup w s cfg) (h3 : cfg.dims.FitsV3) (hE : StorageOk env s)
    (ho : SmallOverhead env) (hV : s.version = 3)
    (hd : s.dimensions = some (a :: (inner ++ [y, x]))) (hr : StoredAt s root) (hfr : Fresh w s root)
    {decode : Bytes → Option Bytes} (hdec : Decodes env s decode) (hn : calls.flatten.length < 2 ^ 32)
    (hf : ∀ c ∈ calls, ∀ f ∈ c, f.length = y.arraySize * x.arraySize * itemSize s.dataType)
    (hone : a.shardSize = 1) :
    ∃ st tr, runStream w env fuel s (calls.map List.flatten) =
        some (.ok (st, calls.map (fun c => c.flatten.length), tr)) ∧ st.error = [] ∧
      ∀ (t : Nat) (i : List Nat) (py px : Nat) (f : Bytes), InBounds (inner.map (·.arraySize)) i → py < y.arraySize →
        px < x.arraySize → py * x.arraySize + px < 2 ^ 32 →
        calls.flatten[t * prod (inner.map (·.arraySize)) + ravel (inner.map (·.arraySize)) i]? = some f →
        readV3 (fun p => fileInStore w cfg p tr) (levelDirV3 root 0) decode
          ((a :: (inner ++ [y, x])).map (·.chunkSize)) ((a :: (inner ++ [y, x])).map (·.shardSize))
          (itemSize s.dataType) (t :: (i ++ [py, px])) =
        some (pixelOf f x.arraySize (itemSize s.dataType) py px) := by
  obtain ⟨st, tr, h1, h2, h4⟩ := h.v3_read (fuel := fuel) h3 hE ho hV hd hr hfr hdec hn hf hone
  refine ⟨st, tr, h1, h2, fun t i py px f hi hpy hpx hlt hfm => ?_⟩
  rw [h4 t i py px hi hpy hpx, hfm]
  simp only [ArrayDims.seenPixel_small hlt]
  rfl

/-- A frame of `n` pixels that is black but for the last pixel. -/
def lastLit (n item : Nat) : Bytes := List.replicate ((n - 1) * item) 0 ++ List.replicate item 255

theorem lastLit_length {n item : Nat} (hn : 0 < n) : (lastLit n item).length = n * item := by
  obtain ⟨m, rfl⟩ : ∃ m, n = m + 1 := ⟨n - 1, by omega⟩
  simp [lastLit, Nat.add_mul]

/-- Taking any other pixel for the last one of `lastLit` gives black. -/
theorem lastLit_lost {n item q : Nat} (hi : 0 < item) (hn : 0 < n) (hq : q < n - 1) :
    slice (lastLit n item) (q * item) item ≠ slice (lastLit n item) ((n - 1) * item) item := by
  have e1 : (q + 1) * item ≤ (n - 1) * item := Nat.mul_le_mul_right _ hq
  rw [Nat.add_mul, Nat.one_mul] at e1
  intro h
  have h0 := congrArg (·[0]?) h
  have hl : (lastLit n item).length = (n - 1) * item + item := by simp [lastLit]
  simp only [slice] at h0
  rw [List.getElem?_take_of_lt hi, List.getElem?_take_of_lt hi, List.getElem?_drop, List.getElem?_drop,
    Nat.add_zero, Nat.add_zero] at h0
  unfold lastLit at h0
  rw [List.getElem?_append_left (by simp; omega), List.getElem?_append_right (by simp)] at h0
  rw [List.getElem?_replicate_of_lt (by omega)] at h0
  simp only [List.length_replicate, Nat.sub_self] at h0
  rw [List.getElem?_replicate_of_lt hi] at h0
  simp at h0

/-- In a frame of `2^32` pixels and a row or more, the last pixel is not where its value comes from. -/
theorem seenPixel_last {W H c : Nat} (hW : 0 < W) (hbig : 2 ^ 32 + W ≤ H * W) :
    (H - 1) * W + (W - 1) = H * W - 1 ∧ seenPixel W c (H * W - 1) < H * W - 1 := by
  have hH : 0 < H := by
    rcases Nat.eq_zero_or_pos H with h | h
    · subst h; simp at hbig
    · exact h
  obtain ⟨m, rfl⟩ : ∃ m, H = m + 1 := ⟨H - 1, by omega⟩
  rw [Nat.add_mul, Nat.one_mul] at hbig ⊢
  constructor
  · simp; omega
  · unfold seenPixel
    have h1 : (m * W + W - 1) % W % c ≤ (m * W + W - 1) % W := Nat.mod_le _ _
    have h2 := Nat.mod_lt (m * W + W - 1) hW
    have h3 := Nat.mod_lt (m * W + W - 1 - (m * W + W - 1) % W % c) (show 0 < 2 ^ 32 by decide)
    omega

theorem inBounds_zeros : ∀ {sz : List Nat}, (∀ n ∈ sz, 0 < n) → InBounds sz (List.replicate sz.length 0)
  | [], _ => trivial
  | n :: ns, h => ⟨h n (by simp), inBounds_zeros fun m hm => h m (by simp [hm])⟩

theorem ravel_zeros : ∀ sz : List Nat, ravel sz (List.replicate sz.length 0) = 0
  | [] => rfl
  | n :: ns => by
    rw [List.length_cons, List.replicate_succ]
    simp [ravel, ravel_zeros ns]

/-- **C93 is false beyond `2^32` pixels, V2**: whatever the other settings, a frame of `2^32` pixels and a row or
more is accepted, acknowledged in full and stored with a wrong last pixel. -/
theorem v2_large_frames_violated (h : WideSetup w s cfg) (hE : StorageOk env s) (hV : s.version = 2)
    (hd : s.dimensions = some (a :: (inner ++ [y, x]))) (hr : StoredAt s root) (hfr : Fresh w s root)
    {decode : Bytes → Option Bytes} (hdec : Decodes env s decode)
    (hbig : 2 ^ 32 + x.arraySize ≤ y.arraySize * x.arraySize) :
    ∃ f : Bytes, f.length = y.arraySize * x.arraySize * itemSize s.dataType ∧
    ∃ st tr, runStream w env fuel s [f] = some (.ok (st, [f.length], tr)) ∧ st.error = [] ∧
        readV2 (fun p => fileInStore w cfg p tr) (levelDir root 0) decode
          ((a :: (inner ++ [y, x])).map (·.chunkSize)) (itemSize s.dataType)
          (0 :: (List.replicate inner.length 0 ++ [y.arraySize - 1, x.arraySize - 1])) ≠
        some (pixelOf f x.arraySize (itemSize s.dataType) (y.arraySize - 1) (x.arraySize - 1)) := by
  have hD := dimsOf h.valid h.commit hd
  have hx : 0 < x.arraySize := by
    rw [← hD.width]; exact h.dimsValid.tail_array _ (by simp [ArrayDims.tailDims])
  have hy : 0 < y.arraySize := by
    rw [← hD.height]; exact h.dimsValid.tail_array _ (by simp [ArrayDims.tailDims])
  have hitem : 0 < itemSize s.dataType := by rw [← hD.item]; exact ArrayDims.dtype_pos _
  have hin : ∀ n ∈ inner.map (·.arraySize), 0 < n := by
    intro n hn
    rw [← hD.innerSizes] at hn
    obtain ⟨d, hdm, rfl⟩ := List.mem_map.1 hn
    exact h.dimsValid.tail_array d (by simp [ArrayDims.tailDims, hdm])
  have hpos : 0 < y.arraySize * x.arraySize := Nat.mul_pos hy hx
  obtain ⟨e1, e2⟩ := seenPixel_last (c := x.chunkSize) hx hbig
  have hlen := lastLit_length (item := itemSize s.dataType) hpos
  refine ⟨_, hlen, ?_⟩
  obtain ⟨st, tr, h1, h2, h3⟩ := h.v2_read (fuel := fuel) hE hV hd hr hfr hdec
    (calls := [[lastLit (y.arraySize * x.arraySize) (itemSize s.dataType)]]) (by simp)
    (fun c hc f hf => by
      rw [List.mem_singleton.1 hc] at hf
      rw [List.mem_singleton.1 hf]; exact hlen)
  refine ⟨st, tr, ?_, h2, ?_⟩
  · simpa using h1
  · have hz := inBounds_zeros hin
    rw [List.length_map] at hz
    have hr0 : ravel (inner.map (·.arraySize)) (List.replicate inner.length 0) = 0 := by
      have := ravel_zeros (inner.map (·.arraySize))
      rwa [List.length_map] at this
    rw [h3 0 _ (y.arraySize - 1) (x.arraySize - 1) hz (by omega) (by omega), hr0, e1]
    simp only [Nat.zero_mul, Nat.add_zero, List.flatten_cons, List.flatten_nil, List.append_nil, List.getElem?_cons_zero]
    intro he
    rw [Option.some.injEq] at he
    unfold pixelOf at he
    rw [e1] at he
    exact lastLit_lost hitem hpos e2 he

/-- **The same for V3**, one append chunk per shard. -/
theorem v3_large_frames_violated (h : WideSetup w s cfg) (h3 : cfg.dims.FitsV3) (hE : StorageOk env s)
    (ho : SmallOverhead env) (hV : s.version = 3)
    (hd : s.dimensions = some (a :: (inner ++ [y, x]))) (hr : StoredAt s root) (hfr : Fresh w s root)
    {decode : Bytes → Option Bytes} (hdec : Decodes env s decode) (hone : a.shardSize = 1)
    (hbig : 2 ^ 32 + x.arraySize ≤ y.arraySize * x.arraySize) :
    ∃ f : Bytes, f.length = y.arraySize * x.arraySize * itemSize s.dataType ∧
    ∃ st tr, runStream w env fuel s [f] = some (.ok (st, [f.length], tr)) ∧ st.error = [] ∧
        readV3 (fun p => fileInStore w cfg p tr) (levelDirV3 root 0) decode
          ((a :: (inner ++ [y, x])).map (·.chunkSize)) ((a :: (inner ++ [y, x])).map (·.shardSize))
          (itemSize s.dataType)
          (0 :: (List.replicate inner.length 0 ++ [y.arraySize - 1, x.arraySize - 1])) ≠
        some (pixelOf f x.arraySize (itemSize s.dataType) (y.arraySize - 1) (x.arraySize - 1)) := by
  have hD := dimsOf h.valid h.commit hd
  have hx : 0 < x.arraySize := by
    rw [← hD.width]; exact h.dimsValid.tail_array _ (by simp [ArrayDims.tailDims])
  have hy : 0 < y.arraySize := by
    rw [← hD.height]; exact h.dimsValid.tail_array _ (by simp [ArrayDims.tailDims])
  have hitem : 0 < itemSize s.dataType := by rw [← hD.item]; exact ArrayDims.dtype_pos _
  have hin : ∀ n ∈ inner.map (·.arraySize), 0 < n := by
    intro n hn
    rw [← hD.innerSizes] at hn
    obtain ⟨d, hdm, rfl⟩ := List.mem_map.1 hn
    exact h.dimsValid.tail_array d (by simp [ArrayDims.tailDims, hdm])
  have hpos : 0 < y.arraySize * x.arraySize := Nat.mul_pos hy hx
  obtain ⟨e1, e2⟩ := seenPixel_last (c := x.chunkSize) hx hbig
  have hlen := lastLit_length (item := itemSize s.dataType) hpos
  refine ⟨_, hlen, ?_⟩
  obtain ⟨st, tr, h1, h2, h4⟩ := h.v3_read (fuel := fuel) h3 hE ho hV hd hr hfr hdec
    (calls := [[lastLit (y.arraySize * x.arraySize) (itemSize s.dataType)]]) (by simp)
    (fun c hc f hf => by
      rw [List.mem_singleton.1 hc] at hf
      rw [List.mem_singleton.1 hf]; exact hlen) hone
  refine ⟨st, tr, ?_, h2, ?_⟩
  · simpa using h1
  · have hz := inBounds_zeros hin
    rw [List.length_map] at hz
    have hr0 : ravel (inner.map (·.arraySize)) (List.replicate inner.length 0) = 0 := by
      have := ravel_zeros (inner.map (·.arraySize))
      rwa [List.length_map] at this
    rw [h4 0 _ (y.arraySize - 1) (x.arraySize - 1) hz (by omega) (by omega), hr0, e1]
    simp only [Nat.zero_mul, Nat.add_zero, List.flatten_cons, List.flatten_nil, List.append_nil, List.getElem?_cons_zero]
    intro he
    rw [Option.some.injEq] at he
    unfold pixelOf at he
    rw [e1] at he
    exact lastLit_lost hitem hpos e2 he

end

/-! The hypotheses hold for a mosaic of 65537 by 65537 bytes (4 GiB) in chunks of 8192 by 8192. -/

namespace Sample

def largeY : DimProps := { dimY with arraySize := 65537, chunkSize := 8192, shardSize := 1 }
def largeX : DimProps := { dimX with arraySize := 65537, chunkSize := 8192, shardSize := 1 }

def largeSettings : Settings := { settings with
  dimensions := some [{ dimT with shardSize := 1 }, largeY, largeX]
  multiscale := false
  dataType := 0 }

def largeSettings3 : Settings := { largeSettings with version := 3 }

end Sample

theorem Sample.large : ∃ cfg, WideSetup Sample.world Sample.largeSettings cfg :=
  ⟨_, rfl, rfl, rfl, by decide, rfl⟩

theorem Sample.large3 : ∃ cfg, WideSetup Sample.world Sample.largeSettings3 cfg ∧ cfg.dims.FitsV3 :=
  ⟨_, ⟨rfl, rfl, rfl, by decide, rfl⟩, by decide⟩

/-- Appending one such frame to a V2 stream loses a pixel. -/
example : ∃ cfg f st tr, f.length = 65537 * 65537 ∧
    runStream Sample.world Sample.env 9 Sample.largeSettings [f] = some (.ok (st, [f.length], tr)) ∧ st.error = [] ∧
    readV2 (fun p => fileInStore Sample.world cfg p tr) (levelDir "/tmp/a.zarr".toList 0) some
      ([{ Sample.dimT with shardSize := 1 }, Sample.largeY, Sample.largeX].map (·.chunkSize)) (itemSize 0)
      (0 :: [65536, 65536]) ≠ some (pixelOf f 65537 (itemSize 0) 65536 65536) := by
  obtain ⟨cfg, h⟩ := Sample.large
  obtain ⟨f, h1, st, tr, h2, h3, h4⟩ := v2_large_frames_violated (a := { Sample.dimT with shardSize := 1 })
    (inner := []) (y := Sample.largeY) (x := Sample.largeX) (fuel := 9) h Sample.storageOk rfl rfl
    (root := "/tmp/a.zarr".toList) ⟨rfl, _, rfl, .inr (by decide)⟩ (.inl ⟨_, rfl, by decide⟩) (decode := some)
    (fun _ => rfl) (by decide)
  exact ⟨cfg, f, st, tr, by rw [h1]; rfl, h2, h3, h4⟩

/-- And to a V3 stream. -/
example : ∃ f st tr, f.length = 65537 * 65537 ∧
    runStream Sample.world Sample.env 9 Sample.largeSettings3 [f] = some (.ok (st, [f.length], tr)) ∧ st.error = [] := by
  obtain ⟨cfg, h, h3⟩ := Sample.large3
  obtain ⟨f, h1, st, tr, h2, h4, _⟩ := v3_large_frames_violated (a := { Sample.dimT with shardSize := 1 })
    (inner := []) (y := Sample.largeY) (x := Sample.largeX) (fuel := 9) h h3 Sample.storageOk Sample.overhead rfl rfl
    (root := "/tmp/a.zarr".toList) ⟨rfl, _, rfl, .inr (by decide)⟩ (.inl ⟨_, rfl, by decide⟩) (decode := some)
    (fun _ => rfl) rfl (by decide)
  exact ⟨f, st, tr, by rw [h1]; rfl, h2, h4⟩

end AZ
