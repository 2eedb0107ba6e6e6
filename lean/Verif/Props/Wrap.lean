import Verif.Props.Metadata
import Verif.Props.Compression
import Verif.Lemmas.SessionV3
import Verif.Props.ObjectsV3

set_option linter.unusedSimpArgs false

/-! # C48: more than 2^32 - 1 frames -/

namespace AZ
open Spec

/-- A version 2 array writer that is given exactly 2^32 frames: it accepts all of them, and its last document is the one
for no frames. -/
theorem runArray_wrap {env : Env} {cfg : WConfig} (hE : GoodEnv env cfg) (hV : cfg.version = .v2)
    (hv : cfg.dims.Valid) (hf : cfg.dims.Fits) (frames : List Bytes) (hn : frames.length = 2 ^ 32)
    (hd : ∀ f ∈ frames, f.length = cfg.dims.frameBytes) :
    ∃ st, writeFrames env cfg frames (WState.init cfg) = .ok st ∧ st.errors = [] ∧
      ∃ stf, finalizeArray env cfg st = .ok stf ∧
        ∃ pre, stf.trace = pre ++ [Ev.wrote (arrayMetaPath cfg) 0 (metaDoc cfg 0), Ev.finalized (arrayMetaPath cfg)] := by
  have hF := ArrayDims.frameBytes_pos hv hf
  have hFB := ArrayDims.framesPerChunk_pos hv hf
  have hne : frames ≠ [] := by
    rintro rfl
    simp at hn
  obtain ⟨fs, f, rfl⟩ : ∃ fs f, frames = fs ++ [f] := ⟨frames.dropLast, frames.getLast hne, (List.dropLast_append_getLast hne).symm⟩
  have hlen : fs.length = 2 ^ 32 - 1 := by
    rw [List.length_append, List.length_singleton] at hn
    omega
  obtain ⟨st1, h1, hi⟩ := writeFrames_inv2 hE hV hv hf fs (n := 0) (by omega) (fun x hx => hd x (by simp [hx]))
    (inv2_init env hV)
  rw [List.nil_append, Nat.zero_add] at hi
  have hz : u32 (fs.length + 1) = 0 := by
    rw [hlen]
    rfl
  have hw := writeFrame_wrap (env := env) hv hf (n := fs.length) (by omega) hi.len (hd f (by simp)) hi.fw hi.bufs hi.btf
  rw [hz] at hw
  dsimp only at hw
  rw [if_pos (Nat.zero_mod _), flush_v2_wrap hE hV hv hf (st := { st1 with
      bufs := layer cfg.dims (fs.flatten ++ f) (fs.length / cfg.dims.framesPerChunk)
      bytesToFlush := (fs.length % cfg.dims.framesPerChunk + 1) * cfg.dims.frameBytes
      framesWritten := 0 }) (S := fs.flatten ++ f) (g := fs.length / cfg.dims.framesPerChunk) (n := 0) rfl
      (Nat.ne_of_gt (Nat.mul_pos (by omega) hF)) hi.sinks hi.app rfl (by decide)] at hw
  have hc0 : ceilDiv 0 (prod (aShape cfg.dims.inner)) = 0 := by
    unfold ceilDiv
    rw [Nat.zero_add]
    cases hp : prod (aShape cfg.dims.inner) with
    | zero => rfl
    | succ k => exact Nat.div_eq_of_lt (by omega)
  obtain ⟨st2, hst2⟩ : ∃ x : WState, x = { st1 with
      bufs := makeBuffers cfg.dims, bytesToFlush := 0, appendIdx := u32 (fs.length / cfg.dims.framesPerChunk + 1),
      framesWritten := 0, metaSink := true,
      trace := st1.trace ++ (dataEventsV2 env cfg (fs.flatten ++ f) (fs.length / cfg.dims.framesPerChunk) ++
        metaEvents cfg (!st1.metaSink) 0) } := ⟨_, rfl⟩
  have hfin : finalizeArray env cfg st2 = .ok { st2 with
      metaSink := false, finalizing := true, trace := st2.trace ++ [Ev.finalized (arrayMetaPath cfg)] } := by
    unfold finalizeArray flush
    subst hst2
    dsimp only
    rw [if_pos rfl]
    simp only [Res.bind_ok, if_true, hE.finalize, check_true, Res.pure_eq, hi.sinks, List.map_nil, List.append_nil]
  refine ⟨st2, ?_, ?_, _, hfin, st1.trace ++ (dataEventsV2 env cfg (fs.flatten ++ f)
    (fs.length / cfg.dims.framesPerChunk) ++ if (!st1.metaSink) = true then [Ev.opened (arrayMetaPath cfg)] else []), ?_⟩
  · rw [writeFrames_append, h1, Res.bind_ok, writeFrames, hw]
    have : (cfg.dims.frameBytes != 0) = true := by simp; omega
    simp [Res.bind, this, writeFrames, hst2]
  · rw [hst2]
    exact hi.errs
  · rw [hst2]
    dsimp only
    unfold metaEvents
    rw [hc0]
    simp [List.append_assoc]

theorem writerWorks_wrap {env : Env} {c : WConfig} (hE : GoodEnv env c) (hV : c.version = .v2)
    (hv : c.dims.Valid) (hf : c.dims.Fits) : WriterWorks (2 ^ 32 + 1) env c := by
  intro frames hn hd
  rcases Nat.lt_or_ge frames.length (2 ^ 32) with h | h
  · exact writerWorks_v2 hE hV hv hf frames h hd
  · rw [ArrayDims.bytesOfFrame_eq hv hf] at hd
    obtain ⟨st, h1, h2, stf, h3, _⟩ := runArray_wrap hE hV hv hf frames (by omega) hd
    exact ⟨st, h1, h2, stf, h3⟩

/-- A version 3 array writer that is given exactly 2^32 frames: it accepts all of them, and its last document is the one
for no frames. -/
theorem runArray_wrap_v3 {env : Env} {cfg : WConfig} (hE : GoodEnv env cfg) (ho : SmallOverhead env) (hV : cfg.version = .v3)
    (hv : cfg.dims.Valid) (hf : cfg.dims.Fits) (h3 : cfg.dims.FitsV3) (frames : List Bytes) (hn : frames.length = 2 ^ 32)
    (hd : ∀ f ∈ frames, f.length = cfg.dims.frameBytes) :
    ∃ st, writeFrames env cfg frames (WState.init cfg) = .ok st ∧ st.errors = [] ∧
      ∃ stf, finalizeArray env cfg st = .ok stf ∧
        ∃ pre, stf.trace = pre ++ [Ev.wrote (arrayMetaPath cfg) 0 (metaDoc cfg 0), Ev.finalized (arrayMetaPath cfg)] := by
  have hF := ArrayDims.frameBytes_pos hv hf
  have hk : 0 < cfg.dims.append.shardSize := h3.pos cfg.dims.append (by simp [ArrayDims.toList])
  have hne : frames ≠ [] := by
    rintro rfl
    simp at hn
  obtain ⟨fs, f, rfl⟩ : ∃ fs f, frames = fs ++ [f] := ⟨frames.dropLast, frames.getLast hne, (List.dropLast_append_getLast hne).symm⟩
  have hlen : fs.length = 2 ^ 32 - 1 := by
    rw [List.length_append, List.length_singleton] at hn
    omega
  obtain ⟨st1, h1, hi⟩ := writeFrames_inv3 hE ho hV hv hf h3 fs (n := 0) (by omega) (fun x hx => hd x (by simp [hx]))
    (inv3_init hV hv hf h3)
  rw [List.nil_append, Nat.zero_add] at hi
  have hz : u32 (fs.length + 1) = 0 := by
    rw [hlen]
    rfl
  have hw := writeFrame_wrap (env := env) hv hf (n := fs.length) (by omega) hi.len (hd f (by simp)) hi.fw hi.bufs hi.btf
  rw [hz] at hw
  dsimp only at hw
  have hstab := shardsOk_stable (S2 := f) hv hf (st' := { st1 with
        bufs := layer cfg.dims (fs.flatten ++ f) (fs.length / cfg.dims.framesPerChunk)
        bytesToFlush := (fs.length % cfg.dims.framesPerChunk + 1) * cfg.dims.frameBytes
        framesWritten := 0 }) (by rw [hi.len]; exact layers_le) hi.shards rfl rfl rfl rfl rfl
  have hlay : fs.length / cfg.dims.framesPerChunk / cfg.dims.append.shardSize * cfg.dims.append.shardSize +
      fs.length / cfg.dims.framesPerChunk % cfg.dims.append.shardSize = fs.length / cfg.dims.framesPerChunk := by
    rw [Nat.mul_comm, Nat.div_add_mod]
  have hroll : shouldRollover cfg { st1 with
        bufs := layer cfg.dims (fs.flatten ++ f) (fs.length / cfg.dims.framesPerChunk)
        bytesToFlush := (fs.length % cfg.dims.framesPerChunk + 1) * cfg.dims.frameBytes
        framesWritten := 0 } = .ok true := by
    rw [shouldRollover_v3 hV hv hf h3]
    simp
  rw [if_pos (Nat.zero_mod _), flush_v3_wrap hE ho hV hv hf h3 (S := fs.flatten ++ f)
      (G := fs.length / cfg.dims.framesPerChunk / cfg.dims.append.shardSize)
      (q := fs.length / cfg.dims.framesPerChunk % cfg.dims.append.shardSize) (n := 0) (roll := true) (wt := true)
      (Nat.mod_lt _ hk) (by rw [hlay]) (Nat.ne_of_gt (Nat.mul_pos (by omega) hF)) hstab hroll (by simp) rfl (by decide)] at hw
  have hc0 : ceilDiv 0 (prod (aShape cfg.dims.inner)) = 0 := by
    unfold ceilDiv
    rw [Nat.zero_add]
    cases hp : prod (aShape cfg.dims.inner) with
    | zero => rfl
    | succ k => exact Nat.div_eq_of_lt (by omega)
  obtain ⟨st2, hst2⟩ : ∃ x, writeFrame env cfg f st1 = .ok (x, cfg.dims.frameBytes) ∧ x.bytesToFlush = 0 ∧ x.metaSink = true ∧
      x.dataSinks = [] ∧ x.errors = [] ∧ x.trace = st1.trace ++ flushEventsV3 env cfg (fs.flatten ++ f)
        (fs.length / cfg.dims.framesPerChunk / cfg.dims.append.shardSize)
        (fs.length / cfg.dims.framesPerChunk % cfg.dims.append.shardSize) 0 true true :=
    ⟨_, hw, rfl, rfl, rfl, hi.errs, rfl⟩
  obtain ⟨k1, k2, k3, k4, k5, k6⟩ := hst2
  have hfin : finalizeArray env cfg st2 = .ok { st2 with
      metaSink := false, finalizing := true, dataSinks := [], trace := st2.trace ++ [Ev.finalized (arrayMetaPath cfg)] } := by
    unfold finalizeArray flush
    rw [if_pos k2]
    simp only [Res.bind_ok, k3, if_true, hE.finalize, check_true, Res.pure_eq, k4, List.map_nil, List.append_nil]
  refine ⟨st2, ?_, k5, _, hfin, ?_⟩
  · rw [writeFrames_append, h1, Res.bind_ok, writeFrames, k1]
    have : (cfg.dims.frameBytes != 0) = true := by simp; omega
    simp [Res.bind, this, writeFrames]
  · dsimp only
    rw [k6]
    unfold flushEventsV3 metaEvents
    rw [hc0]
    simp only [if_true]
    refine ⟨st1.trace ++ ((if fs.length / cfg.dims.framesPerChunk % cfg.dims.append.shardSize = 0 then
        (shardPaths cfg (fs.length / cfg.dims.framesPerChunk / cfg.dims.append.shardSize)).map Ev.opened else []) ++
      layerWrites env cfg (fs.flatten ++ f) (fs.length / cfg.dims.framesPerChunk / cfg.dims.append.shardSize)
        (fs.length / cfg.dims.framesPerChunk % cfg.dims.append.shardSize) true ++
      (shardPaths cfg (fs.length / cfg.dims.framesPerChunk / cfg.dims.append.shardSize)).map Ev.finalized ++
      (if (fs.length / cfg.dims.framesPerChunk / cfg.dims.append.shardSize == 0) = true then
        [Ev.opened (arrayMetaPath cfg)] else [])), ?_⟩
    simp [List.append_assoc]

theorem writerWorks_wrap_v3 {env : Env} {c : WConfig} (hE : GoodEnv env c) (ho : SmallOverhead env) (hV : c.version = .v3)
    (hv : c.dims.Valid) (hf : c.dims.Fits) (h3 : c.dims.FitsV3) : WriterWorks (2 ^ 32 + 1) env c := by
  intro frames hn hd
  rcases Nat.lt_or_ge frames.length (2 ^ 32) with h | h
  · exact writerWorks_v3 hE ho hV hv hf h3 frames h hd
  · rw [ArrayDims.bytesOfFrame_eq hv hf] at hd
    obtain ⟨st, h1, h2, stf, h3, _⟩ := runArray_wrap_v3 hE ho hV hv hf h3 frames (by omega) hd
    exact ⟨st, h1, h2, stf, h3⟩

theorem stepDoc_last (p : Text) (d : Bytes) (pre : List Ev) :
    lastDocument p (pre ++ [Ev.wrote p 0 d, Ev.finalized p]) = some d := by
  unfold lastDocument
  rw [List.foldl_append]
  simp [stepDoc, Ev.path]

section
variable {w : World} {env : Env} {fuel : Nat} {s : Settings} {cfg : WConfig} {cfgs : List WConfig}
  {a y x : DimProps} {inner : List DimProps} {root : Text} {calls : List (List Bytes)}

/-- **C48 is violated** by every accepted version 2 configuration: a stream that is given 2^32 frames, however they are
divided among calls, acknowledges all bytes and closes without error, and the array metadata it stores last declares an
array of no frames. (Up to 2^32 - 1 frames see `v2_pixel_reads_back` and `v2_final_document`.) -/
theorem frame_counter_violated (h : Setup w fuel s cfg cfgs) (hz : SizesInRange s) (hr : RealCodec s)
    (hE : StorageOk env s) (hV : s.version = 2) (hd : s.dimensions = some (a :: (inner ++ [y, x]))) (hl : StoredAt s root)
    (hn : calls.flatten.length = 2 ^ 32)
    (hf : ∀ c ∈ calls, ∀ f ∈ c, f.length = y.arraySize * x.arraySize * itemSize s.dataType) :
    ∃ st tr, runStream w env fuel s (calls.map List.flatten) =
        some (.ok (st, calls.map (fun c => c.flatten.length), tr)) ∧ st.error = [] ∧
      ∃ b v, lastDocument (root ++ '/' :: arrayDocName 2 0) tr = some b ∧ JsonFile b v ∧
        LevelDoc s (a :: (inner ++ [y, x])) 0 0 v := by
  have hD := dimsOf h.valid h.commit hd
  rw [← hD.frame] at hf
  obtain ⟨d1, d2⟩ := h.levelDims
  have hF := ArrayDims.bytesOfFrame_eq h.dimsValid h.fits
  obtain ⟨st, tr, h1, h2, h3⟩ := session_works (N := 2 ^ 32 + 1) (calls := calls) hE.works h.valid h.commit h.store h.levels
    (h.levelsWork fun c hc => writerWorks_wrap (hE.good h hc) (h.versionV2 hV c hc) (d1 c hc).1 (d1 c hc).2) (by omega)
    (by rw [hF]; exact hf)
  refine ⟨st, tr, h1, h3, ?_⟩
  obtain ⟨rest, hrest⟩ := levelConfigs_head h.levels
  have hc : cfgs[0]? = some cfg := by rw [hrest]; rfl
  obtain ⟨stf, g1, g2⟩ := h2.level 0 cfg hc
  have hff : ∀ f ∈ calls.flatten, f.length = cfg.dims.frameBytes := by
    intro f hfm
    obtain ⟨c, hcm, hfc⟩ := List.mem_flatten.1 hfm
    exact hf c hcm f hfc
  obtain ⟨st', k1, _, stf', k2, pre, k3⟩ := runArray_wrap (hE.good h (List.mem_of_getElem? hc)) (h.versionV2 hV cfg (List.mem_of_getElem? hc))
    h.dimsValid h.fits calls.flatten hn hff
  have e : framesOfLevel cfg 0 calls.flatten = calls.flatten := rfl
  rw [e, runArray, k1, Res.bind_ok, k2] at g1
  cases g1
  have hp := (show LocatedAt s root from .inl hl).arrayDoc h hc
  rw [hV] at hp
  have ho : Owned cfg (root ++ '/' :: arrayDocName 2 0) := .inl hp.symm
  obtain ⟨v, v1, v2⟩ := level_doc h hz hr hd hc 0
  refine ⟨_, v, ?_, v1, v2⟩
  rw [lastDocument_filter, g2 _ ho, ← lastDocument_filter, k3, ← hp]
  exact stepDoc_last _ _ _

/-- **C48 is violated** by every accepted version 3 configuration in the same way: 2^32 frames are acknowledged, the stream
closes without error, and the last `zarr.json` of the array declares no frames. -/
theorem frame_counter_v3_violated (h : Setup w fuel s cfg cfgs) (h3 : cfg.dims.FitsV3) (hz : SizesInRange s)
    (hr : RealCodec s) (hE : StorageOk env s) (ho : SmallOverhead env) (hV : s.version = 3)
    (hd : s.dimensions = some (a :: (inner ++ [y, x]))) (hl : StoredAt s root) (hn : calls.flatten.length = 2 ^ 32)
    (hf : ∀ c ∈ calls, ∀ f ∈ c, f.length = y.arraySize * x.arraySize * itemSize s.dataType) :
    ∃ st tr, runStream w env fuel s (calls.map List.flatten) =
        some (.ok (st, calls.map (fun c => c.flatten.length), tr)) ∧ st.error = [] ∧
      ∃ b v, lastDocument (root ++ '/' :: arrayDocName 3 0) tr = some b ∧ JsonFile b v ∧
        LevelDoc s (a :: (inner ++ [y, x])) 0 0 v := by
  have hD := dimsOf h.valid h.commit hd
  rw [← hD.frame] at hf
  obtain ⟨d1, d2⟩ := h.levelDims
  have d3 := h.levelFitsV3 h3
  have hF := ArrayDims.bytesOfFrame_eq h.dimsValid h.fits
  obtain ⟨st, tr, h1, h2, h3'⟩ := session_works (N := 2 ^ 32 + 1) (calls := calls) hE.works h.valid h.commit h.store h.levels
    (h.levelsWork fun c hc => writerWorks_wrap_v3 (hE.good h hc) ho (h.versionV3 hV c hc) (d1 c hc).1 (d1 c hc).2 (d3 c hc))
    (by omega) (by rw [hF]; exact hf)
  refine ⟨st, tr, h1, h3', ?_⟩
  obtain ⟨rest, hrest⟩ := levelConfigs_head h.levels
  have hc : cfgs[0]? = some cfg := by rw [hrest]; rfl
  obtain ⟨stf, g1, g2⟩ := h2.level 0 cfg hc
  have hff : ∀ f ∈ calls.flatten, f.length = cfg.dims.frameBytes := by
    intro f hfm
    obtain ⟨c, hcm, hfc⟩ := List.mem_flatten.1 hfm
    exact hf c hcm f hfc
  obtain ⟨st', k1, _, stf', k2, pre, k3⟩ := runArray_wrap_v3 (hE.good h (List.mem_of_getElem? hc)) ho
    (h.versionV3 hV cfg (List.mem_of_getElem? hc)) h.dimsValid h.fits h3 calls.flatten hn hff
  have e : framesOfLevel cfg 0 calls.flatten = calls.flatten := rfl
  rw [e, runArray, k1, Res.bind_ok, k2] at g1
  cases g1
  have hp := (show LocatedAt s root from .inl hl).arrayDoc h hc
  rw [hV] at hp
  have ho : Owned cfg (root ++ '/' :: arrayDocName 3 0) := .inl hp.symm
  obtain ⟨v, v1, v2⟩ := level_doc h hz hr hd hc 0
  refine ⟨_, v, ?_, v1, v2⟩
  rw [lastDocument_filter, g2 _ ho, ← lastDocument_filter, k3, ← hp]
  exact stepDoc_last _ _ _

end

/-- The one-pixel settings, uncompressed. -/
def Sample.dot : Settings := { Sample.tiny with compression := none }

example : ∃ cfg cfgs, Setup Sample.world 9 Sample.dot cfg cfgs ∧ SizesInRange Sample.dot ∧ RealCodec Sample.dot ∧
    StorageOk Sample.env Sample.dot ∧ StoredAt Sample.dot "/tmp/a".toList ∧
    (List.replicate (2 ^ 32) [[(7 : UInt8)]]).flatten.length = 2 ^ 32 := by
  refine ⟨_, _, ⟨rfl, rfl, rfl, rfl, by decide, fun h => by cases h⟩, ?_, ?_, Sample.storageOk, ?_, ?_⟩
  · show ∀ d ∈ _, _
    decide
  · intro c hc
    cases hc
  · refine ⟨rfl, _, rfl, Or.inr ⟨by decide, by decide⟩⟩
  · generalize 2 ^ 32 = n
    simp

/-- The one-pixel settings in version 3. -/
def Sample.dot3 : Settings := { Sample.dot with version := 3 }

example : ∃ cfg cfgs, Setup Sample.world 9 Sample.dot3 cfg cfgs ∧ cfg.dims.FitsV3 ∧ SizesInRange Sample.dot3 ∧
    RealCodec Sample.dot3 ∧ StorageOk Sample.env Sample.dot3 ∧ SmallOverhead Sample.env ∧
    StoredAt Sample.dot3 "/tmp/a".toList ∧ (List.replicate (2 ^ 32) [[(7 : UInt8)]]).flatten.length = 2 ^ 32 := by
  refine ⟨_, _, ⟨rfl, rfl, rfl, rfl, by decide, fun h => by cases h⟩, by decide, ?_, ?_, Sample.storageOk, Sample.overhead, ?_, ?_⟩
  · show ∀ d ∈ _, _
    decide
  · intro c hc
    cases hc
  · refine ⟨rfl, _, rfl, Or.inr ⟨by decide, by decide⟩⟩
  · generalize 2 ^ 32 = n
    simp

end AZ
