import Verif.Lemmas.WriterCommon

set_option linter.unusedSimpArgs false

namespace AZ
open Spec

/-- Path of chunk `c` (in buffer order) of append-chunk `g` (V2). -/
def chunkPath (cfg : WConfig) (g c : Nat) : Text :=
  objectPath cfg g (unravel (nShape cfg.dims.tailDims) c)

theorem partsV2 {cfg : WConfig} (hV : cfg.version = .v2) (hv : cfg.dims.Valid) (hf : cfg.dims.Room) :
    cfg.dims.tailDims.map (partsAlong cfg.version) = nShape cfg.dims.tailDims := by
  unfold nShape
  apply List.map_congr_left
  intro d hd
  rw [hV]
  exact chunksAlong_eq (ArrayDims.dimOk hv hf d hd)

theorem dataPathsV2 {cfg : WConfig} (hV : cfg.version = .v2) (hv : cfg.dims.Valid) (hf : cfg.dims.Room)
    (g : Nat) : dataPaths cfg g = some ((List.range cfg.dims.chunkCount).map (chunkPath cfg g)) := by
  have hp := partsV2 hV hv hf
  rw [dataPaths_eq, hp]
  · rfl
  · intro d hd
    rw [hV]
    show 0 < chunksAlong d
    rw [chunksAlong_eq (ArrayDims.dimOk hv hf d hd)]
    exact ceilDiv_pos (hv.tail_array d hd) (hv.tail_chunk d hd)

/-- Data part of the events of one V2 flush. -/
def dataEventsV2 (env : Env) (cfg : WConfig) (S : Bytes) (g : Nat) : List Ev :=
  (List.range cfg.dims.chunkCount).map (fun c => Ev.opened (chunkPath cfg g c)) ++
  (List.range cfg.dims.chunkCount).map (fun c => Ev.wrote (chunkPath cfg g c) 0
    (storedForm env cfg (Spec.chunkBytes (aShape cfg.dims.tailDims) (cShape cfg.dims.toList)
      cfg.dims.dtype.bytes S (g :: unravel (nShape cfg.dims.tailDims) c)))) ++
  (List.range cfg.dims.chunkCount).map (fun c => Ev.finalized (chunkPath cfg g c))

/-- Metadata part. -/
def metaEvents (cfg : WConfig) (first : Bool) (n : Nat) : List Ev :=
  (if first then [Ev.opened (arrayMetaPath cfg)] else []) ++
  [Ev.wrote (arrayMetaPath cfg) 0 (metaDoc cfg (ceilDiv n (prod (aShape cfg.dims.inner))))]

theorem finalizeSinks_eq {env : Env} {cfg : WConfig} (hE : GoodEnv env cfg) (ps : List Text) :
    finalizeSinks env ps = .ok (ps.map Ev.finalized) := by
  induction ps with
  | nil => rfl
  | cons p ps ih => simp [finalizeSinks, hE.finalize, ih]

theorem writeArrayMetadata_eq {env : Env} {cfg : WConfig} (hE : GoodEnv env cfg) (hv : cfg.dims.Valid)
    (hf : cfg.dims.Room) {st : WState} (hn : st.framesWritten < 2 ^ 32) :
    writeArrayMetadata env cfg st = .ok { st with
      metaSink := true
      trace := st.trace ++ metaEvents cfg (!st.metaSink) st.framesWritten } := by
  unfold writeArrayMetadata AZ.metaEvents
  cases hm : st.metaSink <;>
  simp [hE.metaSink, hE.write, appendSize_eq (ArrayDims.innerOk hv hf) hn, hm]

theorem chunkJob_eq {env : Env} {cfg : WConfig} (hE : GoodEnv env cfg) (p : Text) (d : Bytes) :
    chunkJob env p d = ([.wrote p 0 d], []) := by
  simp [chunkJob, hE.write]

theorem zip_map_map {α β γ : Type} (f : α → β) (g : α → γ) (l : List α) :
    (l.map f).zip (l.map g) = l.map fun x => (f x, g x) := by
  induction l with
  | nil => rfl
  | cons x xs ih => simp [ih]

theorem flatMap_singleton' {α β : Type} (f : α → β) (l : List α) :
    (l.flatMap fun x => [f x]) = l.map f := by
  induction l with
  | nil => rfl
  | cons x xs ih => simp [ih]

theorem flush_v2_wrap {env : Env} {cfg : WConfig} (hE : GoodEnv env cfg) (hV : cfg.version = .v2)
    (hv : cfg.dims.Valid) (hf : cfg.dims.Room) {st : WState} {S : Bytes} {g n : Nat}
    (hb : st.bufs = layer cfg.dims S g) (hbt : st.bytesToFlush ≠ 0) (hds : st.dataSinks = [])
    (ha : st.appendIdx = g) (hfw : st.framesWritten = n) (hn : n < 2 ^ 32) :
    flush env cfg st = .ok { st with
      bufs := makeBuffers cfg.dims, bytesToFlush := 0, appendIdx := u32 (g + 1), metaSink := true,
      trace := st.trace ++ (dataEventsV2 env cfg S g ++ metaEvents cfg (!st.metaSink) n) } := by
  unfold flush
  rw [if_neg hbt]
  have hs : Sized cfg.dims st.bufs := by rw [hb]; exact layer_sized _ _ _
  rw [compressBuffers_eq hE hs]
  simp only [hV]
  unfold flushImplV2 makeDataSinks
  simp only [hds, List.isEmpty_nil, check_true, Res.bind_ok, ha, dataPathsV2 hV hv hf, hE.sinks, if_true]
  have hlen : ((List.range cfg.dims.chunkCount).map (chunkPath cfg g)).length =
      (st.bufs.map (storedForm env cfg)).length := by simp [hs.1]
  rw [hlen]
  simp only [beq_self_eq_true, check_true, Res.bind_ok]
  have hbm : st.bufs.map (storedForm env cfg) = (List.range cfg.dims.chunkCount).map (fun c =>
      storedForm env cfg (Spec.chunkBytes (aShape cfg.dims.tailDims) (cShape cfg.dims.toList)
      cfg.dims.dtype.bytes S (g :: unravel (nShape cfg.dims.tailDims) c))) := by
    rw [hb, layer, List.map_map]; rfl
  rw [hbm, zip_map_map]
  simp only [Res.pure_eq, Res.bind_ok, List.map_map, Function.comp_def, chunkJob_eq hE, List.flatMap_map,
    flatMap_singleton', shouldRollover, hV]
  unfold rollover
  simp only [finalizeSinks_eq hE, Res.bind_ok, Res.pure_eq, if_true]
  rw [writeArrayMetadata_eq hE hv hf (by simpa [hfw] using hn)]
  simp only [Bool.true_or, if_true, Res.bind_ok, hfw]
  congr 2
  · simp [dataEventsV2, Function.comp_def]
  · simp

theorem flush_v2 {env : Env} {cfg : WConfig} (hE : GoodEnv env cfg) (hV : cfg.version = .v2)
    (hv : cfg.dims.Valid) (hf : cfg.dims.Room) {st : WState} {S : Bytes} {g n : Nat}
    (hb : st.bufs = layer cfg.dims S g) (hbt : st.bytesToFlush ≠ 0) (hds : st.dataSinks = [])
    (ha : st.appendIdx = g) (hg : g + 1 < 2 ^ 32) (hfw : st.framesWritten = n) (hn : n < 2 ^ 32) :
    flush env cfg st = .ok { st with
      bufs := makeBuffers cfg.dims, bytesToFlush := 0, appendIdx := g + 1, metaSink := true,
      trace := st.trace ++ (dataEventsV2 env cfg S g ++ metaEvents cfg (!st.metaSink) n) } := by
  rw [flush_v2_wrap hE hV hv hf hb hbt hds ha hfw hn, u32_of_lt hg]

/-- Everything the writer emitted after `k` groups. -/
def eventsV2 (env : Env) (cfg : WConfig) (S : Bytes) (k : Nat) : List Ev :=
  (List.range k).flatMap fun g => dataEventsV2 env cfg S g ++
    metaEvents cfg (g == 0) ((g + 1) * cfg.dims.framesPerChunk)

/-- Writer state after `n` whole frames `S`. -/
structure Inv2 (env : Env) (cfg : WConfig) (S : Bytes) (n : Nat) (st : WState) : Prop where
  len : S.length = n * cfg.dims.frameBytes
  fw : st.framesWritten = n
  app : st.appendIdx = n / cfg.dims.framesPerChunk
  btf : st.bytesToFlush = n % cfg.dims.framesPerChunk * cfg.dims.frameBytes
  fin : st.finalizing = false
  sinks : st.dataSinks = []
  ms : st.metaSink = !(n / cfg.dims.framesPerChunk == 0)
  bufs : BufsOk cfg.dims S n st.bufs
  errs : st.errors = []
  tr : st.trace = eventsV2 env cfg S (n / cfg.dims.framesPerChunk)

theorem dataEventsV2_stable (env : Env) {cfg : WConfig} (hv : cfg.dims.Valid) (hf : cfg.dims.Room)
    {S1 S2 : Bytes} {g : Nat}
    (hlen : (g + 1) * cfg.dims.framesPerChunk * cfg.dims.frameBytes ≤ S1.length) :
    dataEventsV2 env cfg (S1 ++ S2) g = dataEventsV2 env cfg S1 g := by
  have h := ArrayDims.layer_stable hv hf (s2 := S2) hlen
  unfold layer at h
  unfold dataEventsV2
  congr 2
  apply List.map_congr_left
  intro c hc
  have h2 := List.map_inj_left.1 h c hc
  rw [h2]

theorem eventsV2_stable (env : Env) {cfg : WConfig} (hv : cfg.dims.Valid) (hf : cfg.dims.Room)
    {S1 S2 : Bytes} {k : Nat}
    (hlen : k * cfg.dims.framesPerChunk * cfg.dims.frameBytes ≤ S1.length) :
    eventsV2 env cfg (S1 ++ S2) k = eventsV2 env cfg S1 k := by
  unfold eventsV2
  apply flatMap_congr'
  intro g hg
  have hg := List.mem_range.1 hg
  rw [dataEventsV2_stable env hv hf]
  refine Nat.le_trans (Nat.mul_le_mul_right _ (Nat.mul_le_mul_right _ ?_)) hlen
  omega

theorem inv2_init (env : Env) {cfg : WConfig} (hV : cfg.version = .v2) :
    Inv2 env cfg [] 0 (WState.init cfg) := by
  constructor <;> simp [WState.init, eventsV2, BufsOk]

theorem div_succ_of_dvd {n b : Nat} (hb : 0 < b) (h : (n + 1) % b = 0) :
    (n + 1) / b = n / b + 1 ∧ n % b + 1 = b := by
  have h1 := Nat.div_add_mod n b
  have h2 := Nat.mod_lt n hb
  have h3 := Nat.div_add_mod (n + 1) b
  rw [h] at h3
  have h4 : (n + 1) / b = n / b + 1 := by
    have a1 : n / b < (n + 1) / b := by
      apply Nat.lt_of_mul_lt_mul_left (a := b)
      omega
    have a2 : (n + 1) / b < n / b + 2 := by
      apply Nat.lt_of_mul_lt_mul_left (a := b)
      rw [Nat.mul_add]; omega
    omega
  refine ⟨h4, ?_⟩
  rw [h4, Nat.mul_add] at h3
  omega

theorem div_succ_of_not_dvd {n b : Nat} (hb : 0 < b) (h : (n + 1) % b ≠ 0) :
    (n + 1) / b = n / b ∧ (n + 1) % b = n % b + 1 := by
  have h1 := Nat.div_add_mod n b
  have h2 := Nat.mod_lt n hb
  have h5 : n % b + 1 ≠ b := by
    intro h6
    apply h
    have : n + 1 = b * (n / b + 1) := by rw [Nat.mul_add]; omega
    rw [this]; simp
  have h6 : n % b + 1 < b := by omega
  generalize hr : n % b = r at *
  generalize hq : n / b = q at *
  subst h1
  constructor
  · rw [Nat.add_assoc, Nat.mul_add_div hb, Nat.div_eq_of_lt h6]; omega
  · rw [Nat.add_assoc, Nat.mul_add_mod, Nat.mod_eq_of_lt h6]

theorem writeFrame_inv2_seen {env : Env} {cfg : WConfig} (hE : GoodEnv env cfg) (hV : cfg.version = .v2)
    (hv : cfg.dims.Valid) (hf : cfg.dims.Room) {st : WState} {S data : Bytes} {n : Nat}
    (hn : n + 1 < 2 ^ 32) (hd : data.length = cfg.dims.frameBytes) (hi : Inv2 env cfg S n st) :
    ∃ st', writeFrame env cfg data st = .ok (st', cfg.dims.frameBytes) ∧
      Inv2 env cfg (S ++ cfg.dims.seen data) (n + 1) st' := by
  have hd' := (ArrayDims.seen_length (D := cfg.dims) data).trans hd
  rw [writeFrame_seen_eq hv hf hn hi.len hd hi.fw hi.bufs hi.btf]
  generalize cfg.dims.seen data = d at hd' ⊢
  have hF := ArrayDims.frameBytes_pos hv hf
  have hFB := ArrayDims.framesPerChunk_pos hv hf
  have hlen' : (S ++ d).length = (n + 1) * cfg.dims.frameBytes := by
    rw [List.length_append, hi.len, hd']; ring
  simp only
  split
  · rename_i hdv
    obtain ⟨e1, e2⟩ := div_succ_of_dvd hFB hdv
    have hle : n / cfg.dims.framesPerChunk ≤ n := Nat.div_le_self _ _
    rw [flush_v2 hE hV hv hf (st := { st with
        bufs := layer cfg.dims (S ++ d) (n / cfg.dims.framesPerChunk)
        bytesToFlush := (n % cfg.dims.framesPerChunk + 1) * cfg.dims.frameBytes
        framesWritten := n + 1 }) (S := S ++ d) (g := n / cfg.dims.framesPerChunk) (n := n + 1)
      rfl (Nat.ne_of_gt (Nat.mul_pos (by omega) hF)) hi.sinks hi.app (by omega) rfl hn]
    refine ⟨_, rfl, ?_⟩
    have hEq : (n + 1) = (n / cfg.dims.framesPerChunk + 1) * cfg.dims.framesPerChunk := by
      have := Nat.div_add_mod (n + 1) cfg.dims.framesPerChunk
      rw [hdv, e1] at this
      rw [Nat.mul_comm]; omega
    constructor
    · exact hlen'
    · rfl
    · exact e1.symm
    · simp [hdv]
    · exact hi.fin
    · exact hi.sinks
    · simp [e1]
    · right
      rw [e1]
      apply ArrayDims.makeBuffers_eq hv hf
      rw [hlen', ← hEq]
    · exact hi.errs
    · show st.trace ++ _ = _
      rw [hi.tr, hi.ms, e1]
      rw [← eventsV2_stable env hv hf (S2 := d) (k := n / cfg.dims.framesPerChunk) (by
        rw [hi.len]
        exact Nat.mul_le_mul_right _ (Nat.div_mul_le_self _ _))]
      conv_rhs => rw [eventsV2, List.range_succ, List.flatMap_append]
      simp only [List.flatMap_cons, List.flatMap_nil, List.append_nil, ← hEq, Bool.not_not]
      rfl
  · rename_i hdv
    obtain ⟨e1, e2⟩ := div_succ_of_not_dvd hFB hdv
    refine ⟨_, rfl, ?_⟩
    constructor
    · exact hlen'
    · rfl
    · rw [e1]; exact hi.app
    · rw [e2]
    · exact hi.fin
    · exact hi.sinks
    · rw [e1]; exact hi.ms
    · right; rw [e1]
    · exact hi.errs
    · show st.trace = _
      rw [hi.tr, e1]
      rw [← eventsV2_stable env hv hf (S2 := d) (k := n / cfg.dims.framesPerChunk) (by
        rw [hi.len]
        exact Nat.mul_le_mul_right _ (Nat.div_mul_le_self _ _))]

theorem writeFrames_inv2_seen {env : Env} {cfg : WConfig} (hE : GoodEnv env cfg) (hV : cfg.version = .v2)
    (hv : cfg.dims.Valid) (hf : cfg.dims.Room) (frames : List Bytes) {st : WState} {S : Bytes} {n : Nat}
    (hn : n + frames.length < 2 ^ 32) (hd : ∀ f ∈ frames, f.length = cfg.dims.frameBytes)
    (hi : Inv2 env cfg S n st) :
    ∃ st', writeFrames env cfg frames st = .ok st' ∧
      Inv2 env cfg (S ++ (frames.map cfg.dims.seen).flatten) (n + frames.length) st' := by
  induction frames generalizing st S n with
  | nil => exact ⟨st, rfl, by simpa using hi⟩
  | cons f fs ih =>
    simp only [List.length_cons] at hn
    obtain ⟨st1, h1, h2⟩ := writeFrame_inv2_seen hE hV hv hf (by omega) (hd f (by simp)) hi
    obtain ⟨st2, h3, h4⟩ := ih (n := n + 1) (by omega) (fun x hx => hd x (by simp [hx])) h2
    refine ⟨st2, ?_, ?_⟩
    · have hF := ArrayDims.frameBytes_pos hv hf
      have : (cfg.dims.frameBytes != 0) = true := by simp; omega
      simp [writeFrames, h1, h3, this]
    · rw [List.map_cons, List.flatten_cons, ← List.append_assoc, List.length_cons]
      have e : n + (fs.length + 1) = n + 1 + fs.length := by omega
      rw [e]
      exact h4

theorem writeFrames_inv2 {env : Env} {cfg : WConfig} (hE : GoodEnv env cfg) (hV : cfg.version = .v2)
    (hv : cfg.dims.Valid) (hf : cfg.dims.Fits) (frames : List Bytes) {st : WState} {S : Bytes} {n : Nat}
    (hn : n + frames.length < 2 ^ 32) (hd : ∀ f ∈ frames, f.length = cfg.dims.frameBytes)
    (hi : Inv2 env cfg S n st) :
    ∃ st', writeFrames env cfg frames st = .ok st' ∧
      Inv2 env cfg (S ++ frames.flatten) (n + frames.length) st' := by
  have h := writeFrames_inv2_seen hE hV hv hf frames hn hd hi
  rwa [map_seen hf hd] at h

/-- All events of a complete run over the frame stream `S` (`n` frames). -/
def runEventsV2 (env : Env) (cfg : WConfig) (S : Bytes) (n : Nat) : List Ev :=
  eventsV2 env cfg S (n / cfg.dims.framesPerChunk) ++
  (if n % cfg.dims.framesPerChunk = 0 then [] else
    dataEventsV2 env cfg S (n / cfg.dims.framesPerChunk) ++
    metaEvents cfg (n / cfg.dims.framesPerChunk == 0) n) ++
  (if n = 0 then [] else [Ev.finalized (arrayMetaPath cfg)])

theorem finalizeArray_v2 {env : Env} {cfg : WConfig} (hE : GoodEnv env cfg) (hV : cfg.version = .v2)
    (hv : cfg.dims.Valid) (hf : cfg.dims.Room) {st : WState} {S : Bytes} {n : Nat} (hn : n < 2 ^ 32)
    (hi : Inv2 env cfg S n st) :
    ∃ st', finalizeArray env cfg st = .ok st' ∧ st'.errors = [] ∧
      st'.trace = runEventsV2 env cfg S n := by
  have hF := ArrayDims.frameBytes_pos hv hf
  have hFB := ArrayDims.framesPerChunk_pos hv hf
  unfold finalizeArray runEventsV2
  by_cases h0 : n % cfg.dims.framesPerChunk = 0
  · have hb0 : st.bytesToFlush = 0 := by rw [hi.btf, h0, Nat.zero_mul]
    have hfl : flush env cfg { st with finalizing := true } = .ok { st with finalizing := true } := by
      unfold flush; rw [if_pos hb0]
    rw [hfl]
    simp only [Res.bind_ok, Res.pure_eq, hi.ms, hi.sinks]
    by_cases hz : n = 0
    · subst hz
      simp [hi.errs, hi.tr]
    · have : ¬ (n / cfg.dims.framesPerChunk = 0) := by
        intro h
        have := Nat.div_add_mod n cfg.dims.framesPerChunk
        rw [h, h0] at this; omega
      simp [this, hz, h0, hE.finalize, hi.errs, hi.tr]
  · have hbn : st.bytesToFlush ≠ 0 := by
      rw [hi.btf]
      exact Nat.ne_of_gt (Nat.mul_pos (by omega) hF)
    have hnz : n ≠ 0 := by rintro rfl; simp at h0
    have hb : st.bufs = layer cfg.dims S (n / cfg.dims.framesPerChunk) := by
      rcases hi.bufs with ⟨h, _⟩ | h
      · exact absurd h hnz
      · exact h
    have hlt : n / cfg.dims.framesPerChunk + 1 < 2 ^ 32 := by
      have h1 := Nat.div_add_mod n cfg.dims.framesPerChunk
      have h2 : n / cfg.dims.framesPerChunk ≤ cfg.dims.framesPerChunk * (n / cfg.dims.framesPerChunk) :=
        Nat.le_mul_of_pos_left _ hFB
      omega
    rw [flush_v2 hE hV hv hf (st := { st with finalizing := true }) hb hbn hi.sinks hi.app hlt hi.fw hn]
    simp [h0, hnz, hE.finalize, hi.errs, hi.tr, hi.sinks, hi.ms]

/-- **Whole run of a V2 array writer**: it succeeds, reports no error, and its storage history is
determined by the frames. -/
theorem runArray_v2_seen {env : Env} {cfg : WConfig} (hE : GoodEnv env cfg) (hV : cfg.version = .v2)
    (hv : cfg.dims.Valid) (hf : cfg.dims.Room) (frames : List Bytes) (hn : frames.length < 2 ^ 32)
    (hd : ∀ f ∈ frames, f.length = cfg.dims.frameBytes) :
    ∃ st, runArray env cfg frames = .ok st ∧ st.errors = [] ∧
      st.trace = runEventsV2 env cfg (frames.map cfg.dims.seen).flatten frames.length := by
  obtain ⟨st1, h1, h2⟩ := writeFrames_inv2_seen hE hV hv hf frames (n := 0) (by omega) hd (inv2_init env hV)
  obtain ⟨st2, h3, h4⟩ := finalizeArray_v2 hE hV hv hf (by omega) h2
  simp only [List.nil_append, Nat.zero_add] at h4
  exact ⟨st2, by simp [runArray, h1, h3], h4⟩

theorem runArray_v2 {env : Env} {cfg : WConfig} (hE : GoodEnv env cfg) (hV : cfg.version = .v2)
    (hv : cfg.dims.Valid) (hf : cfg.dims.Fits) (frames : List Bytes) (hn : frames.length < 2 ^ 32)
    (hd : ∀ f ∈ frames, f.length = cfg.dims.frameBytes) :
    ∃ st, runArray env cfg frames = .ok st ∧ st.errors = [] ∧
      st.trace = runEventsV2 env cfg frames.flatten frames.length := by
  have h := runArray_v2_seen hE hV hv hf frames hn hd
  rwa [map_seen hf hd] at h

end AZ
