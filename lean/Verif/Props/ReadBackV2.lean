import Verif.Lemmas.LevelAll
import Verif.Props.Sample

set_option linter.unusedSimpArgs false

/-!
# C01, C02, C03: reading back a Zarr V2 dataset

A session creates a stream, appends whole frames (any number of calls, any number of frames per call) and
destroys the stream. `file` below is the store afterwards. The reader is `Spec.readV2`.
-/

namespace AZ
open Spec

theorem fromC_bytes {k : Nat} (h : k < 10) : (DType.fromC k).bytes = itemSize k := by
  match k, h with
  | 0, _ => rfl | 1, _ => rfl | 2, _ => rfl | 3, _ => rfl | 4, _ => rfl
  | 5, _ => rfl | 6, _ => rfl | 7, _ => rfl | 8, _ => rfl | 9, _ => rfl

/-- The configured dimensions in terms of the settings. -/
structure DimsOf (s : Settings) (cfg : WConfig) (a : DimProps) (inner : List DimProps) (y x : DimProps) : Prop where
  chunks : cShape cfg.dims.toList = (a :: (inner ++ [y, x])).map (·.chunkSize)
  tailChunks : cShape cfg.dims.tailDims = (inner ++ [y, x]).map (·.chunkSize)
  sizes : aShape cfg.dims.tailDims = (inner ++ [y, x]).map (·.arraySize)
  innerSizes : aShape cfg.dims.inner = inner.map (·.arraySize)
  height : cfg.dims.height.arraySize = y.arraySize
  width : cfg.dims.width.arraySize = x.arraySize
  append : cfg.dims.append.chunkSize = a.chunkSize
  item : cfg.dims.dtype.bytes = itemSize s.dataType
  frame : cfg.dims.frameBytes = y.arraySize * x.arraySize * itemSize s.dataType
  perChunk : cfg.dims.framesPerChunk = a.chunkSize * prod (inner.map (·.arraySize))

theorem dimsOf {w : World} {s : Settings} {cfg : WConfig} (hv : validateSettings w (some s) = .ok true)
    (hc : commitSettings s = .ok cfg) {a y x : DimProps} {inner : List DimProps}
    (hd : s.dimensions = some (a :: (inner ++ [y, x]))) : DimsOf s cfg a inner y x := by
  obtain ⟨cfg', h1, h2⟩ := commit_dims hd
  rw [hc] at h1
  cases h1
  have hb : cfg.dims.dtype.bytes = itemSize s.dataType := by
    rw [h2]; exact fromC_bytes (validateSettings_ok hv).dtype
  refine ⟨?_, ?_, ?_, ?_, ?_, ?_, ?_, hb, ?_, ?_⟩
  · rw [h2]; simp [cShape, ArrayDims.toList, DimProps.toDim]
  · rw [h2]; simp [cShape, ArrayDims.tailDims, DimProps.toDim]
  · rw [h2]; simp [aShape, ArrayDims.tailDims, DimProps.toDim]
  · rw [h2]; simp [aShape, DimProps.toDim]
  · rw [h2]; rfl
  · rw [h2]; rfl
  · rw [h2]; rfl
  · unfold ArrayDims.frameBytes; rw [hb, h2]; rfl
  · unfold ArrayDims.framesPerChunk aShape
    rw [h2]
    simp [DimProps.toDim, Function.comp_def]

/-- The bytes of pixel (`y`, `x`) of a frame `width` pixels wide. -/
def pixelOf (frame : Bytes) (width item y x : Nat) : Bytes := slice frame ((y * width + x) * item) item

theorem slice_eq_map {f : Bytes} {o n : Nat} (h : o + n ≤ f.length) :
    slice f o n = (List.range n).map fun s => f.getD (o + s) 0 := by
  unfold slice
  apply List.ext_getElem
  · simp; omega
  · intro i h1 h2
    simp at h2
    have : o + i < f.length := by omega
    simp [List.getD_eq_getElem?_getD, List.getElem?_eq_getElem this]

theorem pixel_fits {h w item y x : Nat} (hy : y < h) (hx : x < w) :
    (y * w + x) * item + item ≤ h * w * item := by
  have h1 : y * w + w ≤ h * w := by rw [← Nat.succ_mul]; exact Nat.mul_le_mul_right _ hy
  calc (y * w + x) * item + item = (y * w + x + 1) * item := by rw [Nat.add_mul _ 1, Nat.one_mul]
    _ ≤ h * w * item := Nat.mul_le_mul_right _ (by omega)

theorem flatten_length_const {fs : List Bytes} {n : Nat} (h : ∀ f ∈ fs, f.length = n) :
    fs.flatten.length = fs.length * n := by
  induction fs with
  | nil => simp
  | cons f fs ih =>
    simp only [List.flatten_cons, List.length_append, List.length_cons]
    rw [h f (by simp), ih fun x hx => h x (by simp [hx]), Nat.succ_mul, Nat.add_comm]

/-- Directory of level `i` of a V2 dataset. -/
def levelDir (root : Text) (i : Nat) : Text := root ++ '/' :: decimal i ++ ['/']

theorem levelDir_eq0 {w : World} {fuel : Nat} {s : Settings} {cfg c : WConfig} {cfgs : List WConfig} {root : Text}
    (h : Setup0 w fuel s cfg cfgs) (hr : StoredAt s root) {i : Nat} (hc : cfgs[i]? = some c) :
    arrayDirV2 c = levelDir root i := by
  obtain ⟨h1, h2⟩ := levelConfigs_inherits h.levels hc
  rw [arrayDirV2_eq (hr.storeAt h.commit h1.same), h2, (commit_fields h.commit).1, Nat.zero_add]
  rfl

theorem levelDir_eq {w : World} {fuel : Nat} {s : Settings} {cfg c : WConfig} {cfgs : List WConfig} {root : Text}
    (h : Setup w fuel s cfg cfgs) (hr : StoredAt s root) {i : Nat} (hc : cfgs[i]? = some c) :
    arrayDirV2 c = levelDir root i :=
  levelDir_eq0 h.base hr hc

/-- The objects of a level after a session. -/
theorem level_file0 {w : World} {env : Env} {fuel : Nat} {s : Settings} {cfg : WConfig} {cfgs : List WConfig}
    (h : Setup0 w fuel s cfg cfgs) {root : Text} (hfr : Fresh w s root)
    {frames : List Bytes} {tr : List Ev} (hs : SessionV2 env cfg cfgs frames tr)
    {i : Nat} {c : WConfig} (hc : cfgs[i]? = some c) {q : Text} (hq : Owned c (root ++ '/' :: q)) :
    fileInStore w cfg (root ++ '/' :: q) tr = fileAfter (root ++ '/' :: q)
      (runEventsV2 env c (framesOfLevel cfg i frames).flatten (framesOfLevel cfg i frames).length) := by
  rw [fileInStore_fresh h.commit hfr]
  exact fileAfter_about (hs.level i c hc _ hq)

theorem level_file {w : World} {env : Env} {fuel : Nat} {s : Settings} {cfg : WConfig} {cfgs : List WConfig}
    (h : Setup w fuel s cfg cfgs) {root : Text} (hfr : Fresh w s root)
    {frames : List Bytes} {tr : List Ev} (hs : SessionV2 env cfg cfgs frames tr)
    {i : Nat} {c : WConfig} (hc : cfgs[i]? = some c) {q : Text} (hq : Owned c (root ++ '/' :: q)) :
    fileInStore w cfg (root ++ '/' :: q) tr = fileAfter (root ++ '/' :: q)
      (runEventsV2 env c (framesOfLevel cfg i frames).flatten (framesOfLevel cfg i frames).length) :=
  level_file0 h.base hfr hs hc hq

theorem level_chunk0 {w : World} {env : Env} {fuel : Nat} {s : Settings} {cfg : WConfig} {cfgs : List WConfig}
    (h : Setup0 w fuel s cfg cfgs) {root : Text} (hr : StoredAt s root) (hfr : Fresh w s root)
    {frames : List Bytes} {tr : List Ev} (hs : SessionV2 env cfg cfgs frames tr) (hV : s.version = 2)
    {i : Nat} {c : WConfig} (hc : cfgs[i]? = some c) (g : Nat) (l : List Nat) :
    fileInStore w cfg (levelDir root i ++ chunkKey (g :: l)) tr =
      fileAfter (levelDir root i ++ chunkKey (g :: l))
      (runEventsV2 env c (framesOfLevel cfg i frames).flatten (framesOfLevel cfg i frames).length) := by
  have hv := h.versionV2 hV c (List.mem_of_getElem? hc)
  have ho : Owned c (levelDir root i ++ chunkKey (g :: l)) := by
    right
    exact ⟨g, l, by rw [objectPath_key hv, levelDir_eq0 h hr hc]⟩
  have e : levelDir root i ++ chunkKey (g :: l) = root ++ '/' :: (decimal i ++ ['/'] ++ chunkKey (g :: l)) := by
    simp [levelDir]
  rw [e] at ho ⊢
  exact level_file0 h hfr hs hc ho

theorem level_chunk {w : World} {env : Env} {fuel : Nat} {s : Settings} {cfg : WConfig} {cfgs : List WConfig}
    (h : Setup w fuel s cfg cfgs) {root : Text} (hr : StoredAt s root) (hfr : Fresh w s root)
    {frames : List Bytes} {tr : List Ev} (hs : SessionV2 env cfg cfgs frames tr) (hV : s.version = 2)
    {i : Nat} {c : WConfig} (hc : cfgs[i]? = some c) (g : Nat) (l : List Nat) :
    fileInStore w cfg (levelDir root i ++ chunkKey (g :: l)) tr =
      fileAfter (levelDir root i ++ chunkKey (g :: l))
      (runEventsV2 env c (framesOfLevel cfg i frames).flatten (framesOfLevel cfg i frames).length) :=
  level_chunk0 h.base hr hfr hs hV hc g l

theorem framesOfLevel_zero (cfg : WConfig) (frames : List Bytes) : framesOfLevel cfg 0 frames = frames := rfl

/-- No level has larger chunks than the first. -/
theorem Setup0.chunk_le {w : World} {fuel : Nat} {s : Settings} {cfg c : WConfig} {cfgs : List WConfig}
    (h : Setup0 w fuel s cfg cfgs) (hc : c ∈ cfgs) : c.dims.chunkBytes ≤ fullChunk s := by
  refine h.levelAll (Q := fun D => D.chunkBytes ≤ fullChunk s)
    (fun D D' _ _ hq hd => Nat.le_trans (chunkBytes_down hd) hq) ?_ c hc
  obtain ⟨ds, hds, hd⟩ := (validateSettings_ok h.valid).dims
  obtain ⟨a, inner, y, x, rfl⟩ := dimsAccepted_split hd
  have hD := dimsOf h.valid h.commit hds
  unfold ArrayDims.chunkBytes fullChunk
  rw [hD.chunks, hD.item, hds]
  exact Nat.le_refl _

theorem Setup.chunk_le {w : World} {fuel : Nat} {s : Settings} {cfg c : WConfig} {cfgs : List WConfig}
    (h : Setup w fuel s cfg cfgs) (hc : c ∈ cfgs) : c.dims.chunkBytes ≤ fullChunk s :=
  h.base.chunk_le hc

theorem Setup0.first_mem {w : World} {fuel : Nat} {s : Settings} {cfg : WConfig} {cfgs : List WConfig}
    (h : Setup0 w fuel s cfg cfgs) : cfg ∈ cfgs := by
  obtain ⟨rest, hr⟩ := levelConfigs_head h.levels
  rw [hr]; exact List.mem_cons_self

theorem Setup.first_mem {w : World} {fuel : Nat} {s : Settings} {cfg : WConfig} {cfgs : List WConfig}
    (h : Setup w fuel s cfg cfgs) : cfg ∈ cfgs :=
  h.base.first_mem

/-- `decode` undoes what the stream does to a chunk before storing it: nothing without compression,
otherwise it inverts Blosc with the configured parameters, on buffers of at most the size of a chunk (Blosc cannot
compress buffers over 2 GiB). -/
def Decodes (env : Env) (s : Settings) (decode : Bytes → Option Bytes) : Prop :=
  match s.compression with
  | none => ∀ b, decode b = some b
  | some c => ∀ b out, b.length ≤ fullChunk s →
      env.compress ⟨codecName c.codec, c.level, c.shuffle⟩ (itemSize s.dataType) b = some out → decode out = some b

theorem Decodes.stored0 {w : World} {fuel : Nat} {env : Env} {s : Settings} {cfg c : WConfig} {cfgs : List WConfig}
    {decode : Bytes → Option Bytes}
    (hd : Decodes env s decode) (hE : StorageOk env s) (h : Setup0 w fuel s cfg cfgs) (hi : Inherits cfg c)
    (hit : cfg.dims.dtype.bytes = itemSize s.dataType) (b : Bytes) (hb : b.length ≤ fullChunk s) :
    decode (storedForm env c b) = some b := by
  unfold storedForm
  rw [← hi.compression, ← hi.dtype, (commit_fields h.commit).2.2.2.1]
  unfold Decodes at hd
  cases hs : s.compression with
  | none => rw [hs] at hd; exact hd b
  | some q =>
    rw [hs] at hd
    simp only [Option.map_some]
    have := hE.compress q hs cfg.dims.dtype.bytes b
    cases ho : env.compress ⟨codecName q.codec, q.level, q.shuffle⟩ cfg.dims.dtype.bytes b with
    | none => rw [ho] at this; simp at this
    | some out =>
      rw [hit] at ho
      exact hd b out hb ho

theorem Decodes.stored {w : World} {fuel : Nat} {env : Env} {s : Settings} {cfg c : WConfig} {cfgs : List WConfig}
    {decode : Bytes → Option Bytes}
    (hd : Decodes env s decode) (hE : StorageOk env s) (h : Setup w fuel s cfg cfgs) (hi : Inherits cfg c)
    (hit : cfg.dims.dtype.bytes = itemSize s.dataType) (b : Bytes) (hb : b.length ≤ fullChunk s) :
    decode (storedForm env c b) = some b :=
  hd.stored0 hE h.base hi hit b hb

/-- Content of any chunk name of a level after a session: the stored form of the specified chunk for the
grid positions of the array, nothing elsewhere. -/
theorem level_chunk_content0 {w : World} {env : Env} {fuel : Nat} {s : Settings} {cfg : WConfig} {cfgs : List WConfig}
    (h : Setup0 w fuel s cfg cfgs) {root : Text} (hr : StoredAt s root) (hfr : Fresh w s root)
    {frames : List Bytes} {tr : List Ev} (hs : SessionV2 env cfg cfgs frames tr) (hV : s.version = 2)
    {i : Nat} {c : WConfig} (hc : cfgs[i]? = some c) (g : Nat) (l : List Nat) :
    fileInStore w cfg (levelDir root i ++ chunkKey (g :: l)) tr =
      if g < groups c (framesOfLevel cfg i frames).length ∧ InBounds (nShape c.dims.tailDims) l then
        some (storedForm env c (Spec.chunkBytes (aShape c.dims.tailDims) (cShape c.dims.toList)
          c.dims.dtype.bytes (framesOfLevel cfg i frames).flatten (g :: l)))
      else none := by
  have hv := h.versionV2 hV c (List.mem_of_getElem? hc)
  obtain ⟨hval, hfit⟩ := h.levelDims.1 c (List.mem_of_getElem? hc)
  rw [level_chunk0 h hr hfr hs hV hc, ← levelDir_eq0 h hr hc, ← objectPath_key hv]
  split
  · rename_i hin
    have hp : objectPath c g l = chunkPath c g (ravel (nShape c.dims.tailDims) l) := by
      unfold chunkPath
      rw [unravel_ravel hin.2]
    rw [hp, fileAfter_chunk_v2 env hval hfit _ hin.1 (ravel_lt hin.2), unravel_ravel hin.2]
  · rename_i hin
    rw [fileAfter_none_v2 env hval hfit _ _ (objectPath_ne_meta _ _ _)]
    intro g' k hg hk he
    obtain ⟨e1, e2⟩ := objectPath_inj he
    apply hin
    rw [e1, e2]
    exact ⟨hg, unravel_inBounds hk⟩

theorem level_chunk_content {w : World} {env : Env} {fuel : Nat} {s : Settings} {cfg : WConfig} {cfgs : List WConfig}
    (h : Setup w fuel s cfg cfgs) {root : Text} (hr : StoredAt s root) (hfr : Fresh w s root)
    {frames : List Bytes} {tr : List Ev} (hs : SessionV2 env cfg cfgs frames tr) (hV : s.version = 2)
    {i : Nat} {c : WConfig} (hc : cfgs[i]? = some c) (g : Nat) (l : List Nat) :
    fileInStore w cfg (levelDir root i ++ chunkKey (g :: l)) tr =
      if g < groups c (framesOfLevel cfg i frames).length ∧ InBounds (nShape c.dims.tailDims) l then
        some (storedForm env c (Spec.chunkBytes (aShape c.dims.tailDims) (cShape c.dims.toList)
          c.dims.dtype.bytes (framesOfLevel cfg i frames).flatten (g :: l)))
      else none :=
  level_chunk_content0 h.base hr hfr hs hV hc g l

section
variable {w : World} {env : Env} {fuel : Nat} {s : Settings} {cfg : WConfig} {cfgs : List WConfig}
  {a y x : DimProps} {inner : List DimProps} {root : Text} {calls : List (List Bytes)}

/-- What a reader sees of the level-0 array of a completed V2 session, wherever the objects are (`file`, under `dir`). -/
theorem v2_read_from0 (h : Setup0 w fuel s cfg cfgs) (hE : StorageOk env s) (hV : s.version = 2)
    (hd : s.dimensions = some (a :: (inner ++ [y, x])))
    {decode : Bytes → Option Bytes} (hdec : Decodes env s decode)
    {frames : List Bytes} (hff : ∀ f ∈ frames, f.length = cfg.dims.frameBytes)
    {file : Text → Option Bytes} {dir : Text} (hdir : arrayDirV2 cfg = dir)
    (hfile : ∀ g l, file (dir ++ chunkKey (g :: l)) = fileAfter (dir ++ chunkKey (g :: l))
      (runEventsV2 env cfg frames.flatten frames.length))
    {t : Nat} {i : List Nat} {py px : Nat} (hi : InBounds (inner.map (·.arraySize)) i) (hpy : py < y.arraySize)
    (hpx : px < x.arraySize) :
    readV2 file dir decode
      ((a :: (inner ++ [y, x])).map (·.chunkSize)) (itemSize s.dataType) (t :: (i ++ [py, px])) =
    some (match frames[t * prod (inner.map (·.arraySize)) + ravel (inner.map (·.arraySize)) i]? with
      | some f => pixelOf f x.arraySize (itemSize s.dataType) py px
      | none => List.replicate (itemSize s.dataType) 0) := by
  have hD := dimsOf h.valid h.commit hd
  have hv := h.dimsValid
  obtain ⟨rest, hrest⟩ := levelConfigs_head h.levels
  have h0 : cfgs[0]? = some cfg := by rw [hrest]; rfl
  have hib : InBounds (aShape cfg.dims.inner) i := by rw [hD.innerSizes]; exact hi
  have hy' : py < cfg.dims.height.arraySize := by rw [hD.height]; exact hpy
  have hx' : px < cfg.dims.width.arraySize := by rw [hD.width]; exact hpx
  have hread := readV2_run env (h.versionV2 hV cfg (List.mem_of_getElem? h0)) hv h.fits frames.flatten
    frames.length (by
      exact flatten_length_const hff)
    (file := file)
    (by
      rintro p ⟨g, l, rfl⟩
      rw [hdir]
      exact hfile g l)
    (decode := decode) (fun b hb => hdec.stored0 hE h ⟨SameStore.refl _, rfl, rfl⟩ hD.item b (by rw [hb]; exact h.chunk_le h.first_mem))
    (t := t) (y := i ++ [py, px]) (by
      unfold ArrayDims.tailDims
      rw [aShape_append]
      exact (inBounds_append _ _ hib.length).2 ⟨hib, hy', hx', trivial⟩)
  rw [hdir, hD.chunks, hD.item] at hread
  rw [hread]
  congr 1
  have hbyte : ∀ sb, sb < itemSize s.dataType → logicalByte (aShape cfg.dims.tailDims) (itemSize s.dataType)
      frames.flatten (t :: (i ++ [py, px])) sb =
      match frames[t * prod (inner.map (·.arraySize)) + ravel (inner.map (·.arraySize)) i]? with
      | some fr => fr.getD ((py * x.arraySize + px) * itemSize s.dataType + sb) 0
      | none => 0 := fun sb hsb => by
    have := logicalByte_frame hv h.fits hff (t := t) hib hy' hx' (s := sb) (by rw [hD.item]; exact hsb)
    rw [hD.innerSizes, hD.width, hD.item] at this
    exact this
  cases hfr' : frames[t * prod (inner.map (·.arraySize)) + ravel (inner.map (·.arraySize)) i]? with
  | none =>
    dsimp only
    apply List.ext_getElem (by simp)
    intro k k1 k2
    simp only [List.getElem_map, List.getElem_range, List.getElem_replicate]
    simp at k2
    rw [hbyte k k2, hfr']
  | some f =>
    dsimp only
    have hfl := hff f (List.mem_of_getElem? hfr')
    unfold pixelOf
    rw [slice_eq_map (by rw [hfl, hD.frame]; exact pixel_fits hpy hpx)]
    apply List.map_congr_left
    intro k hk
    have hk := List.mem_range.1 hk
    rw [hbyte k hk, hfr']

theorem v2_read_from (h : Setup w fuel s cfg cfgs) (hE : StorageOk env s) (hV : s.version = 2)
    (hd : s.dimensions = some (a :: (inner ++ [y, x])))
    {decode : Bytes → Option Bytes} (hdec : Decodes env s decode)
    {frames : List Bytes} (hff : ∀ f ∈ frames, f.length = cfg.dims.frameBytes)
    {file : Text → Option Bytes} {dir : Text} (hdir : arrayDirV2 cfg = dir)
    (hfile : ∀ g l, file (dir ++ chunkKey (g :: l)) = fileAfter (dir ++ chunkKey (g :: l))
      (runEventsV2 env cfg frames.flatten frames.length))
    {t : Nat} {i : List Nat} {py px : Nat} (hi : InBounds (inner.map (·.arraySize)) i) (hpy : py < y.arraySize)
    (hpx : px < x.arraySize) :
    readV2 file dir decode
      ((a :: (inner ++ [y, x])).map (·.chunkSize)) (itemSize s.dataType) (t :: (i ++ [py, px])) =
    some (match frames[t * prod (inner.map (·.arraySize)) + ravel (inner.map (·.arraySize)) i]? with
      | some f => pixelOf f x.arraySize (itemSize s.dataType) py px
      | none => List.replicate (itemSize s.dataType) 0) :=
  v2_read_from0 h.base hE hV hd hdec hff hdir hfile hi hpy hpx

/-- A session of whole frames succeeds, every call consumes its whole buffer, and reading any in-bounds
coordinate of the level-0 array gives the pixel of the frame appended for it, or zeros if there is none. -/
theorem v2_read0 (h : Setup0 w fuel s cfg cfgs) (hE : StorageOk env s) (hV : s.version = 2)
    (hsc : AllScale s.multiscale cfg calls.flatten)
    (hd : s.dimensions = some (a :: (inner ++ [y, x]))) (hr : StoredAt s root) (hfr : Fresh w s root)
    {decode : Bytes → Option Bytes} (hdec : Decodes env s decode)
    (hn : calls.flatten.length < 2 ^ 32)
    (hf : ∀ c ∈ calls, ∀ f ∈ c, f.length = y.arraySize * x.arraySize * itemSize s.dataType) :
    ∃ st tr, runStream w env fuel s (calls.map List.flatten) =
        some (.ok (st, calls.map (fun c => c.flatten.length), tr)) ∧ st.error = [] ∧
      ∀ (t : Nat) (i : List Nat) (py px : Nat), InBounds (inner.map (·.arraySize)) i → py < y.arraySize →
        px < x.arraySize →
        readV2 (fun p => fileInStore w cfg p tr) (levelDir root 0) decode
          ((a :: (inner ++ [y, x])).map (·.chunkSize)) (itemSize s.dataType) (t :: (i ++ [py, px])) =
        some (match calls.flatten[t * prod (inner.map (·.arraySize)) + ravel (inner.map (·.arraySize)) i]? with
          | some f => pixelOf f x.arraySize (itemSize s.dataType) py px
          | none => List.replicate (itemSize s.dataType) 0) := by
  have hD := dimsOf h.valid h.commit hd
  obtain ⟨rest, hrest⟩ := levelConfigs_head h.levels
  have h0 : cfgs[0]? = some cfg := by rw [hrest]; rfl
  rw [← hD.frame] at hf
  obtain ⟨st, tr, h1, h2, h3⟩ := session_v2_0 h hE hV hsc hn hf
  refine ⟨st, tr, h1, h2, ?_⟩
  intro t i py px hi hpy hpx
  exact v2_read_from0 h hE hV hd hdec (h3.sizes 0 cfg h0) (levelDir_eq0 h hr h0)
    (fun g l => level_chunk0 h hr hfr h3 hV h0 g l) hi hpy hpx

theorem v2_read (h : Setup w fuel s cfg cfgs) (hE : StorageOk env s) (hV : s.version = 2)
    (hd : s.dimensions = some (a :: (inner ++ [y, x]))) (hr : StoredAt s root) (hfr : Fresh w s root)
    {decode : Bytes → Option Bytes} (hdec : Decodes env s decode)
    (hn : calls.flatten.length < 2 ^ 32)
    (hf : ∀ c ∈ calls, ∀ f ∈ c, f.length = y.arraySize * x.arraySize * itemSize s.dataType) :
    ∃ st tr, runStream w env fuel s (calls.map List.flatten) =
        some (.ok (st, calls.map (fun c => c.flatten.length), tr)) ∧ st.error = [] ∧
      ∀ (t : Nat) (i : List Nat) (py px : Nat), InBounds (inner.map (·.arraySize)) i → py < y.arraySize →
        px < x.arraySize →
        readV2 (fun p => fileInStore w cfg p tr) (levelDir root 0) decode
          ((a :: (inner ++ [y, x])).map (·.chunkSize)) (itemSize s.dataType) (t :: (i ++ [py, px])) =
        some (match calls.flatten[t * prod (inner.map (·.arraySize)) + ravel (inner.map (·.arraySize)) i]? with
          | some f => pixelOf f x.arraySize (itemSize s.dataType) py px
          | none => List.replicate (itemSize s.dataType) 0) :=
  v2_read0 h.base hE hV (h.allScale _) hd hr hfr hdec hn hf

/-- Coordinate `c` belongs to the array (inner, height and width indices in range) and its frame is among
the first `n`. -/
def Acquired (inner : List Nat) (h w n : Nat) (c : List Nat) : Prop :=
  ∃ t i py px, c = t :: (i ++ [py, px]) ∧ InBounds inner i ∧ py < h ∧ px < w ∧ t * prod inner + ravel inner i < n

/-- Every chunk file decodes to a full-size chunk in which every element that was not acquired is zero. -/
theorem v2_fill (h : Setup w fuel s cfg cfgs) (hE : StorageOk env s) (hV : s.version = 2)
    (hd : s.dimensions = some (a :: (inner ++ [y, x]))) (hr : StoredAt s root) (hfr : Fresh w s root)
    {decode : Bytes → Option Bytes} (hdec : Decodes env s decode)
    (hn : calls.flatten.length < 2 ^ 32)
    (hf : ∀ c ∈ calls, ∀ f ∈ c, f.length = y.arraySize * x.arraySize * itemSize s.dataType) :
    ∃ st tr, runStream w env fuel s (calls.map List.flatten) =
        some (.ok (st, calls.map (fun c => c.flatten.length), tr)) ∧ st.error = [] ∧
      ∀ (g : Nat) (l : List Nat) (raw : Bytes),
        fileInStore w cfg (levelDir root 0 ++ chunkKey (g :: l)) tr = some raw →
        ∃ chunk, decode raw = some chunk ∧
          chunk.length = prod ((a :: (inner ++ [y, x])).map (·.chunkSize)) * itemSize s.dataType ∧
          (∀ q, s.compression = some q → env.compress ⟨codecName q.codec, q.level, q.shuffle⟩
            (itemSize s.dataType) chunk = some raw) ∧
          ∀ o, InBounds ((a :: (inner ++ [y, x])).map (·.chunkSize)) o →
            ¬ Acquired (inner.map (·.arraySize)) y.arraySize x.arraySize calls.flatten.length
              (globalCoord ((a :: (inner ++ [y, x])).map (·.chunkSize)) (g :: l) o) →
            slice chunk (ravel ((a :: (inner ++ [y, x])).map (·.chunkSize)) o * itemSize s.dataType)
              (itemSize s.dataType) = List.replicate (itemSize s.dataType) 0 := by
  have hD := dimsOf h.valid h.commit hd
  have hv := h.dimsValid
  obtain ⟨rest, hrest⟩ := levelConfigs_head h.levels
  have h0 : cfgs[0]? = some cfg := by rw [hrest]; rfl
  rw [← hD.frame] at hf
  obtain ⟨st, tr, h1, h2, h3⟩ := session_v2 h hE hV hn hf
  refine ⟨st, tr, h1, h2, ?_⟩
  intro g l raw hraw
  have hff : ∀ f ∈ calls.flatten, f.length = cfg.dims.frameBytes := h3.sizes 0 cfg h0
  rw [level_chunk_content h hr hfr h3 hV h0] at hraw
  split at hraw
  · rename_i hin
    rw [framesOfLevel_zero] at hraw
    simp only [Option.some.injEq] at hraw
    have hlen : (Spec.chunkBytes (aShape cfg.dims.tailDims) (cShape cfg.dims.toList) cfg.dims.dtype.bytes
        calls.flatten.flatten (g :: l)).length ≤ fullChunk s := by
      refine Nat.le_trans (Nat.le_of_eq ?_) (h.chunk_le h.first_mem)
      simp [Spec.chunkBytes, ArrayDims.chunkBytes]
    have hst := hdec.stored hE h ⟨SameStore.refl _, rfl, rfl⟩ hD.item _ hlen
    rw [hraw] at hst
    refine ⟨_, hst, ?_, ?_, ?_⟩
    · rw [← hD.chunks, ← hD.item]
      simp [Spec.chunkBytes]
    · intro q hq
      rw [← hraw]
      unfold storedForm
      rw [(commit_fields h.commit).2.2.2.1, hq, hD.item]
      simp only [Option.map_some]
      have := hE.compress q hq (itemSize s.dataType)
        (Spec.chunkBytes (aShape cfg.dims.tailDims) (cShape cfg.dims.toList) (itemSize s.dataType)
          calls.flatten.flatten (g :: l))
      cases ho : env.compress ⟨codecName q.codec, q.level, q.shuffle⟩ (itemSize s.dataType)
        (Spec.chunkBytes (aShape cfg.dims.tailDims) (cShape cfg.dims.toList) (itemSize s.dataType)
          calls.flatten.flatten (g :: l)) with
      | none => rw [ho] at this; simp at this
      | some out => rfl
    · intro o ho hna
      rw [← hD.chunks] at ho hna ⊢
      rw [← hD.item]
      unfold slice
      rw [chunkBytes_slice (ArrayDims.dtype_pos _) _ _ ho]
      apply List.ext_getElem (by simp)
      intro k k1 k2
      simp only [List.getElem_map, List.getElem_range, List.getElem_replicate]
      simp at k2
      -- the coordinate as (t, i, y, x)
      generalize hgc : globalCoord (cShape cfg.dims.toList) (g :: l) o = gc at *
      unfold logicalByte
      split
      · rename_i hb
        cases gc with
        | nil =>
          exfalso
          have hl := hb.length
          simp [ArrayDims.tailDims, aShape] at hl
        | cons t r =>
          simp only [List.tail_cons] at hb
          have hb' := hb
          unfold ArrayDims.tailDims at hb'
          rw [aShape_append] at hb'
          have hrl := hb'.length
          have hsplit : r = r.take (aShape cfg.dims.inner).length ++ r.drop (aShape cfg.dims.inner).length :=
            (List.take_append_drop _ _).symm
          have htl : (r.take (aShape cfg.dims.inner).length).length = (aShape cfg.dims.inner).length := by
            rw [List.length_take, hrl]; simp
          generalize hri : r.take (aShape cfg.dims.inner).length = ri at *
          generalize hrj : r.drop (aShape cfg.dims.inner).length = rj at *
          subst hsplit
          obtain ⟨b1, b2⟩ := (inBounds_append _ _ htl).1 hb'
          match rj, b2 with
          | [py, px], b2 =>
            obtain ⟨b3, b4, _⟩ := b2
            have hfrm := logicalByte_frame hv h.fits hff (t := t) b1 b3 b4 k2
            unfold logicalByte at hfrm
            rw [List.tail_cons, if_pos hb] at hfrm
            rw [hfrm]
            cases hq : calls.flatten[t * prod (aShape cfg.dims.inner) + ravel (aShape cfg.dims.inner) ri]? with
            | none => rfl
            | some f =>
              exfalso
              apply hna
              refine ⟨t, ri, py, px, rfl, by rw [← hD.innerSizes]; exact b1, by rw [← hD.height]; exact b3,
                by rw [← hD.width]; exact b4, ?_⟩
              rw [← hD.innerSizes]
              exact (List.getElem?_eq_some_iff.1 hq).1
      · rfl
  · simp at hraw

/-- **C01.** V2, filesystem, no compression: every appended pixel reads back at its own coordinate. -/
theorem v2_pixel_reads_back (h : Setup w fuel s cfg cfgs) (hE : StorageOk env s) (hV : s.version = 2)
    (hcomp : s.compression = none)
    (hd : s.dimensions = some (a :: (inner ++ [y, x]))) (hr : StoredAt s root) (hfr : Fresh w s root)
    (hn : calls.flatten.length < 2 ^ 32)
    (hf : ∀ c ∈ calls, ∀ f ∈ c, f.length = y.arraySize * x.arraySize * itemSize s.dataType) :
    ∃ st tr, runStream w env fuel s (calls.map List.flatten) =
        some (.ok (st, calls.map (fun c => c.flatten.length), tr)) ∧ st.error = [] ∧
      ∀ (t : Nat) (i : List Nat) (py px : Nat) (f : Bytes), InBounds (inner.map (·.arraySize)) i →
        py < y.arraySize → px < x.arraySize →
        calls.flatten[t * prod (inner.map (·.arraySize)) + ravel (inner.map (·.arraySize)) i]? = some f →
        readV2 (fun p => fileInStore w cfg p tr) (levelDir root 0) some
          ((a :: (inner ++ [y, x])).map (·.chunkSize)) (itemSize s.dataType) (t :: (i ++ [py, px])) =
        some (pixelOf f x.arraySize (itemSize s.dataType) py px) := by
  obtain ⟨st, tr, h1, h2, h3⟩ := v2_read h hE hV hd hr hfr (decode := some)
    (by unfold Decodes; rw [hcomp]; exact fun _ => rfl) hn hf
  refine ⟨st, tr, h1, h2, ?_⟩
  intro t i py px f hi hy hx hfm
  rw [h3 t i py px hi hy hx, hfm]

/-- **C02.** V2, filesystem, no compression: every element of every chunk file that was not acquired —
frames not appended, padding of edge chunks — is zero. -/
theorem v2_unwritten_is_fill (h : Setup w fuel s cfg cfgs) (hE : StorageOk env s) (hV : s.version = 2)
    (hcomp : s.compression = none)
    (hd : s.dimensions = some (a :: (inner ++ [y, x]))) (hr : StoredAt s root) (hfr : Fresh w s root)
    (hn : calls.flatten.length < 2 ^ 32)
    (hf : ∀ c ∈ calls, ∀ f ∈ c, f.length = y.arraySize * x.arraySize * itemSize s.dataType) :
    ∃ st tr, runStream w env fuel s (calls.map List.flatten) =
        some (.ok (st, calls.map (fun c => c.flatten.length), tr)) ∧ st.error = [] ∧
      ∀ (g : Nat) (l : List Nat) (chunk : Bytes),
        fileInStore w cfg (levelDir root 0 ++ chunkKey (g :: l)) tr = some chunk →
          chunk.length = prod ((a :: (inner ++ [y, x])).map (·.chunkSize)) * itemSize s.dataType ∧
          ∀ o, InBounds ((a :: (inner ++ [y, x])).map (·.chunkSize)) o →
            ¬ Acquired (inner.map (·.arraySize)) y.arraySize x.arraySize calls.flatten.length
              (globalCoord ((a :: (inner ++ [y, x])).map (·.chunkSize)) (g :: l) o) →
            slice chunk (ravel ((a :: (inner ++ [y, x])).map (·.chunkSize)) o * itemSize s.dataType)
              (itemSize s.dataType) = List.replicate (itemSize s.dataType) 0 := by
  obtain ⟨st, tr, h1, h2, h3⟩ := v2_fill h hE hV hd hr hfr (decode := some)
    (by unfold Decodes; rw [hcomp]; exact fun _ => rfl) hn hf
  refine ⟨st, tr, h1, h2, ?_⟩
  intro g l chunk hch
  obtain ⟨ch, k1, k2, _, k4⟩ := h3 g l chunk hch
  cases k1
  exact ⟨k2, k4⟩

/-- **C03.** V2 with compression: if `decode` inverts Blosc, every in-bounds coordinate reads as the pixel
appended for it, or as zeros when there is none; every chunk file is exactly the compressed form of one
full-size chunk whose elements that were not acquired are zero. -/
theorem v2_compressed_reads_back {q : CompressionSettings} (h : Setup w fuel s cfg cfgs) (hE : StorageOk env s)
    (hV : s.version = 2) (hcomp : s.compression = some q) {decode : Bytes → Option Bytes}
    (hdec : ∀ b out, b.length ≤ fullChunk s →
      env.compress ⟨codecName q.codec, q.level, q.shuffle⟩ (itemSize s.dataType) b = some out → decode out = some b)
    (hd : s.dimensions = some (a :: (inner ++ [y, x]))) (hr : StoredAt s root) (hfr : Fresh w s root)
    (hn : calls.flatten.length < 2 ^ 32)
    (hf : ∀ c ∈ calls, ∀ f ∈ c, f.length = y.arraySize * x.arraySize * itemSize s.dataType) :
    ∃ st tr, runStream w env fuel s (calls.map List.flatten) =
        some (.ok (st, calls.map (fun c => c.flatten.length), tr)) ∧ st.error = [] ∧
      (∀ (t : Nat) (i : List Nat) (py px : Nat), InBounds (inner.map (·.arraySize)) i → py < y.arraySize →
        px < x.arraySize →
        readV2 (fun p => fileInStore w cfg p tr) (levelDir root 0) decode
          ((a :: (inner ++ [y, x])).map (·.chunkSize)) (itemSize s.dataType) (t :: (i ++ [py, px])) =
        some (match calls.flatten[t * prod (inner.map (·.arraySize)) + ravel (inner.map (·.arraySize)) i]? with
          | some f => pixelOf f x.arraySize (itemSize s.dataType) py px
          | none => List.replicate (itemSize s.dataType) 0)) ∧
      ∀ (g : Nat) (l : List Nat) (raw : Bytes),
        fileInStore w cfg (levelDir root 0 ++ chunkKey (g :: l)) tr = some raw →
        ∃ chunk, env.compress ⟨codecName q.codec, q.level, q.shuffle⟩ (itemSize s.dataType) chunk = some raw ∧
          chunk.length = prod ((a :: (inner ++ [y, x])).map (·.chunkSize)) * itemSize s.dataType ∧
          ∀ o, InBounds ((a :: (inner ++ [y, x])).map (·.chunkSize)) o →
            ¬ Acquired (inner.map (·.arraySize)) y.arraySize x.arraySize calls.flatten.length
              (globalCoord ((a :: (inner ++ [y, x])).map (·.chunkSize)) (g :: l) o) →
            slice chunk (ravel ((a :: (inner ++ [y, x])).map (·.chunkSize)) o * itemSize s.dataType)
              (itemSize s.dataType) = List.replicate (itemSize s.dataType) 0 := by
  have hde : Decodes env s decode := by unfold Decodes; rw [hcomp]; exact hdec
  obtain ⟨st, tr, h1, h2, h3⟩ := v2_read h hE hV hd hr hfr hde hn hf
  obtain ⟨st', tr', k1, _, k3⟩ := v2_fill h hE hV hd hr hfr hde hn hf
  rw [h1] at k1
  cases k1
  refine ⟨st, tr, h1, h2, h3, ?_⟩
  intro g l raw hraw
  obtain ⟨ch, _, k4, k5, k6⟩ := k3 g l raw hraw
  exact ⟨ch, k5 q hcomp, k4, k6⟩

end

/-! The hypotheses hold for the ragged sample dataset with three pyramid levels. -/

theorem Sample.storageOk {s : Settings} : StorageOk Sample.env s :=
  ⟨fun _ => rfl, fun _ => rfl, fun _ _ _ => rfl, fun _ => rfl, fun _ _ _ _ => rfl⟩

theorem Sample.setup : ∃ cfgs, Setup Sample.world 9 Sample.settings Sample.cfg cfgs ∧ cfgs.length = 3 :=
  ⟨_, ⟨rfl, rfl, rfl, rfl, by decide, fun _ => by decide⟩, rfl⟩

theorem Sample.setupZ : ∃ cfgs, Setup Sample.world 9 Sample.settingsZ
    { Sample.cfg with compression := some ⟨"zstd".toList, 5, 1⟩ } cfgs :=
  ⟨_, ⟨rfl, rfl, rfl, rfl, by decide, fun _ => by decide⟩⟩

theorem Sample.storedAt : StoredAt Sample.settings "/tmp/a.zarr".toList :=
  ⟨rfl, _, rfl, .inr (by decide)⟩

theorem Sample.fresh : Fresh Sample.world Sample.settings "/tmp/a.zarr".toList :=
  .inl ⟨_, rfl, by decide⟩

/-- Eleven frames in three calls; the pixel (4, 6) of frame 10 (time 3, channel 1) reads back. -/
example : ∃ st ns tr, runStream Sample.world Sample.env 9 Sample.settings (Sample.calls.map List.flatten) =
        some (.ok (st, ns, tr)) ∧
      readV2 (fun p => fileInStore Sample.world Sample.cfg p tr) "/tmp/a.zarr/0/".toList some [2, 2, 2, 3] 2
        [3, 1, 4, 6] = some [UInt8.ofNat (68 * 3 + 10), UInt8.ofNat (69 * 3 + 10)] := by
  obtain ⟨cfgs, h, _⟩ := Sample.setup
  obtain ⟨st, tr, h1, _, h3⟩ := v2_pixel_reads_back (calls := Sample.calls) h Sample.storageOk rfl rfl
    (a := Sample.dimT) (inner := [Sample.dimC]) (y := Sample.dimY) (x := Sample.dimX) rfl Sample.storedAt Sample.fresh
    (by decide) Sample.calls_sized
  exact ⟨st, _, tr, h1, h3 3 [1] 4 6 (Sample.frame 10) (by decide) (by decide) (by decide) rfl⟩

/-- A decoder for the sample compression. -/
example : ∀ b out, Sample.env.compress ⟨codecName 2, 5, 1⟩ (itemSize 1) b = some out → out.tail? = some b := by
  intro b out h
  simp [Sample.env] at h
  subst h
  rfl

end AZ
