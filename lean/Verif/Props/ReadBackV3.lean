import Verif.Lemmas.SessionV3
import Verif.Lemmas.ReadV3
import Verif.Props.ReadBackV2

set_option linter.unusedSimpArgs false

/-!
# C04: reading back a Zarr V3 dataset through the shard index

The reader is `Spec.readV3`. The general theorem `v3_read_exact` says exactly what it sees for every append
shard size; the property holds when the append dimension has one chunk per shard and fails otherwise.
-/

namespace AZ
open Spec

/-- Chunk prefix of level `i` of a V3 dataset. -/
def levelDirV3 (root : Text) (i : Nat) : Text := root ++ '/' :: ("data/root/".toList ++ decimal i ++ "/c".toList)

section
variable {w : World} {env : Env} {fuel : Nat} {s : Settings} {cfg : WConfig} {cfgs : List WConfig}
  {a y x : DimProps} {inner : List DimProps} {root : Text} {calls : List (List Bytes)}

theorem levelDirV3_eq {c : WConfig} (h : Setup w fuel s cfg cfgs) (hr : StoredAt s root) {i : Nat}
    (hc : cfgs[i]? = some c) : arrayDirV3 c = levelDirV3 root i := by
  obtain ⟨h1, h2⟩ := levelConfigs_inherits h.levels hc
  unfold arrayDirV3 levelDirV3
  rw [storeAt_base (hr.storeAt h.commit h1.same), h2, (commit_fields h.commit).1, Nat.zero_add]
  rw [List.append_assoc, List.singleton_append]

theorem level_shard (h : Setup w fuel s cfg cfgs) (hr : StoredAt s root) (hfr : Fresh w s root)
    {frames : List Bytes} {tr : List Ev} (hs : SessionV3 env cfg cfgs frames tr) (hV : s.version = 3)
    {i : Nat} {c : WConfig} (hc : cfgs[i]? = some c) (g : Nat) (l : List Nat) :
    fileInStore w cfg (levelDirV3 root i ++ chunkKey (g :: l)) tr =
      fileAfter (levelDirV3 root i ++ chunkKey (g :: l))
      (runEventsV3 env c (framesOfLevel cfg i frames).flatten (framesOfLevel cfg i frames).length) := by
  have hv := h.versionV3 hV c (List.mem_of_getElem? hc)
  have ho : Owned c (levelDirV3 root i ++ chunkKey (g :: l)) := by
    right
    exact ⟨g, l, by rw [objectPath_keyV3 hv, levelDirV3_eq h hr hc]⟩
  have e : levelDirV3 root i ++ chunkKey (g :: l) = root ++ '/' :: (("data/root/".toList ++ decimal i ++ "/c".toList) ++
      chunkKey (g :: l)) := by
    unfold levelDirV3
    rw [List.append_assoc, List.cons_append]
  rw [e] at ho ⊢
  rw [fileInStore_fresh h.commit hfr]
  exact fileAfter_about (hs.level i c hc _ ho)

theorem logical_is_pixel {c : WConfig} (hv : c.dims.Valid) (hf : c.dims.Room) {frames : List Bytes}
    (hff : ∀ f ∈ frames, f.length = c.dims.frameBytes) {t : Nat} {i : List Nat} {py px : Nat}
    (hi : InBounds (aShape c.dims.inner) i) (hpy : py < c.dims.height.arraySize) (hpx : px < c.dims.width.arraySize) :
    ((List.range c.dims.dtype.bytes).map fun sb => logicalByte (aShape c.dims.tailDims) c.dims.dtype.bytes
      frames.flatten (t :: (i ++ [py, px])) sb) =
    match frames[t * prod (aShape c.dims.inner) + ravel (aShape c.dims.inner) i]? with
      | some f => pixelOf f c.dims.width.arraySize c.dims.dtype.bytes py px
      | none => List.replicate c.dims.dtype.bytes 0 := by
  have hbyte := fun sb hsb => logicalByte_frame hv hf hff (t := t) hi hpy hpx (s := sb) hsb
  cases hfr' : frames[t * prod (aShape c.dims.inner) + ravel (aShape c.dims.inner) i]? with
  | none =>
    dsimp only
    apply List.ext_getElem (by simp)
    intro k k1 k2
    simp only [List.getElem_map, List.getElem_range, List.getElem_replicate]
    simp at k2
    rw [hbyte k k2, hfr']
  | some f =>
    dsimp only
    have hfl := hff f (List.mem_of_getElem? hfr')
    unfold pixelOf
    rw [slice_eq_map (by rw [hfl]; exact pixel_fits hpy hpx)]
    apply List.map_congr_left
    intro k hk
    have hk := List.mem_range.1 hk
    rw [hbyte k hk, hfr']

/-- What a reader sees of any level of a completed V3 session, wherever the objects are (`file`, under `dir`). -/
theorem v3_level_read_from (h : Setup w fuel s cfg cfgs) (h3 : cfg.dims.FitsV3) (hE : StorageOk env s)
    (ho : SmallOverhead env) (hV : s.version = 3)
    {decode : Bytes → Option Bytes} (hdec : Decodes env s decode) (hit : cfg.dims.dtype.bytes = itemSize s.dataType)
    {frames : List Bytes} {tr : List Ev}
    (hs : SessionV3 env cfg cfgs frames tr) {lv : Nat} {c : WConfig} (hc : cfgs[lv]? = some c)
    {file : Text → Option Bytes} {dir : Text} (hdir : arrayDirV3 c = dir)
    (hfile : ∀ g l, file (dir ++ chunkKey (g :: l)) = fileAfter (dir ++ chunkKey (g :: l))
      (runEventsV3 env c (framesOfLevel cfg lv frames).flatten (framesOfLevel cfg lv frames).length))
    {t : Nat} {i : List Nat} {py px : Nat} (hi : InBounds (aShape c.dims.inner) i)
    (hpy : py < c.dims.height.arraySize) (hpx : px < c.dims.width.arraySize)
    (hend : (t / c.dims.append.chunkSize / c.dims.append.shardSize + 1) * c.dims.append.shardSize ≤
        groups c (framesOfLevel cfg lv frames).length ∨
      (framesOfLevel cfg lv frames).length % c.dims.framesPerChunk ≠ 0 ∨
      groups c (framesOfLevel cfg lv frames).length ≤
        t / c.dims.append.chunkSize / c.dims.append.shardSize * c.dims.append.shardSize) :
    readV3 file dir decode
      (cShape c.dims.toList) (kShape c.dims.toList) c.dims.dtype.bytes (t :: (i ++ [py, px])) =
    some (if t / c.dims.append.chunkSize % c.dims.append.shardSize = 0 then
      (match (framesOfLevel cfg lv frames)[shownT c (framesOfLevel cfg lv frames).length t *
          prod (aShape c.dims.inner) + ravel (aShape c.dims.inner) i]? with
        | some f => pixelOf f c.dims.width.arraySize c.dims.dtype.bytes py px
        | none => List.replicate c.dims.dtype.bytes 0)
      else List.replicate c.dims.dtype.bytes 0) := by
  obtain ⟨hv, hfit⟩ := h.levelDims.1 c (List.mem_of_getElem? hc)
  have hff := hs.sizes lv c hc
  have hin := (levelConfigs_inherits h.levels hc).1
  have hread := readV3_run ho (h.versionV3 hV c (List.mem_of_getElem? hc)) hv hfit
    (h.levelFitsV3 h3 c (List.mem_of_getElem? hc))
    (framesOfLevel cfg lv frames).flatten (framesOfLevel cfg lv frames).length (flatten_length_const hff)
    (file := file)
    (by
      rintro p ⟨g, l, rfl⟩
      rw [hdir]
      exact hfile g l)
    (decode := decode) (fun b hb => hdec.stored hE h hin hit b (by rw [hb]; exact h.chunk_le (List.mem_of_getElem? hc)))
    (t := t) (y := i ++ [py, px]) (by
      unfold ArrayDims.tailDims
      rw [aShape_append]
      exact (inBounds_append _ _ hi.length).2 ⟨hi, hpy, hpx, trivial⟩) hend
  rw [hdir] at hread
  rw [hread]
  congr 1
  by_cases hz : t / c.dims.append.chunkSize % c.dims.append.shardSize = 0
  · simp only [if_pos hz]
    exact logical_is_pixel hv hfit hff hi hpy hpx
  · simp only [if_neg hz]
    simp [List.map_const']

/-- What a reader sees of any level of a completed V3 session. -/
theorem v3_level_read (h : Setup w fuel s cfg cfgs) (h3 : cfg.dims.FitsV3) (hE : StorageOk env s)
    (ho : SmallOverhead env) (hV : s.version = 3) (hr : StoredAt s root) (hfr : Fresh w s root)
    {decode : Bytes → Option Bytes} (hdec : Decodes env s decode) (hit : cfg.dims.dtype.bytes = itemSize s.dataType)
    {frames : List Bytes} {tr : List Ev}
    (hs : SessionV3 env cfg cfgs frames tr) {lv : Nat} {c : WConfig} (hc : cfgs[lv]? = some c)
    {t : Nat} {i : List Nat} {py px : Nat} (hi : InBounds (aShape c.dims.inner) i)
    (hpy : py < c.dims.height.arraySize) (hpx : px < c.dims.width.arraySize)
    (hend : (t / c.dims.append.chunkSize / c.dims.append.shardSize + 1) * c.dims.append.shardSize ≤
        groups c (framesOfLevel cfg lv frames).length ∨
      (framesOfLevel cfg lv frames).length % c.dims.framesPerChunk ≠ 0 ∨
      groups c (framesOfLevel cfg lv frames).length ≤
        t / c.dims.append.chunkSize / c.dims.append.shardSize * c.dims.append.shardSize) :
    readV3 (fun p => fileInStore w cfg p tr) (levelDirV3 root lv) decode
      (cShape c.dims.toList) (kShape c.dims.toList) c.dims.dtype.bytes (t :: (i ++ [py, px])) =
    some (if t / c.dims.append.chunkSize % c.dims.append.shardSize = 0 then
      (match (framesOfLevel cfg lv frames)[shownT c (framesOfLevel cfg lv frames).length t *
          prod (aShape c.dims.inner) + ravel (aShape c.dims.inner) i]? with
        | some f => pixelOf f c.dims.width.arraySize c.dims.dtype.bytes py px
        | none => List.replicate c.dims.dtype.bytes 0)
      else List.replicate c.dims.dtype.bytes 0) :=
  v3_level_read_from h h3 hE ho hV hdec hit hs hc (levelDirV3_eq h hr hc)
    (fun g l => level_shard h hr hfr hs hV hc g l) hi hpy hpx hend

end

/-- Frames per append chunk and number of append chunks covering `n` frames, from the settings. -/
def framesPer (a : DimProps) (inner : List DimProps) : Nat := a.chunkSize * prod (inner.map (·.arraySize))
def chunksFor (a : DimProps) (inner : List DimProps) (n : Nat) : Nat := ceilDiv n (framesPer a inner)

section
variable {w : World} {env : Env} {fuel : Nat} {s : Settings} {cfg : WConfig} {cfgs : List WConfig}
  {a y x : DimProps} {inner : List DimProps} {root : Text} {calls : List (List Bytes)}

/-- The shard sizes of the configuration are those of the settings. -/
theorem shards_of (hc : commitSettings s = .ok cfg) (hd : s.dimensions = some (a :: (inner ++ [y, x]))) :
    kShape cfg.dims.toList = (a :: (inner ++ [y, x])).map (·.shardSize) ∧
      cfg.dims.append.shardSize = a.shardSize := by
  obtain ⟨cfg', h1, h2⟩ := commit_dims hd
  rw [hc] at h1
  cases h1
  constructor
  · rw [h2]; simp [kShape, ArrayDims.toList, DimProps.toDim]
  · rw [h2]; rfl

/-- What a reader of a completed V3 session sees, for any append shard size, in every shard that has an index
(every shard followed by another one, complete, or unfinished in the middle of a chunk): a layer that is not the
first of its shard reads as zeros, the first one shows the frames of the last layer of the shard. -/
theorem v3_read_exact (h : Setup w fuel s cfg cfgs) (h3 : cfg.dims.FitsV3) (hE : StorageOk env s)
    (ho : SmallOverhead env) (hV : s.version = 3)
    (hd : s.dimensions = some (a :: (inner ++ [y, x]))) (hr : StoredAt s root) (hfr : Fresh w s root)
    {decode : Bytes → Option Bytes} (hdec : Decodes env s decode)
    (hn : calls.flatten.length < 2 ^ 32)
    (hf : ∀ c ∈ calls, ∀ f ∈ c, f.length = y.arraySize * x.arraySize * itemSize s.dataType) :
    ∃ st tr, runStream w env fuel s (calls.map List.flatten) =
        some (.ok (st, calls.map (fun c => c.flatten.length), tr)) ∧ st.error = [] ∧
      ∀ (t : Nat) (i : List Nat) (py px : Nat), InBounds (inner.map (·.arraySize)) i → py < y.arraySize →
        px < x.arraySize → ∀ (g G layers : Nat), g = t / a.chunkSize → G = g / a.shardSize →
        layers = min a.shardSize (chunksFor a inner calls.flatten.length - G * a.shardSize) →
        ((G + 1) * a.shardSize ≤ chunksFor a inner calls.flatten.length ∨
          calls.flatten.length % framesPer a inner ≠ 0 ∨
          chunksFor a inner calls.flatten.length ≤ G * a.shardSize) →
        readV3 (fun p => fileInStore w cfg p tr) (levelDirV3 root 0) decode
          ((a :: (inner ++ [y, x])).map (·.chunkSize)) ((a :: (inner ++ [y, x])).map (·.shardSize))
          (itemSize s.dataType) (t :: (i ++ [py, px])) =
        some (if g % a.shardSize = 0 then
          (match calls.flatten[((g + (layers - 1)) * a.chunkSize + t % a.chunkSize) * prod (inner.map (·.arraySize)) +
              ravel (inner.map (·.arraySize)) i]? with
            | some f => pixelOf f x.arraySize (itemSize s.dataType) py px
            | none => List.replicate (itemSize s.dataType) 0)
          else List.replicate (itemSize s.dataType) 0) := by
  have hD := dimsOf h.valid h.commit hd
  obtain ⟨hK, hka⟩ := shards_of h.commit hd
  obtain ⟨rest, hrest⟩ := levelConfigs_head h.levels
  have h0 : cfgs[0]? = some cfg := by rw [hrest]; rfl
  rw [← hD.frame] at hf
  obtain ⟨st, tr, k1, k2, k3⟩ := session_v3 h h3 hE ho hV hn hf
  refine ⟨st, tr, k1, k2, ?_⟩
  intro t i py px hi hpy hpx g G layers hg hG hl hend
  have hgr : ∀ m, groups cfg m = chunksFor a inner m := by
    intro m; unfold groups chunksFor framesPer; rw [hD.perChunk]
  have hread := v3_level_read h h3 hE ho hV hr hfr hdec hD.item k3 h0 (t := t) (i := i) (py := py) (px := px)
    (by rw [hD.innerSizes]; exact hi) (by rw [hD.height]; exact hpy) (by rw [hD.width]; exact hpx)
    (by
      rw [framesOfLevel_zero, hka, hD.append, hgr, hD.perChunk, ← hg, ← hG]
      exact hend)
  have hsh : shownT cfg calls.flatten.length t = (g + (layers - 1)) * a.chunkSize + t % a.chunkSize := by
    unfold shownT layersIn
    rw [hgr, hka, hD.append, ← hg, ← hG, ← hl]
  rw [framesOfLevel_zero, hK, hD.chunks, hD.item, hka, hD.append, hsh, hD.innerSizes, hD.width, ← hg] at hread
  exact hread

/-- **C04**, one append chunk per shard (missing: append shard sizes above 1, for which the property is false,
see `v3_append_shards_violated`). Every element reads back: the pixel of the frame appended for it, zeros if there
is none. The shard sizes of the other dimensions, the compression and the number of frames are arbitrary. -/
theorem v3_pixels_read_back_partial (h : Setup w fuel s cfg cfgs) (h3 : cfg.dims.FitsV3) (hE : StorageOk env s)
    (ho : SmallOverhead env) (hV : s.version = 3)
    (hd : s.dimensions = some (a :: (inner ++ [y, x]))) (hr : StoredAt s root) (hfr : Fresh w s root)
    {decode : Bytes → Option Bytes} (hdec : Decodes env s decode)
    (hn : calls.flatten.length < 2 ^ 32)
    (hf : ∀ c ∈ calls, ∀ f ∈ c, f.length = y.arraySize * x.arraySize * itemSize s.dataType)
    (hone : a.shardSize = 1) :
    ∃ st tr, runStream w env fuel s (calls.map List.flatten) =
        some (.ok (st, calls.map (fun c => c.flatten.length), tr)) ∧ st.error = [] ∧
      ∀ (t : Nat) (i : List Nat) (py px : Nat), InBounds (inner.map (·.arraySize)) i → py < y.arraySize →
        px < x.arraySize →
        readV3 (fun p => fileInStore w cfg p tr) (levelDirV3 root 0) decode
          ((a :: (inner ++ [y, x])).map (·.chunkSize)) ((a :: (inner ++ [y, x])).map (·.shardSize))
          (itemSize s.dataType) (t :: (i ++ [py, px])) =
        some (match calls.flatten[t * prod (inner.map (·.arraySize)) + ravel (inner.map (·.arraySize)) i]? with
            | some f => pixelOf f x.arraySize (itemSize s.dataType) py px
            | none => List.replicate (itemSize s.dataType) 0) := by
  obtain ⟨st, tr, k1, k2, k3⟩ := v3_read_exact h h3 hE ho hV hd hr hfr hdec hn hf
  refine ⟨st, tr, k1, k2, ?_⟩
  intro t i py px hi hpy hpx
  rw [k3 t i py px hi hpy hpx _ _ _ rfl rfl rfl (by
    rw [hone, Nat.div_one]
    generalize chunksFor a inner calls.flatten.length = n
    generalize t / a.chunkSize = g
    omega)]
  have hm : t / a.chunkSize % a.shardSize = 0 := by rw [hone]; exact Nat.mod_one _
  rw [if_pos hm]
  have e : (t / a.chunkSize + (min a.shardSize (chunksFor a inner calls.flatten.length -
      t / a.chunkSize / a.shardSize * a.shardSize) - 1)) * a.chunkSize + t % a.chunkSize = t := by
    have : min a.shardSize (chunksFor a inner calls.flatten.length -
      t / a.chunkSize / a.shardSize * a.shardSize) - 1 = 0 := by rw [hone]; omega
    rw [this, Nat.add_zero, Nat.mul_comm]
    exact Nat.div_add_mod ..
  rw [e]

/-- With several append chunks per shard, every layer but the first of its shard is lost: once the shard is complete,
its elements read as zeros whatever was appended, for every session. -/
theorem v3_append_shards_lose_layers (h : Setup w fuel s cfg cfgs) (h3 : cfg.dims.FitsV3) (hE : StorageOk env s)
    (ho : SmallOverhead env) (hV : s.version = 3)
    (hd : s.dimensions = some (a :: (inner ++ [y, x]))) (hr : StoredAt s root) (hfr : Fresh w s root)
    {decode : Bytes → Option Bytes} (hdec : Decodes env s decode)
    (hn : calls.flatten.length < 2 ^ 32)
    (hf : ∀ c ∈ calls, ∀ f ∈ c, f.length = y.arraySize * x.arraySize * itemSize s.dataType) :
    ∃ st tr, runStream w env fuel s (calls.map List.flatten) =
        some (.ok (st, calls.map (fun c => c.flatten.length), tr)) ∧ st.error = [] ∧
      ∀ (t : Nat) (i : List Nat) (py px : Nat), InBounds (inner.map (·.arraySize)) i → py < y.arraySize →
        px < x.arraySize → t / a.chunkSize % a.shardSize ≠ 0 →
        (t / a.chunkSize / a.shardSize + 1) * a.shardSize ≤ chunksFor a inner calls.flatten.length →
        readV3 (fun p => fileInStore w cfg p tr) (levelDirV3 root 0) decode
          ((a :: (inner ++ [y, x])).map (·.chunkSize)) ((a :: (inner ++ [y, x])).map (·.shardSize))
          (itemSize s.dataType) (t :: (i ++ [py, px])) = some (List.replicate (itemSize s.dataType) 0) := by
  obtain ⟨st, tr, k1, k2, k3⟩ := v3_read_exact h h3 hE ho hV hd hr hfr hdec hn hf
  refine ⟨st, tr, k1, k2, ?_⟩
  intro t i py px hi hpy hpx ht hG
  rw [k3 t i py px hi hpy hpx _ _ _ rfl rfl rfl (.inl hG), if_neg ht]

end

/-! The hypotheses hold for the sample (V3, shards of 1×2×3×1 chunks), and the property fails when the append
dimension has two chunks per shard. -/

theorem Sample.overhead : SmallOverhead Sample.env := by
  intro q n b out h
  simp [Sample.env] at h
  subst h
  simp

def Sample.cfg3 : WConfig := { Sample.cfg with version := .v3 }

theorem Sample.setup3 : Setup Sample.world 9 Sample.settings3 Sample.cfg3 [Sample.cfg3] :=
  ⟨rfl, rfl, rfl, rfl, by decide, fun h => by cases h⟩

theorem Sample.fitsV3 : Sample.cfg3.dims.FitsV3 := by decide

theorem Sample.storedAt3 : StoredAt Sample.settings3 "/tmp/a.zarr".toList := ⟨rfl, _, rfl, .inr (by decide)⟩

theorem Sample.fresh3 : Fresh Sample.world Sample.settings3 "/tmp/a.zarr".toList := .inl ⟨_, rfl, by decide⟩

/-- Eleven frames in three calls; pixel (4, 6) of frame 10 reads back through the shard index. -/
example : ∃ st ns tr, runStream Sample.world Sample.env 9 Sample.settings3 (Sample.calls.map List.flatten) =
        some (.ok (st, ns, tr)) ∧
      readV3 (fun p => fileInStore Sample.world Sample.cfg3 p tr) "/tmp/a.zarr/data/root/0/c".toList some [2, 2, 2, 3]
        [1, 2, 3, 1] 2 [3, 1, 4, 6] = some [UInt8.ofNat (68 * 3 + 10), UInt8.ofNat (69 * 3 + 10)] := by
  obtain ⟨st, tr, h1, _, h3⟩ := v3_pixels_read_back_partial (calls := Sample.calls) Sample.setup3 Sample.fitsV3
    Sample.storageOk Sample.overhead rfl
    (a := Sample.dimT) (inner := [Sample.dimC]) (y := Sample.dimY) (x := Sample.dimX) rfl Sample.storedAt3 Sample.fresh3
    (decode := some) (fun _ => rfl) (by decide) Sample.calls_sized rfl
  exact ⟨st, _, tr, h1, h3 3 [1] 4 6 (by decide) (by decide) (by decide)⟩

/-- The same settings with two append chunks per shard. -/
def Sample.dimT2 : DimProps := { Sample.dimT with shardSize := 2 }

def Sample.settings32 : Settings := { Sample.settings3 with
  dimensions := some [Sample.dimT2, Sample.dimC, Sample.dimY, Sample.dimX] }

def Sample.cfg32 : WConfig := { Sample.cfg3 with
  dims := { Sample.dims with
    append := ⟨"t", .time, 0, 2, 2⟩ } }

theorem Sample.setup32 : Setup Sample.world 9 Sample.settings32 Sample.cfg32 [Sample.cfg32] :=
  ⟨rfl, rfl, rfl, rfl, by decide, fun h => by cases h⟩

/-- Twelve frames: two append chunks, one complete shard. -/
def Sample.calls12 : List (List Bytes) := [(List.range 12).map Sample.frame]

/-- **C04 is false of the code** when the append dimension has more than one chunk per shard: an accepted session
without errors after which pixel (0, 0) of frame 6 (time 2, channel 0), appended as a nonzero value, reads as zero,
and that of frame 0 (time 0) reads as the one of frame 6. -/
theorem v3_append_shards_violated :
    ∃ st ns tr, runStream Sample.world Sample.env 9 Sample.settings32 (Sample.calls12.map List.flatten) =
        some (.ok (st, ns, tr)) ∧ st.error = [] ∧
      pixelOf (Sample.frame 6) 7 2 0 0 = [6, 9] ∧
      readV3 (fun p => fileInStore Sample.world Sample.cfg32 p tr) "/tmp/a.zarr/data/root/0/c".toList some [2, 2, 2, 3]
        [2, 2, 3, 1] 2 [2, 0, 0, 0] = some [0, 0] ∧
      pixelOf (Sample.frame 0) 7 2 0 0 = [0, 3] ∧
      readV3 (fun p => fileInStore Sample.world Sample.cfg32 p tr) "/tmp/a.zarr/data/root/0/c".toList some [2, 2, 2, 3]
        [2, 2, 3, 1] 2 [0, 0, 0, 0] = some [6, 9] := by
  obtain ⟨st, tr, h1, h2, h3⟩ := v3_read_exact (calls := Sample.calls12) Sample.setup32 (by decide)
    Sample.storageOk Sample.overhead rfl
    (a := Sample.dimT2) (inner := [Sample.dimC]) (y := Sample.dimY) (x := Sample.dimX) rfl
    (root := "/tmp/a.zarr".toList) ⟨rfl, _, rfl, .inr (by decide)⟩ (.inl ⟨_, rfl, by decide⟩)
    (decode := some) (fun _ => rfl) (by decide) (by
      intro c hc f hf
      rw [Sample.calls12, List.mem_singleton] at hc
      subst hc
      obtain ⟨k, _, rfl⟩ := List.mem_map.1 hf
      exact Sample.frame_length k)
  refine ⟨st, _, tr, h1, h2, by decide, ?_, by decide, ?_⟩
  · exact h3 2 [0] 0 0 (by decide) (by decide) (by decide) 1 0 2 rfl rfl rfl (.inl (by decide))
  · exact h3 0 [0] 0 0 (by decide) (by decide) (by decide) 0 0 2 rfl rfl rfl (.inl (by decide))

end AZ
