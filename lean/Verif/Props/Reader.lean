import Verif.Lemmas.Reader
import Verif.Props.StreamFiles
import Verif.Props.PyramidV3
import Verif.Props.PyramidWide
import Verif.Props.ObjectsV3

set_option linter.unusedSimpArgs false

/-!
# C80, C81, C82: finished datasets describe themselves

The other read-back theorems hand the reader the chunk sizes, data type and compression of the settings. Here the reader of
`Spec.Reader` knows nothing but the files.
-/

namespace AZ
open Spec

/-- `unblosc` inverts Blosc with the configured parameters, on buffers up to the size of a chunk. -/
def Unblosc (env : Env) (s : Settings) (unblosc : Bytes → Option Bytes) : Prop :=
  ∀ c, s.compression = some c → ∀ b out, b.length ≤ fullChunk s →
    env.compress ⟨codecName c.codec, c.level, c.shuffle⟩ (itemSize s.dataType) b = some out → unblosc out = some b

/-- The bytes of a level with frames `fs`: the frames in order, then zeros up to the end of the array. -/
def paddedTo (n : Nat) (fs : List Bytes) : Bytes := fs.flatten ++ List.replicate (n - fs.flatten.length) 0

/-- What the array document of level `i` must tell a reader, if the level received `n` frames. -/
def infoOf (s : Settings) (a : DimProps) (rest : List DimProps) (inner : List DimProps) (i n : Nat) : ArrayInfo where
  shape := ceilDiv n (prod (sizesAt i inner)) :: sizesAt i rest
  chunks := chunksAt i (a :: rest)
  shards := if s.version = 2 then [] else shardsAt i (a :: rest)
  kind := kindOf s.dataType
  itemSize := itemSize s.dataType
  blosc := s.compression.isSome

theorem decodes_of {env : Env} {s : Settings} {unblosc : Bytes → Option Bytes} (h : Unblosc env s unblosc) {info : ArrayInfo}
    (hi : info.blosc = s.compression.isSome) : Decodes env s (info.decoder unblosc) := by
  unfold Decodes ArrayInfo.decoder
  rw [hi]
  cases hc : s.compression with
  | none => intro b; rfl
  | some c => exact h c hc

section
variable {w : World} {env : Env} {fuel : Nat} {s : Settings} {cfg : WConfig} {cfgs : List WConfig}
  {a y x : DimProps} {inner : List DimProps} {root : Text} {calls : List (List Bytes)} {tr : List Ev}

theorem codecSetting_isSome (s : Settings) : (codecSetting s).isSome = s.compression.isSome := by
  unfold codecSetting; rw [Option.isSome_map]

/-- A level's frames fill at most the steps that its document declares. -/
theorem level_room (h : Setup w fuel s cfg cfgs) (hz : SizesInRange s) (hd : s.dimensions = some (a :: (inner ++ [y, x])))
    {i : Nat} {c : WConfig} (hc : cfgs[i]? = some c) {fs : List Bytes} (hff : ∀ f ∈ fs, f.length = c.dims.frameBytes) :
    fs.flatten.length ≤ prod (ceilDiv fs.length (prod (sizesAt i inner)) :: sizesAt i (inner ++ [y, x])) * itemSize s.dataType := by
  have hL := h.levelShape hz hd hc
  have hit := level_item h.valid hL
  obtain ⟨hv, hfit⟩ := h.levelDims.1 c (List.mem_of_getElem? hc)
  rw [flatten_length_const hff]
  have hfb : c.dims.frameBytes = levelSize y.isChannel y.arraySize i * levelSize x.isChannel x.arraySize i *
      itemSize s.dataType := by
    unfold ArrayDims.frameBytes; rw [hit, hL.height, hL.width]
  have hp : prod (sizesAt i (inner ++ [y, x])) =
      prod (sizesAt i inner) * (levelSize y.isChannel y.arraySize i * levelSize x.isChannel x.arraySize i) := by
    unfold sizesAt
    rw [List.map_append, prod_append]
    simp [prod]
  have hpos : 0 < prod (sizesAt i inner) := by
    rw [← hL.innerSizes]
    exact prodA_pos (ArrayDims.innerOk hv hfit)
  show _ ≤ ceilDiv fs.length (prod (sizesAt i inner)) * prod (sizesAt i (inner ++ [y, x])) * _
  rw [hp, hfb]
  have h1 : fs.length ≤ ceilDiv fs.length (prod (sizesAt i inner)) * prod (sizesAt i inner) := (ceilDiv_least hpos).1 (Nat.le_refl _)
  calc fs.length * (levelSize y.isChannel y.arraySize i * levelSize x.isChannel x.arraySize i * itemSize s.dataType)
      ≤ ceilDiv fs.length (prod (sizesAt i inner)) * prod (sizesAt i inner) *
        (levelSize y.isChannel y.arraySize i * levelSize x.isChannel x.arraySize i * itemSize s.dataType) := Nat.mul_le_mul_right _ h1
    _ = _ := by simp only [Nat.mul_assoc]

/-- Any element of a level of a V2 array, as bytes of the level's frames, for a reader of chunk files as the array writer leaves them. -/
theorem v2_level_bytes_from (h : Setup w fuel s cfg cfgs) (hz : SizesInRange s) (hE : StorageOk env s) (hV : s.version = 2)
    (hd : s.dimensions = some (a :: (inner ++ [y, x])))
    {decode : Bytes → Option Bytes} (hdec : Decodes env s decode) {fs : List Bytes}
    {lv : Nat} {c : WConfig} (hc : cfgs[lv]? = some c) (hff : ∀ f ∈ fs, f.length = c.dims.frameBytes)
    {file : Text → Option Bytes} (hdir : arrayDirV2 c = levelDir root lv)
    (hfile : ∀ g l, file (levelDir root lv ++ chunkKey (g :: l)) = fileAfter (levelDir root lv ++ chunkKey (g :: l))
      (runEventsV2 env c fs.flatten fs.length))
    {t : Nat} {z : List Nat} (hi : InBounds (sizesAt lv (inner ++ [y, x])) z) :
    readV2 file (levelDir root lv) decode
      (chunksAt lv (a :: (inner ++ [y, x]))) (itemSize s.dataType) (t :: z) =
    some ((List.range (itemSize s.dataType)).map fun sb => logicalByte (sizesAt lv (inner ++ [y, x])) (itemSize s.dataType)
      fs.flatten (t :: z) sb) := by
  have hL := h.levelShape hz hd hc
  have hit := level_item h.valid hL
  obtain ⟨hv, hfit⟩ := h.levelDims.1 c (List.mem_of_getElem? hc)
  have hin := (levelConfigs_inherits h.levels hc).1
  have hD := dimsOf h.valid h.commit hd
  have hread := readV2_run env (h.versionV2 hV c (List.mem_of_getElem? hc)) hv hfit
    fs.flatten fs.length (flatten_length_const hff)
    (file := file)
    (by
      rintro p ⟨g, l, rfl⟩
      rw [hdir]
      exact hfile g l)
    (decode := decode) (fun b hb => hdec.stored hE h hin hD.item b (by rw [hb]; exact h.chunk_le (List.mem_of_getElem? hc)))
    (t := t) (y := z) (by rw [hL.tail]; exact hi)
  rw [hdir, hL.chunks, hit, hL.tail] at hread
  exact hread

theorem inBounds_split {s1 : List Nat} {h w : Nat} {z : List Nat} (hz : InBounds (s1 ++ [h, w]) z) :
    ∃ i py px, z = i ++ [py, px] ∧ InBounds s1 i ∧ py < h ∧ px < w := by
  induction s1 generalizing z with
  | nil =>
    match z, hz with
    | [py, px], hz => exact ⟨[], py, px, rfl, trivial, hz.1, hz.2.1⟩
  | cons d s1 ih =>
    match z, hz with
    | j :: z, hz =>
      obtain ⟨i, py, px, e, h1, h2, h3⟩ := ih hz.2
      exact ⟨j :: i, py, px, by rw [e]; rfl, ⟨hz.1, h1⟩, h2, h3⟩

/-- Any element of a level of a V3 session with one append chunk per shard, as bytes of the level's frames. -/
theorem v3_level_bytes (h : Setup w fuel s cfg cfgs) (h3 : cfg.dims.FitsV3) (hz : SizesInRange s) (hE : StorageOk env s)
    (ho : SmallOverhead env) (hV : s.version = 3)
    (hd : s.dimensions = some (a :: (inner ++ [y, x]))) (hr : StoredAt s root) (hfr : Fresh w s root)
    {decode : Bytes → Option Bytes} (hdec : Decodes env s decode) {frames : List Bytes}
    (hs : SessionV3 env cfg cfgs frames tr) {lv : Nat} {c : WConfig} (hc : cfgs[lv]? = some c) (hone : shardAt lv a = 1)
    {t : Nat} {z : List Nat} (hi : InBounds (sizesAt lv (inner ++ [y, x])) z) :
    readV3 (fun p => fileInStore w cfg p tr) (levelDirV3 root lv) decode
      (chunksAt lv (a :: (inner ++ [y, x]))) (shardsAt lv (a :: (inner ++ [y, x]))) (itemSize s.dataType) (t :: z) =
    some ((List.range (itemSize s.dataType)).map fun sb => logicalByte (sizesAt lv (inner ++ [y, x])) (itemSize s.dataType)
      (framesOfLevel cfg lv frames).flatten (t :: z) sb) := by
  have hL := h.levelShape hz hd hc
  have hit := level_item h.valid hL
  obtain ⟨hv, hfit⟩ := h.levelDims.1 c (List.mem_of_getElem? hc)
  have hsz : sizesAt lv (inner ++ [y, x]) = sizesAt lv inner ++ [levelSize y.isChannel y.arraySize lv,
      levelSize x.isChannel x.arraySize lv] := by unfold sizesAt; simp
  have hi' := hi
  rw [hsz] at hi'
  obtain ⟨i, py, px, rfl, h1, h2, h4⟩ := inBounds_split hi'
  rw [v3_level_pixels h h3 hz hE ho hV hd hr hfr hdec hs hc hone h1 h2 h4]
  have := logical_is_pixel hv hfit (hs.sizes lv c hc) (t := t) (i := i) (py := py) (px := px) (by rw [hL.innerSizes]; exact h1)
    (by rw [hL.height]; exact h2) (by rw [hL.width]; exact h4)
  rw [hit, hL.tail, hL.innerSizes, hL.width] at this
  exact (congrArg some this.symm)

theorem zarray_path (root : Text) (i : Nat) : levelDir root i ++ ".zarray".toList = root ++ '/' :: arrayDocName 2 i := by
  unfold levelDir arrayDocName
  rw [if_pos rfl]
  have e : "/.zarray".toList = '/' :: ".zarray".toList := by decide
  rw [e]
  simp only [List.append_assoc, List.cons_append, List.nil_append]

theorem array_json_path (root : Text) (i : Nat) :
    root ++ "/meta/root/".toList ++ decimal i ++ ".array.json".toList = root ++ '/' :: arrayDocName 3 i := by
  unfold arrayDocName
  rw [if_neg (by decide)]
  have e : "/meta/root/".toList = '/' :: "meta/root/".toList := by decide
  rw [e]
  simp only [List.append_assoc, List.cons_append]

theorem data_path (root : Text) (i : Nat) :
    root ++ "/data/root/".toList ++ decimal i ++ "/c".toList = levelDirV3 root i := by
  unfold levelDirV3
  have e : "/data/root/".toList = '/' :: "data/root/".toList := by decide
  rw [e]
  simp only [List.append_assoc, List.cons_append]

/-- A reader opens level `i` of a finished V2 dataset. -/
theorem v2_opens {f : Text → Option Bytes} (h : Setup w fuel s cfg cfgs) (hV : s.version = 2) {i n : Nat} {b : Bytes} {v : JVal}
    (hb : f (root ++ '/' :: arrayDocName 2 i) = some b) (hv : JsonFile b v)
    (hl : LevelDoc s (a :: (inner ++ [y, x])) i (ceilDiv n (prod (sizesAt i inner))) v) :
    openV2 f (levelDir root i) = some (infoOf s a (inner ++ [y, x]) inner i n) := by
  unfold LevelDoc at hl
  rw [if_pos hV] at hl
  have := openV2_doc (file := f) (dir := levelDir root i) (by rw [zarray_path]; exact hb) hv hl
    (typeName_reads (validateSettings_ok h.valid).dtype).1
  rw [this, codecSetting_isSome]
  unfold infoOf
  rw [if_pos hV, List.tail_cons]

theorem v3_opens {f : Text → Option Bytes} (h : Setup w fuel s cfg cfgs) (hV : s.version = 3) {i n : Nat} {b : Bytes} {v : JVal}
    (hb : f (root ++ '/' :: arrayDocName 3 i) = some b) (hv : JsonFile b v)
    (hl : LevelDoc s (a :: (inner ++ [y, x])) i (ceilDiv n (prod (sizesAt i inner))) v) :
    openV3 f root (decimal i) = some (infoOf s a (inner ++ [y, x]) inner i n) := by
  have h2 : ¬ s.version = 2 := by rw [hV]; decide
  unfold LevelDoc at hl
  rw [if_neg h2] at hl
  have := openV3_doc (file := f) (root := root) (name := decimal i) (by rw [array_json_path]; exact hb) hv hl
    (typeName_reads (validateSettings_ok h.valid).dtype).2
  rw [this, codecSetting_isSome]
  unfold infoOf
  rw [if_neg h2, List.tail_cons]

theorem paths_declared (n : Nat) : (((List.range n).map (declaredLevel inner)).map fun d => d.1.toList) = (List.range n).map decimal := by
  rw [List.map_map]
  apply List.map_congr_left
  intro i _
  show (String.ofList (decimal i)).toList = decimal i
  rw [String.toList_ofList]

/-- A reader finds the names of all levels in the group documents of V2. -/
theorem v2_levels_from {file : Text → Option Bytes} {n : Nat} {b1 b2 : Bytes}
    (f1 : file (root ++ '/' :: ".zattrs".toList) = some b1) (k1 : StreamDoc w s (a :: (inner ++ [y, x])) inner n ".zattrs" b1)
    (f2 : file (root ++ '/' :: ".zgroup".toList) = some b2) (k2 : StreamDoc w s (a :: (inner ++ [y, x])) inner n ".zgroup" b2) :
    levelsV2 file root = some ((List.range n).map decimal) := by
  obtain ⟨v1, m, j1, k1, k2'⟩ := k1
  obtain ⟨v2, j2, k3⟩ := k2
  have e1 : jsonFile file (root ++ "/.zattrs".toList) = some v1 := by
    unfold jsonFile
    rw [show "/.zattrs".toList = '/' :: ".zattrs".toList by decide, f1]
    exact jsonOf_file j1
  have e2 : jsonFile file (root ++ "/.zgroup".toList) = some v2 := by
    unfold jsonFile
    rw [show "/.zgroup".toList = '/' :: ".zgroup".toList by decide, f2]
    exact jsonOf_file j2
  have e3 : (v2.get? "zarr_format").bind JVal.nat? = some 2 := by
    rw [k3, show (2 : Rat) = ((2 : Nat) : Rat) from rfl]; exact JVal.nat?_num 2
  unfold levelsV2
  simp only [e1, e2, e3, k1, guard, if_true, Option.bind_eq_bind, Option.bind_some, Option.pure_def]
  rw [datasetPaths_doc k2', paths_declared]

theorem v2_external_ne (h : Setup w fuel s cfg cfgs) (hV : s.version = 2) {name : String} (hne : name ≠ "acquire.json") :
    name.toList ≠ externalKey cfg.version := by
  have hver := (commit_fields h.commit).2.2.2.2
  rw [if_pos hV] at hver
  intro e
  rw [hver] at e
  exact hne (str_inj e)

theorem v2_levels (h : Setup w fuel s cfg cfgs) (hE : StorageOk env s) (hV : s.version = 2)
    (hd : s.dimensions = some (a :: (inner ++ [y, x]))) (hl : StoredAt s root) (hfr : Fresh w s root)
    (hn : calls.flatten.length < 2 ^ 32)
    (hf : ∀ c ∈ calls, ∀ f ∈ c, f.length = y.arraySize * x.arraySize * itemSize s.dataType)
    {st : SState} {ns : List Nat} (hrun : runStream w env fuel s (calls.map List.flatten) = some (.ok (st, ns, tr))) :
    levelsV2 (fun p => fileInStore w cfg p tr) root = some ((List.range cfgs.length).map decimal) := by
  obtain ⟨b1, f1, d1⟩ := stream_files_of h hE hd hl hfr hn hf hrun (name := ".zattrs")
    (by unfold streamDocNames; rw [if_pos hV]; simp) (by decide) (fun e => absurd e (v2_external_ne h hV (by decide)))
  obtain ⟨b2, f2, d2⟩ := stream_files_of h hE hd hl hfr hn hf hrun (name := ".zgroup")
    (by unfold streamDocNames; rw [if_pos hV]; simp) (by decide) (fun e => absurd e (v2_external_ne h hV (by decide)))
  exact v2_levels_from f1 d1 f2 d2

/-- The same for V3. -/
theorem v3_levels_from {file : Text → Option Bytes} {n : Nat} {b1 b2 : Bytes}
    (f1 : file (root ++ '/' :: "meta/root.group.json".toList) = some b1)
    (k1 : StreamDoc w s (a :: (inner ++ [y, x])) inner n "meta/root.group.json" b1)
    (f2 : file (root ++ '/' :: "zarr.json".toList) = some b2) (k2 : StreamDoc w s (a :: (inner ++ [y, x])) inner n "zarr.json" b2) :
    levelsV3 file root = some ((List.range n).map decimal) := by
  obtain ⟨v1, at_, m, j1, k1, k1', k2'⟩ := k1
  obtain ⟨v2, j2, k3, _, k4⟩ := k2
  have e1 : jsonFile file (root ++ "/meta/root.group".toList ++ ".json".toList) = some v1 := by
    unfold jsonFile
    rw [List.append_assoc, show "/meta/root.group".toList ++ ".json".toList = '/' :: "meta/root.group.json".toList by decide, f1]
    exact jsonOf_file j1
  have e2 : jsonFile file (root ++ "/zarr.json".toList) = some v2 := by
    unfold jsonFile
    rw [show "/zarr.json".toList = '/' :: "zarr.json".toList by decide, f2]
    exact jsonOf_file j2
  have e3 : (v2.get? "zarr_format").bind JVal.str? = some "https://purl.org/zarr/spec/protocol/core/3.0".toList := by
    rw [k3]; rfl
  have e4 : (v2.get? "metadata_key_suffix").bind JVal.str? = some ".json".toList := by rw [k4]; rfl
  unfold levelsV3
  simp only [e1, e2, e3, e4, k1, k1', guard, if_true, Option.bind_eq_bind, Option.bind_some, Option.pure_def]
  rw [datasetPaths_doc k2', paths_declared]

theorem v3_external_ne (h : Setup w fuel s cfg cfgs) (hV : s.version = 3) {name : String} (hne : name ≠ "meta/acquire.json") :
    name.toList ≠ externalKey cfg.version := by
  have hver := (commit_fields h.commit).2.2.2.2
  rw [if_neg (by rw [hV]; decide)] at hver
  intro e
  rw [hver] at e
  exact hne (str_inj e)

theorem v3_levels (h : Setup w fuel s cfg cfgs) (hE : StorageOk env s) (hV : s.version = 3)
    (hd : s.dimensions = some (a :: (inner ++ [y, x]))) (hl : StoredAt s root) (hfr : Fresh w s root)
    (hn : calls.flatten.length < 2 ^ 32)
    (hf : ∀ c ∈ calls, ∀ f ∈ c, f.length = y.arraySize * x.arraySize * itemSize s.dataType)
    {st : SState} {ns : List Nat} (hrun : runStream w env fuel s (calls.map List.flatten) = some (.ok (st, ns, tr))) :
    levelsV3 (fun p => fileInStore w cfg p tr) root = some ((List.range cfgs.length).map decimal) := by
  have h2 : ¬ s.version = 2 := by rw [hV]; decide
  obtain ⟨b1, f1, d1⟩ := stream_files_of h hE hd hl hfr hn hf hrun (name := "meta/root.group.json")
    (by unfold streamDocNames; rw [if_neg h2]; simp) (by decide) (fun e => absurd e (v3_external_ne h hV (by decide)))
  obtain ⟨b2, f2, d2⟩ := stream_files_of h hE hd hl hfr hn hf hrun (name := "zarr.json")
    (by unfold streamDocNames; rw [if_neg h2]; simp) (by decide) (fun e => absurd e (v3_external_ne h hV (by decide)))
  exact v3_levels_from f1 d1 f2 d2

/-- A reader loads a level whose array document and chunk files are as the array writer leaves them. -/
theorem v2_loads (h : Setup w fuel s cfg cfgs) (hz : SizesInRange s) (hE : StorageOk env s) (hV : s.version = 2)
    (hd : s.dimensions = some (a :: (inner ++ [y, x]))) {unblosc : Bytes → Option Bytes} (hu : Unblosc env s unblosc)
    {i : Nat} {c : WConfig} (hc : cfgs[i]? = some c) {fs : List Bytes} (hff : ∀ f ∈ fs, f.length = c.dims.frameBytes)
    {file : Text → Option Bytes} (hdir : arrayDirV2 c = levelDir root i)
    (hfile : ∀ g l, file (levelDir root i ++ chunkKey (g :: l)) = fileAfter (levelDir root i ++ chunkKey (g :: l))
      (runEventsV2 env c fs.flatten fs.length))
    (ho : openV2 file (levelDir root i) = some (infoOf s a (inner ++ [y, x]) inner i fs.length)) :
    loadV2 file unblosc (levelDir root i) = some (infoOf s a (inner ++ [y, x]) inner i fs.length,
      paddedTo (prod (infoOf s a (inner ++ [y, x]) inner i fs.length).shape *
        (infoOf s a (inner ++ [y, x]) inner i fs.length).itemSize) fs) := by
  unfold loadV2
  rw [ho]
  have hroom := level_room h hz hd hc hff
  obtain ⟨items, m1, m2⟩ := read_all (T := ceilDiv fs.length (prod (sizesAt i inner)))
    (tail := sizesAt i (inner ++ [y, x])) (fun t z _ hzb => v2_level_bytes_from h hz hE hV hd
      (decodes_of (info := infoOf s a (inner ++ [y, x]) inner i fs.length) hu rfl) hc hff hdir hfile (t := t) hzb) hroom
  simp only [Option.bind_eq_bind, Option.bind_some, Option.pure_def]
  have m1' : ((List.range (prod (infoOf s a (inner ++ [y, x]) inner i fs.length).shape)).mapM fun k =>
      readV2 file (levelDir root i)
        ((infoOf s a (inner ++ [y, x]) inner i fs.length).decoder unblosc)
        (infoOf s a (inner ++ [y, x]) inner i fs.length).chunks
        (infoOf s a (inner ++ [y, x]) inner i fs.length).itemSize
        (unravel (infoOf s a (inner ++ [y, x]) inner i fs.length).shape k)) = some items := m1
  rw [m1']
  simp only [Option.bind_some]
  rw [m2]
  rfl

/-- **C80.** Zarr V2, filesystem. A reader that is given only the files and the name of the store finds all levels; it can load every level
that received a frame: shape, chunk shape and data type are those of the settings, and the elements in C order are the frames of the level,
followed by zeros up to the end of the last step. The frames of level 0 are the appended frames. -/
theorem v2_self_describing (h : Setup w fuel s cfg cfgs) (hz : SizesInRange s) (hrc : RealCodec s) (hE : StorageOk env s)
    (hV : s.version = 2) (hd : s.dimensions = some (a :: (inner ++ [y, x]))) (hr : StoredAt s root) (hfr : Fresh w s root)
    {unblosc : Bytes → Option Bytes} (hu : Unblosc env s unblosc) (hn : calls.flatten.length < 2 ^ 32)
    (hf : ∀ c ∈ calls, ∀ f ∈ c, f.length = y.arraySize * x.arraySize * itemSize s.dataType) :
    ∃ st tr, runStream w env fuel s (calls.map List.flatten) =
        some (.ok (st, calls.map (fun c => c.flatten.length), tr)) ∧ st.error = [] ∧
      levelsV2 (fun p => fileInStore w cfg p tr) root = some ((List.range cfgs.length).map decimal) ∧
      ∃ L : Nat → List Bytes, L 0 = calls.flatten ∧
        (s.dataType < 8 → MeanPyramid (itemSize s.dataType) y.arraySize x.arraySize cfgs.length L) ∧ ∀ i, i < cfgs.length → (L i).length = calls.flatten.length / 2 ^ i ∧
        ((L i).length ≠ 0 → ∃ info, loadV2 (fun p => fileInStore w cfg p tr) unblosc (root ++ '/' :: (decimal i ++ ['/'])) =
            some (info, paddedTo (prod info.shape * info.itemSize) (L i)) ∧
          info = infoOf s a (inner ++ [y, x]) inner i (L i).length) := by
  have hD := dimsOf h.valid h.commit hd
  have hf' := hf
  rw [← hD.frame] at hf'
  obtain ⟨st, tr, h1, h2, h3⟩ := session_v2 h hE hV hn hf'
  obtain ⟨st', tr', h1', h4⟩ := v2_final_document h hz hrc hE hV hd hr hfr hn hf
  rw [h1] at h1'
  cases h1'
  refine ⟨st, tr, h1, h2, v2_levels h hE hV hd hr hfr hn hf h1, fun i => framesOfLevel cfg i calls.flatten, rfl,
    fun h8 => levels_meanPyramid h.base hd h8 _, ?_⟩
  intro i hi
  have hlen := framesOfLevel_length cfg i calls.flatten
  refine ⟨hlen, fun hne => ?_⟩
  have hc : cfgs[i]? = some cfgs[i] := List.getElem?_eq_getElem hi
  generalize cfgs[i] = c at hc
  dsimp only at hne ⊢
  rw [hlen] at hne
  obtain ⟨b, v, b1, b2, b3⟩ := (h4 i hi).2 hne
  rw [← hlen] at b3
  have ho := v2_opens (f := fun p => fileInStore w cfg p tr) h hV b1 b2 b3
  refine ⟨_, ?_, rfl⟩
  rw [show root ++ '/' :: (decimal i ++ ['/']) = levelDir root i by unfold levelDir; simp]
  exact v2_loads h hz hE hV hd hu hc (h3.sizes i c hc) (levelDir_eq h hr hc) (fun g l => level_chunk h hr hfr h3 hV hc g l) ho

/-- Every level of a finished V2 dataset is listed; a listed level can be opened exactly if it received a frame. -/
theorem v2_listed_exists_partial (h : Setup w fuel s cfg cfgs) (hz : SizesInRange s) (hrc : RealCodec s) (hE : StorageOk env s)
    (hV : s.version = 2) (hd : s.dimensions = some (a :: (inner ++ [y, x]))) (hr : StoredAt s root) (hfr : Fresh w s root)
    (hn : calls.flatten.length < 2 ^ 32)
    (hf : ∀ c ∈ calls, ∀ f ∈ c, f.length = y.arraySize * x.arraySize * itemSize s.dataType) :
    ∃ st tr, runStream w env fuel s (calls.map List.flatten) =
        some (.ok (st, calls.map (fun c => c.flatten.length), tr)) ∧ st.error = [] ∧
      levelsV2 (fun p => fileInStore w cfg p tr) root = some ((List.range cfgs.length).map decimal) ∧
      ∀ i, i < cfgs.length → ((openV2 (fun p => fileInStore w cfg p tr) (root ++ '/' :: (decimal i ++ ['/']))).isSome = true ↔
        2 ^ i ≤ calls.flatten.length) := by
  have hD := dimsOf h.valid h.commit hd
  have hf' := hf
  rw [← hD.frame] at hf'
  obtain ⟨st, tr, h1, h2, h3⟩ := session_v2 h hE hV hn hf'
  obtain ⟨st', tr', h1', h4⟩ := v2_final_document h hz hrc hE hV hd hr hfr hn hf
  rw [h1] at h1'
  cases h1'
  refine ⟨st, tr, h1, h2, v2_levels h hE hV hd hr hfr hn hf h1, ?_⟩
  intro i hi
  rw [show root ++ '/' :: (decimal i ++ ['/']) = levelDir root i by unfold levelDir; simp]
  have hp : 0 < 2 ^ i := Nat.pow_pos (by decide)
  by_cases hne : calls.flatten.length / 2 ^ i = 0
  · have hlt : calls.flatten.length < 2 ^ i := by
      rcases Nat.div_eq_zero_iff.1 hne with e | e
      · omega
      · exact e
    have := (h4 i hi).1 hne
    rw [← zarray_path] at this
    constructor
    · intro ho
      unfold openV2 jsonFile at ho
      simp only [this] at ho
      exact absurd ho (by simp)
    · intro hle; omega
  · have hle : 2 ^ i ≤ calls.flatten.length := by
      apply Nat.le_of_not_lt
      intro hlt
      exact hne (Nat.div_eq_of_lt hlt)
    obtain ⟨b, v, b1, b2, b3⟩ := (h4 i hi).2 hne
    rw [v2_opens (f := fun p => fileInStore w cfg p tr) h hV b1 b2 b3]
    exact ⟨fun _ => hle, fun _ => rfl⟩

/-- **C81**, one append chunk per shard. A reader that is given only the files and the name of the store finds all levels of a
finished V3 dataset and can load every level that received a frame. -/
theorem v3_self_describing_partial (h : Setup w fuel s cfg cfgs) (h3 : cfg.dims.FitsV3) (hz : SizesInRange s) (hrc : RealCodec s)
    (hE : StorageOk env s) (ho : SmallOverhead env)
    (hV : s.version = 3) (hd : s.dimensions = some (a :: (inner ++ [y, x]))) (hr : StoredAt s root) (hfr : Fresh w s root)
    {unblosc : Bytes → Option Bytes} (hu : Unblosc env s unblosc) (hn : calls.flatten.length < 2 ^ 32)
    (hf : ∀ c ∈ calls, ∀ f ∈ c, f.length = y.arraySize * x.arraySize * itemSize s.dataType) :
    ∃ st tr, runStream w env fuel s (calls.map List.flatten) =
        some (.ok (st, calls.map (fun c => c.flatten.length), tr)) ∧ st.error = [] ∧
      levelsV3 (fun p => fileInStore w cfg p tr) root = some ((List.range cfgs.length).map decimal) ∧
      ∃ L : Nat → List Bytes, L 0 = calls.flatten ∧
        (s.dataType < 8 → MeanPyramid (itemSize s.dataType) y.arraySize x.arraySize cfgs.length L) ∧ ∀ i, i < cfgs.length → (L i).length = calls.flatten.length / 2 ^ i ∧
        ((L i).length ≠ 0 → shardAt i a = 1 → ∃ info, loadV3 (fun p => fileInStore w cfg p tr) unblosc root (decimal i) =
            some (info, paddedTo (prod info.shape * info.itemSize) (L i)) ∧
          info = infoOf s a (inner ++ [y, x]) inner i (L i).length) := by
  have hD := dimsOf h.valid h.commit hd
  have hf' := hf
  rw [← hD.frame] at hf'
  obtain ⟨st, tr, h1, h2, hs⟩ := session_v3 h h3 hE ho hV hn hf'
  obtain ⟨st', tr', h1', _, h4⟩ := v3_document_complete_partial h h3 hz hrc hE ho hV hd hr hfr hn hf
  rw [h1] at h1'
  cases h1'
  refine ⟨st, tr, h1, h2, v3_levels h hE hV hd hr hfr hn hf h1, fun i => framesOfLevel cfg i calls.flatten, rfl,
    fun h8 => levels_meanPyramid h.base hd h8 _, ?_⟩
  intro i hi
  have hlen := framesOfLevel_length cfg i calls.flatten
  refine ⟨hlen, fun hne hone => ?_⟩
  have hc : cfgs[i]? = some cfgs[i] := List.getElem?_eq_getElem hi
  generalize cfgs[i] = c at hc
  dsimp only at hne ⊢
  rw [hlen] at hne
  obtain ⟨b, v, b1, b2, b3⟩ := h4 i hi _ rfl (Nat.pos_of_ne_zero hne) (by
    rw [hone, Nat.mul_one]
    generalize calls.flatten.length / 2 ^ i % framesPerAt i a inner = q
    omega)
  rw [← hlen] at b3
  have hop := v3_opens (f := fun p => fileInStore w cfg p tr) h hV b1 b2 b3
  refine ⟨_, ?_, rfl⟩
  unfold loadV3
  rw [hop, data_path]
  have hroom := level_room h hz hd hc (hs.sizes i c hc)
  have h2' : ¬ s.version = 2 := by rw [hV]; decide
  obtain ⟨items, m1, m2⟩ := read_all (T := ceilDiv (framesOfLevel cfg i calls.flatten).length (prod (sizesAt i inner)))
    (tail := sizesAt i (inner ++ [y, x])) (fun t z _ hzb => v3_level_bytes h h3 hz hE ho hV hd hr hfr
      (decodes_of (info := infoOf s a (inner ++ [y, x]) inner i (framesOfLevel cfg i calls.flatten).length) hu rfl) hs hc hone
      (t := t) hzb) hroom
  have hsh : (infoOf s a (inner ++ [y, x]) inner i (framesOfLevel cfg i calls.flatten).length).shards =
      shardsAt i (a :: (inner ++ [y, x])) := by
    unfold infoOf
    exact if_neg h2'
  simp only [Option.bind_eq_bind, Option.bind_some, Option.pure_def]
  rw [hsh]
  have m1' : ((List.range (prod (infoOf s a (inner ++ [y, x]) inner i (framesOfLevel cfg i calls.flatten).length).shape)).mapM fun k =>
      readV3 (fun p => fileInStore w cfg p tr) (levelDirV3 root i)
        ((infoOf s a (inner ++ [y, x]) inner i (framesOfLevel cfg i calls.flatten).length).decoder unblosc)
        (infoOf s a (inner ++ [y, x]) inner i (framesOfLevel cfg i calls.flatten).length).chunks
        (shardsAt i (a :: (inner ++ [y, x])))
        (infoOf s a (inner ++ [y, x]) inner i (framesOfLevel cfg i calls.flatten).length).itemSize
        (unravel (infoOf s a (inner ++ [y, x]) inner i (framesOfLevel cfg i calls.flatten).length).shape k)) = some items := m1
  rw [m1']
  simp only [Option.bind_some]
  rw [m2]
  rfl

/-- **C81 is false** with more than one append chunk per shard: whenever the frames end on a chunk boundary inside the first append
shard, every call succeeds and all frames are stored, but the image's first level cannot be opened. -/
theorem v3_unreadable (h : Setup w fuel s cfg cfgs) (h3 : cfg.dims.FitsV3) (hz : SizesInRange s) (hrc : RealCodec s)
    (hE : StorageOk env s) (ho : SmallOverhead env)
    (hV : s.version = 3) (hd : s.dimensions = some (a :: (inner ++ [y, x]))) (hr : StoredAt s root) (hfr : Fresh w s root)
    (hn : calls.flatten.length < 2 ^ 32)
    (hf : ∀ c ∈ calls, ∀ f ∈ c, f.length = y.arraySize * x.arraySize * itemSize s.dataType)
    (hb : calls.flatten.length % framesPer a inner = 0) (hs : calls.flatten.length < framesPer a inner * a.shardSize) :
    ∃ st tr, runStream w env fuel s (calls.map List.flatten) =
        some (.ok (st, calls.map (fun c => c.flatten.length), tr)) ∧ st.error = [] ∧
      decimal 0 ∈ (levelsV3 (fun p => fileInStore w cfg p tr) root).getD [] ∧
      ∀ unblosc, loadV3 (fun p => fileInStore w cfg p tr) unblosc root (decimal 0) = none := by
  obtain ⟨st, tr, h1, h2, h4⟩ := v3_final_document h h3 hz hrc hE ho hV hd hr hfr hn hf
  refine ⟨st, tr, h1, h2, ?_, ?_⟩
  · rw [v3_levels h hE hV hd hr hfr hn hf h1]
    obtain ⟨rest, hrest⟩ := levelConfigs_head h.levels
    have hlen : 0 < cfgs.length := by rw [hrest]; simp
    exact List.mem_map_of_mem (List.mem_range.2 hlen)
  · intro unblosc
    obtain ⟨rest, hrest⟩ := levelConfigs_head h.levels
    have hlen : 0 < cfgs.length := by rw [hrest]; simp
    have h0 : cfgs[0]? = some cfg := by rw [hrest]; rfl
    have hL := h.levelShape hz hd h0
    have hD := dimsOf h.valid h.commit hd
    have e1 : framesPerAt 0 a inner = framesPer a inner := by
      rw [← hL.framesPer]; exact hD.perChunk
    have e2 : shardAt 0 a = a.shardSize := by
      rw [← hL.shardSize]; exact (shards_of h.commit hd).2
    have hm : docFrames (framesPerAt 0 a inner) (shardAt 0 a) (calls.flatten.length / 2 ^ 0) = 0 := by
      rw [e1, e2, Nat.pow_zero, Nat.div_one]
      unfold docFrames
      rw [if_neg (by rw [hb]; simp), Nat.div_eq_of_lt hs, Nat.zero_mul]
    have := (h4 0 hlen 0 hm.symm).1 rfl
    rw [← array_json_path] at this
    unfold loadV3 openV3 jsonFile
    simp only [this]
    rfl

theorem docFrames_ne_zero {f k n : Nat} (hf : 0 < f) (hk : 0 < k) : docFrames f k n ≠ 0 ↔ n % f ≠ 0 ∨ f * k ≤ n := by
  have hp := Nat.mul_pos hf hk
  unfold docFrames
  split
  · rename_i h
    constructor
    · intro _; exact .inl h
    · intro _ h0
      rw [h0, Nat.zero_mod] at h
      exact h rfl
  · rename_i h
    constructor
    · intro h0
      right
      apply Nat.le_of_not_lt
      intro hlt
      rw [Nat.div_eq_of_lt hlt, Nat.zero_mul] at h0
      exact h0 rfl
    · rintro (h1 | h1)
      · exact absurd h1 h
      · exact Nat.ne_of_gt (Nat.mul_pos (Nat.div_pos h1 hp) hp)

/-- **C82, version 3, exactly.** All levels are listed; level `i`, which received `n / 2^i` of the `n` frames, can be opened exactly if
these frames do not end on the boundary of an append chunk, or fill an append shard. -/
theorem v3_listed_exists_partial (h : Setup w fuel s cfg cfgs) (h3 : cfg.dims.FitsV3) (hz : SizesInRange s) (hrc : RealCodec s)
    (hE : StorageOk env s) (ho : SmallOverhead env)
    (hV : s.version = 3) (hd : s.dimensions = some (a :: (inner ++ [y, x]))) (hr : StoredAt s root) (hfr : Fresh w s root)
    (hn : calls.flatten.length < 2 ^ 32)
    (hf : ∀ c ∈ calls, ∀ f ∈ c, f.length = y.arraySize * x.arraySize * itemSize s.dataType) :
    ∃ st tr, runStream w env fuel s (calls.map List.flatten) =
        some (.ok (st, calls.map (fun c => c.flatten.length), tr)) ∧ st.error = [] ∧
      levelsV3 (fun p => fileInStore w cfg p tr) root = some ((List.range cfgs.length).map decimal) ∧
      ∀ i, i < cfgs.length → ((openV3 (fun p => fileInStore w cfg p tr) root (decimal i)).isSome = true ↔
        calls.flatten.length / 2 ^ i % framesPerAt i a inner ≠ 0 ∨ framesPerAt i a inner * shardAt i a ≤ calls.flatten.length / 2 ^ i) := by
  obtain ⟨st, tr, h1, h2, h4⟩ := v3_final_document h h3 hz hrc hE ho hV hd hr hfr hn hf
  refine ⟨st, tr, h1, h2, v3_levels h hE hV hd hr hfr hn hf h1, ?_⟩
  intro i hi
  have hc : cfgs[i]? = some cfgs[i] := List.getElem?_eq_getElem hi
  have hm := List.mem_of_getElem? hc
  obtain ⟨hval, hfit⟩ := h.base.levelDims.1 _ hm
  have h3c := h.base.levelFitsV3 h3 _ hm
  have hL := h.levelShape hz hd hc
  have p1 : 0 < framesPerAt i a inner := by rw [← hL.framesPer]; exact ArrayDims.framesPerChunk_pos hval hfit
  have p2 : 0 < shardAt i a := by rw [← hL.shardSize]; exact h3c.pos _ (by simp [ArrayDims.toList])
  rw [← docFrames_ne_zero p1 p2]
  obtain ⟨k1, k2⟩ := h4 i hi _ rfl
  by_cases h0 : docFrames (framesPerAt i a inner) (shardAt i a) (calls.flatten.length / 2 ^ i) = 0
  · have := k1 h0
    rw [← array_json_path] at this
    unfold openV3 jsonFile
    simp only [this]
    exact ⟨fun hx => absurd hx (by simp), fun hx => absurd h0 hx⟩
  · obtain ⟨b, v, b1, b2, b3⟩ := k2 h0
    rw [v3_opens (f := fun p => fileInStore w cfg p tr) h hV b1 b2 b3]
    exact ⟨fun _ => h0, fun _ => rfl⟩

end

/-! ### Examples and the violation of C82 -/

theorem unblosc_none {env : Env} {s : Settings} (hc : s.compression = none) : Unblosc env s (fun _ => none) := by
  intro c h
  rw [hc] at h
  cases h

/-- A non-trivial instance of `v2_self_describing`: eleven frames of the ragged sample array fill the array of shape [4, 3, 5, 7] up to
one missing frame; the second level has five frames. -/
example : ∃ st ns tr L, runStream Sample.world Sample.env 9 Sample.settings (Sample.calls.map List.flatten) =
        some (.ok (st, ns, tr)) ∧ (L : List Bytes).length = 5 ∧
      loadV2 (fun p => fileInStore Sample.world Sample.cfg p tr) (fun _ => none) "/tmp/a.zarr/0/".toList =
        some (⟨[4, 3, 5, 7], [2, 2, 2, 3], [], .unsigned, 2, false⟩, paddedTo 840 Sample.calls.flatten) ∧
      loadV2 (fun p => fileInStore Sample.world Sample.cfg p tr) (fun _ => none) "/tmp/a.zarr/1/".toList =
        some (⟨[2, 3, 3, 4], [2, 2, 2, 3], [], .unsigned, 2, false⟩, paddedTo 144 L) := by
  obtain ⟨cfgs, h, hl⟩ := Sample.setup
  obtain ⟨st, tr, h1, _, _, L, h3, _, h4⟩ := v2_self_describing (calls := Sample.calls) h Sample.sizesInRange Sample.realCodec
    Sample.storageOk rfl (a := Sample.dimT) (inner := [Sample.dimC]) (y := Sample.dimY) (x := Sample.dimX) rfl
    Sample.storedAt Sample.fresh (unblosc_none rfl) (by decide) Sample.calls_sized
  have n11 : Sample.calls.flatten.length = 11 := by decide
  obtain ⟨l0, k0⟩ := h4 0 (by omega)
  obtain ⟨l1, k1⟩ := h4 1 (by omega)
  rw [n11] at l0 l1
  obtain ⟨i0, a0, b0⟩ := k0 (by rw [l0]; decide)
  obtain ⟨i1, a1, b1⟩ := k1 (by rw [l1]; decide)
  rw [l0] at b0
  rw [l1] at b1
  refine ⟨st, _, tr, L 1, h1, l1, ?_, ?_⟩
  · rw [b0, h3] at a0
    exact a0
  · rw [b1] at a1
    exact a1

/-- **C82 is false**: after one frame the sample dataset lists a second level which does not exist. -/
theorem listed_level_missing_violated : ∃ cfgs st ns tr, Setup Sample.world 9 Sample.settings Sample.cfg cfgs ∧
    runStream Sample.world Sample.env 9 Sample.settings [Sample.frame 0] = some (.ok (st, ns, tr)) ∧ st.error = [] ∧
    decimal 1 ∈ (levelsV2 (fun p => fileInStore Sample.world Sample.cfg p tr) "/tmp/a.zarr".toList).getD [] ∧
    openV2 (fun p => fileInStore Sample.world Sample.cfg p tr) "/tmp/a.zarr/1/".toList = none := by
  obtain ⟨cfgs, h, hl⟩ := Sample.setup
  obtain ⟨st, tr, h1, h2, h3, h4⟩ := v2_listed_exists_partial (calls := [[Sample.frame 0]]) h Sample.sizesInRange Sample.realCodec
    Sample.storageOk rfl (a := Sample.dimT) (inner := [Sample.dimC]) (y := Sample.dimY) (x := Sample.dimX) rfl
    Sample.storedAt Sample.fresh (by decide) (by
      intro c hc f hf
      rw [List.mem_singleton.1 hc] at hf
      rw [List.mem_singleton.1 hf]
      exact Sample.frame_length 0)
  refine ⟨cfgs, st, ([[Sample.frame 0]] : List (List Bytes)).map (fun c => c.flatten.length), tr, h, ?_, h2, ?_, ?_⟩
  · rw [show [Sample.frame 0] = ([[Sample.frame 0]] : List (List Bytes)).map List.flatten by simp]
    exact h1
  · rw [h3]
    exact List.mem_map_of_mem (List.mem_range.2 (by omega))
  · have := (h4 1 (by omega)).1
    cases e : openV2 (fun p => fileInStore Sample.world Sample.cfg p tr) "/tmp/a.zarr/1/".toList with
    | none => rfl
    | some i =>
      have hle := this (by
        show (openV2 (fun p => fileInStore Sample.world Sample.cfg p tr) "/tmp/a.zarr/1/".toList).isSome = true
        rw [e]; rfl)
      exact absurd hle (by simp)

/-- A non-trivial instance of `v3_self_describing_partial`: three one-byte frames in chunks of two. -/
example : ∃ st ns tr, runStream Sample.world Sample.env 9 (Sample.slab 2 1) [[5, 6], [7]] = some (.ok (st, ns, tr)) ∧
      loadV3 (fun p => fileInStore Sample.world (Sample.slabCfg 2 1) p tr) (fun _ => none) "/tmp/a".toList "0".toList =
        some (⟨[3, 1, 1], [2, 1, 1], [1, 1, 1], .unsigned, 1, false⟩, [5, 6, 7]) := by
  have hS : Setup Sample.world 9 (Sample.slab 2 1) (Sample.slabCfg 2 1) [Sample.slabCfg 2 1] :=
    ⟨rfl, rfl, rfl, rfl, by decide, fun h => by cases h⟩
  obtain ⟨st, tr, h1, _, _, L, h3, _, h4⟩ := v3_self_describing_partial (calls := [[[5], [6]], [[7]]]) hS (by decide)
    (Sample.slabSizes 2 1) (Sample.slabCodec 2 1) Sample.storageOk Sample.overhead rfl
    (inner := []) rfl (Sample.slabStored 2 1) (Sample.slabFresh 2 1) (unblosc_none rfl) (by decide) (by decide)
  obtain ⟨l0, k0⟩ := h4 0 (by decide)
  obtain ⟨i0, a0, b0⟩ := k0 (by rw [l0]; decide) (by decide)
  refine ⟨st, _, tr, h1, ?_⟩
  rw [l0] at b0
  rw [b0, h3] at a0
  exact a0

/-- A non-trivial instance of `v3_unreadable`: two appended frames that nobody can read. -/
theorem v3_unreadable_violated : ∃ st tr, runStream Sample.world Sample.env 9 (Sample.slab 2 2) [[5, 6]] = some (.ok (st, [2], tr)) ∧
    st.error = [] ∧
    decimal 0 ∈ (levelsV3 (fun p => fileInStore Sample.world (Sample.slabCfg 2 2) p tr) "/tmp/a".toList).getD [] ∧
    ∀ unblosc, loadV3 (fun p => fileInStore Sample.world (Sample.slabCfg 2 2) p tr) unblosc "/tmp/a".toList (decimal 0) = none :=
  v3_unreadable (calls := [[[5], [6]]]) Sample.slabSetup (by decide) (Sample.slabSizes 2 2) (Sample.slabCodec 2 2)
    Sample.storageOk Sample.overhead rfl (inner := []) rfl (Sample.slabStored 2 2) (Sample.slabFresh 2 2) (by decide) (by decide)
    (by decide) (by decide)

/-- `v3_listed_exists_partial` on the uint8 sample in version 3 with two append chunks per shard: eleven frames, of which level 0 gets
eleven, level 1 five and level 2 two, all in unfinished chunks, so that all three levels can be opened. -/
example : ∃ cfg cfgs st ns tr, Setup Sample.world 9 Sample.settings83 cfg cfgs ∧ cfgs.length = 3 ∧
    runStream Sample.world Sample.env 9 Sample.settings83 (Sample.calls8.map List.flatten) = some (.ok (st, ns, tr)) ∧
    ∀ i, i < 3 → (openV3 (fun p => fileInStore Sample.world cfg p tr) "/tmp/a.zarr".toList (decimal i)).isSome = true := by
  obtain ⟨cfg, cfgs, h, hl, h3⟩ := Sample.setup83
  obtain ⟨st, tr, h1, _, _, h4⟩ := v3_listed_exists_partial (calls := Sample.calls8) h h3 (sizes_in_range_of rfl (by decide))
    (by intro c hc; cases hc) Sample.storageOk Sample.overhead rfl
    (a := { Sample.dimT with shardSize := 2 }) (inner := [{ Sample.dimC with shardSize := 1 }])
    (y := { Sample.dimY with shardSize := 1 }) (x := { Sample.dimX with shardSize := 1 }) rfl Sample.storedAt Sample.fresh
    (by decide) Sample.calls8_sized
  refine ⟨cfg, cfgs, st, _, tr, h, hl, h1, fun i hi => (h4 i (by omega)).2 (.inl ?_)⟩
  have : ∀ j, j < 3 → Sample.calls8.flatten.length / 2 ^ j % framesPerAt j { Sample.dimT with shardSize := 2 } [{ Sample.dimC with shardSize := 1 }] ≠ 0 := by decide
  exact this i hi

end AZ
