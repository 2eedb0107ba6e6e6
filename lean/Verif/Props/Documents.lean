import Verif.Props.Metadata
import Verif.Spec.TypeNames

set_option linter.unusedSimpArgs false

/-!
# C38, C39, C40: contents of the documents
-/

namespace AZ
open Spec

/-- The data type string of an array document of version `version`. -/
def docType (version : Nat) (v : JVal) : Option (List Char) :=
  match v.get? (if version = 2 then "dtype" else "data_type") with
  | some (.str t) => some t
  | _ => none

/-- The number kind and item size a reader derives from an array document. -/
def readType (version : Nat) (t : List Char) : Option (NumKind × Nat) :=
  if version = 2 then readNumpyType t else readV3Type t

theorem typeName_reads {k : Nat} (h : k < 10) : readNumpyType (typeNameV2 k).toList = some (kindOf k, itemSize k) ∧
    readV3Type (typeNameV3 k).toList = some (kindOf k, itemSize k) := by
  match k, h with
  | 0, _ => decide | 1, _ => decide | 2, _ => decide | 3, _ => decide | 4, _ => decide
  | 5, _ => decide | 6, _ => decide | 7, _ => decide | 8, _ => decide | 9, _ => decide

theorem kind_size_inj {j k : Nat} (hj : j < 10) (hk : k < 10)
    (h : (kindOf j, itemSize j) = (kindOf k, itemSize k)) : j = k := by
  have : ∀ j, j < 10 → ∀ k, k < 10 → (kindOf j, itemSize j) = (kindOf k, itemSize k) → j = k := by decide
  exact this j hj k hk h

section
variable {w : World} {env : Env} {fuel : Nat} {s : Settings} {cfg : WConfig} {cfgs : List WConfig}
  {a y x : DimProps} {inner : List DimProps} {root : Text} {calls : List (List Bytes)}
  {st : SState} {ns : List Nat} {tr : List Ev}

theorem docType_level {ds : List DimProps} {i m : Nat} {v : JVal} (h : LevelDoc s ds i m v) :
    docType s.version v = some (if s.version = 2 then typeNameV2 s.dataType else typeNameV3 s.dataType).toList := by
  unfold LevelDoc at h
  unfold docType
  by_cases hv : s.version = 2
  · rw [if_pos hv] at h ⊢
    rw [h.dtype]
    rw [if_pos hv]
    rfl
  · rw [if_neg hv] at h ⊢
    rw [h.dtype]
    rw [if_neg hv]
    rfl

/-- **C38.** Every array document a session writes carries a type string that reads as the kind and item size of
the configured data type. -/
theorem type_names_faithful (h : Setup w fuel s cfg cfgs) (hz : SizesInRange s) (hr : RealCodec s)
    (hd : s.dimensions = some (a :: (inner ++ [y, x]))) (hl : LocatedAt s root)
    (hn : calls.flatten.length < 2 ^ 32)
    (hf : ∀ c ∈ calls, ∀ f ∈ c, f.length = y.arraySize * x.arraySize * itemSize s.dataType)
    (hrun : runStream w env fuel s (calls.map List.flatten) = some (.ok (st, ns, tr)))
    {i : Nat} (hi : i < cfgs.length) {off : Nat} {doc : Bytes}
    (hw : (off, doc) ∈ writesTo (root ++ '/' :: arrayDocName s.version i) tr) :
    ∃ v t, JsonFile doc v ∧ docType s.version v = some t ∧
      readType s.version t = some (kindOf s.dataType, itemSize s.dataType) := by
  obtain ⟨ks, _, _, h3⟩ := array_documents h hz hr hd hl hn hf hrun hi
  have : ∀ {l : List (Nat × Bytes)} {ks : List Nat} {R : Nat × Bytes → Nat → Prop}, List.Forall₂ R l ks → ∀ p ∈ l,
      ∃ k, R p k := by
    intro l ks R hR p hp
    induction hR with
    | nil => simp at hp
    | cons hab _ ih =>
      rcases List.mem_cons.1 hp with rfl | hp
      · exact ⟨_, hab⟩
      · exact ih hp
  obtain ⟨k, _, v, h4, h5⟩ := this h3 _ hw
  obtain ⟨r1, r2⟩ := typeName_reads (validateSettings_ok h.valid).dtype
  refine ⟨v, _, h4, docType_level h5, ?_⟩
  unfold readType
  by_cases hv : s.version = 2
  · rw [if_pos hv, if_pos hv]; exact r1
  · rw [if_neg hv, if_neg hv]; exact r2

/-- **C38, second part.** Different data types get different strings, in each version. -/
theorem type_names_distinct {j k : Nat} (hj : j < 10) (hk : k < 10) :
    (dtypeV2 (DType.fromC j) = dtypeV2 (DType.fromC k) → j = k) ∧
    (dtypeV3 (DType.fromC j) = dtypeV3 (DType.fromC k) → j = k) := by
  obtain ⟨r1, r2⟩ := typeName_reads hj
  obtain ⟨q1, q2⟩ := typeName_reads hk
  rw [dtypeV2_spec hj, dtypeV2_spec hk, dtypeV3_spec hj, dtypeV3_spec hk]
  constructor
  · intro e
    rw [e, q1] at r1
    exact kind_size_inj hj hk (Option.some.inj r1).symm
  · intro e
    rw [e, q2] at r2
    exact kind_size_inj hj hk (Option.some.inj r2).symm

/-- The axes of the settings: name and type of each dimension. -/
def axesOf (ds : List DimProps) : List (List Char × String) := ds.map fun d => (d.name.getD [], axisType d.kind)

/-- Path and scale factors of level `i` as the stream documents declare them: `2^i` along the append dimension,
height and width, 1 along the others. -/
def declaredLevel (inner : List DimProps) (i : Nat) : String × List Nat :=
  (String.ofList (decimal i), 2 ^ i :: (List.replicate inner.length 1 ++ [2 ^ i, 2 ^ i]))

theorem multiscales_settings (h : Setup w fuel s cfg cfgs) (hd : s.dimensions = some (a :: (inner ++ [y, x])))
    {n : Nat} (hn : 0 < n) : MultiscalesDoc (multiscaleJson cfg.dims n).val (axesOf (a :: (inner ++ [y, x])))
      ((List.range n).map (declaredLevel inner)) := by
  obtain ⟨cfg', h1, h2⟩ := commit_dims hd
  rw [h.commit] at h1
  cases h1
  obtain ⟨ds, hds, hda⟩ := (validateSettings_ok h.valid).dims
  rw [hd] at hds
  cases hds
  have htl : cfg.dims.toList = (a :: (inner ++ [y, x])).map DimProps.toDim := by
    rw [h2]; simp [ArrayDims.toList]
  have := multiscale_doc cfg.dims hn (ks := (a :: (inner ++ [y, x])).map (·.kind)) (by
    intro k hk
    obtain ⟨d, hd, rfl⟩ := List.mem_map.1 hk
    exact (hda.each d hd).2.1) (by
    rw [htl, List.map_map, List.map_map]; rfl)
  rw [htl] at this
  have e1 : ((((a :: (inner ++ [y, x])).map DimProps.toDim).zip ((a :: (inner ++ [y, x])).map (·.kind))).map
      fun x => (x.1.name.toList, axisType x.2)) = axesOf (a :: (inner ++ [y, x])) := by
    unfold axesOf
    generalize a :: (inner ++ [y, x]) = l
    rw [List.zip_map', List.map_map]
    apply List.map_congr_left
    intro d _
    simp [DimProps.toDim]
  have e2 : ((List.range n).map fun i => (String.ofList (decimal i), scalesOf cfg.dims i)) =
      (List.range n).map (declaredLevel inner) := by
    apply List.map_congr_left
    intro i _
    unfold declaredLevel scalesOf
    have hnd : cfg.dims.ndims = inner.length + 3 := by rw [h2]; simp [ArrayDims.ndims, ArrayDims.toList]
    rw [hnd]
    split
    · rename_i hi
      subst hi
      congr 1
      rw [show inner.length + 3 = (inner.length + 2) + 1 by omega, List.replicate_succ,
        ← List.replicate_append_replicate]
      rfl
    · rfl
  rw [e1, e2] at this
  exact this

/-- What the stream-level document `name` must say. -/
def StreamDoc (w : World) (s : Settings) (ds inner : List DimProps) (levels : Nat) (name : String) (b : Bytes) : Prop :=
  match name with
  | ".zattrs" => ∃ v m, JsonFile b v ∧ v.get? "multiscales" = some m ∧
      MultiscalesDoc m (axesOf ds) ((List.range levels).map (declaredLevel inner))
  | ".zgroup" => ∃ v, JsonFile b v ∧ v.get? "zarr_format" = some (.num 2)
  | "zarr.json" => ∃ v, JsonFile b v ∧
      v.get? "zarr_format" = some (.text "https://purl.org/zarr/spec/protocol/core/3.0") ∧
      v.get? "metadata_encoding" = some (.text "https://purl.org/zarr/spec/protocol/core/3.0") ∧
      v.get? "metadata_key_suffix" = some (.text ".json")
  | "meta/root.group.json" => ∃ v at_ m, JsonFile b v ∧ v.get? "attributes" = some at_ ∧
      at_.get? "multiscales" = some m ∧ MultiscalesDoc m (axesOf ds) ((List.range levels).map (declaredLevel inner))
  | "acquire.json" | "meta/acquire.json" => w.parseJson (s.customMetadata.getD "{}".toList) = some b
  | _ => False

theorem docs_base (w : World) (s : Settings) (cfg : WConfig) (n : Nat) {key : Text} {b : Bytes}
    (h : b ∈ docsFor w s cfg n key) :
    (key = (baseDoc cfg n).1 ∧ b = utf8 ((baseDoc cfg n).2.dump 0)) ∨
    (key = (groupDoc cfg n).1 ∧ b = utf8 ((groupDoc cfg n).2.dump 0)) ∨
    (key = externalKey cfg.version ∧ externalDoc w s = some b) := by
  unfold docsFor at h
  generalize utf8 ((baseDoc cfg n).2.dump 0) = db at *
  generalize utf8 ((groupDoc cfg n).2.dump 0) = dg at *
  generalize (baseDoc cfg n).1 = kb at *
  generalize (groupDoc cfg n).1 = kg at *
  generalize externalKey cfg.version = ke at *
  simp only [List.mem_append] at h
  rcases h with ((h | h) | h) | h
  · split at h
    · rename_i e; simp at h; exact .inl ⟨e.symm, h⟩
    · simp at h
  · split at h
    · rename_i e; simp at h; exact .inr (.inl ⟨e.symm, h⟩)
    · simp at h
  · split at h
    · rename_i e; exact .inr (.inr ⟨e.symm, by simpa using h⟩)
    · simp at h
  · split at h
    · rename_i e; simp at h; exact .inr (.inl ⟨e.symm, h⟩)
    · simp at h

/-- The JSON library accepts `{}` and ignores white space around a text. -/
structure JsonLib (w : World) : Prop where
  braces : (w.parseJson "{}".toList).isSome
  trims : ∀ m d, w.parseJson m = some d → w.parseJson (trim m) = some d

theorem external_doc (hj : JsonLib w) (h : Setup w fuel s cfg cfgs) {b : Bytes} (he : externalDoc w s = some b) :
    w.parseJson (s.customMetadata.getD "{}".toList) = some b := by
  have hc := (validateSettings_ok h.valid).custom
  unfold externalDoc customMetadata at he
  cases hm : s.customMetadata with
  | none =>
    rw [hm] at he
    have hb := hj.braces
    rw [Option.isSome_iff_exists] at hb
    obtain ⟨d, hd⟩ := hb
    dsimp only at he
    rw [if_neg (by decide), hd] at he
    rw [Option.getD_none, hd]
    exact he
  | some m =>
    rw [hm] at he hc
    dsimp only at he
    rw [Option.getD_some]
    split at he
    · simp at he
    · cases m with
      | nil => rename_i hne; exact absurd rfl hne
      | cons c cs =>
        unfold validateCustomMetadata at hc
        rw [Option.isSome_iff_exists] at hc
        obtain ⟨d, hd⟩ := hc
        rw [hj.trims _ _ hd] at he
        rw [hd]
        exact he

theorem str_inj {a b : String} (h : a.toList = b.toList) : a = b := String.toList_inj.1 h

/-- `stream_documents`, for a document that is not the user's metadata without assumptions on the JSON library. -/
theorem stream_documents_of (h : Setup w fuel s cfg cfgs)
    (hd : s.dimensions = some (a :: (inner ++ [y, x]))) (hl : LocatedAt s root)
    (hf : ∀ c ∈ calls, ∀ f ∈ c, f.length = y.arraySize * x.arraySize * itemSize s.dataType)
    (hrun : runStream w env fuel s (calls.map List.flatten) = some (.ok (st, ns, tr)))
    {name : String} (hname : name ∈ streamDocNames s.version)
    (hj : name.toList = externalKey cfg.version → JsonLib w) {off : Nat} {b : Bytes}
    (hw : (off, b) ∈ writesTo (root ++ '/' :: name.toList) tr) :
    off = 0 ∧ StreamDoc w s (a :: (inner ++ [y, x])) inner cfgs.length name b := by
  obtain ⟨hF, hF0⟩ := frame_size h hd
  rw [← hF] at hf
  have hk : name.toList ∈ metaKeys cfg.version := by
    rw [metaKeys_eq h.commit]; exact List.mem_map_of_mem hname
  have hs := session_docs h.commit h.levels hF0 hf hrun hk
  rw [← hl.streamDoc h.commit, writesTo_about, hs, writesTo_docs _ _ _ (.inr rfl)] at hw
  obtain ⟨d, hd1, hd2⟩ := List.mem_map.1 hw
  cases hd2
  refine ⟨rfl, ?_⟩
  have hmem : b ∈ docsFor w s cfg cfgs.length name.toList := (List.mem_filter.1 hd1).1
  have hpos : 0 < cfgs.length := by
    obtain ⟨rest, hr⟩ := levelConfigs_head h.levels
    rw [hr]; simp
  have hM := multiscales_settings h hd hpos
  have hver := (commit_fields h.commit).2.2.2.2
  have hbase := jsonFile_dump (baseDoc cfg cfgs.length).2
  have hgroup := jsonFile_dump (groupDoc cfg cfgs.length).2
  rcases docs_base w s cfg cfgs.length hmem with ⟨e, rfl⟩ | ⟨e, rfl⟩ | ⟨e, he⟩
  · generalize hB : utf8 ((baseDoc cfg cfgs.length).2.dump 0) = B at *
    unfold baseDoc at e hbase
    by_cases hv : s.version = 2
    · rw [hver, if_pos hv] at e hbase
      dsimp only at e hbase
      rw [str_inj e]
      exact ⟨_, _, hbase, get?_here, hM⟩
    · rw [hver, if_neg hv] at e hbase
      dsimp only at e hbase
      rw [str_inj e]
      refine ⟨_, hbase, ?_, ?_, ?_⟩
      · simp only [Json.val, Json.memberVals]
        rw [get?_next (by decide), get?_next (by decide), get?_next (by decide), get?_here]; rfl
      · simp only [Json.val, Json.memberVals]
        rw [get?_next (by decide), get?_here]; rfl
      · simp only [Json.val, Json.memberVals]
        rw [get?_next (by decide), get?_next (by decide), get?_here]; rfl
  · generalize hB : utf8 ((groupDoc cfg cfgs.length).2.dump 0) = B at *
    unfold groupDoc at e hgroup
    by_cases hv : s.version = 2
    · rw [hver, if_pos hv] at e hgroup
      dsimp only at e hgroup
      rw [str_inj e]
      exact ⟨_, hgroup, get?_here⟩
    · rw [hver, if_neg hv] at e hgroup
      dsimp only at e hgroup
      rw [str_inj e]
      refine ⟨_, _, _, hgroup, get?_here, ?_, hM⟩
      simp only [Json.val, Json.memberVals]
      exact get?_here
  · have := external_doc (hj e) h he
    rw [hver] at e
    unfold externalKey at e
    by_cases hv : s.version = 2
    · rw [if_pos hv] at e; dsimp only at e
      rw [str_inj e]
      exact this
    · rw [if_neg hv] at e; dsimp only at e
      rw [str_inj e]
      exact this

/-- **C39.** Whatever the storage does, every write to a stream-level document is at offset 0 and is a complete
JSON document with the axes and levels of the settings (or the format marker, or the user's metadata as the JSON
library prints it). Array documents: `array_documents` (C09). -/
theorem stream_documents (hj : JsonLib w) (h : Setup w fuel s cfg cfgs)
    (hd : s.dimensions = some (a :: (inner ++ [y, x]))) (hl : LocatedAt s root)
    (hf : ∀ c ∈ calls, ∀ f ∈ c, f.length = y.arraySize * x.arraySize * itemSize s.dataType)
    (hrun : runStream w env fuel s (calls.map List.flatten) = some (.ok (st, ns, tr)))
    {name : String} (hname : name ∈ streamDocNames s.version) {off : Nat} {b : Bytes}
    (hw : (off, b) ∈ writesTo (root ++ '/' :: name.toList) tr) :
    off = 0 ∧ StreamDoc w s (a :: (inner ++ [y, x])) inner cfgs.length name b :=
  stream_documents_of h hd hl hf hrun hname (fun _ => hj) hw

end
end AZ
