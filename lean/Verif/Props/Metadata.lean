import Verif.Lemmas.DocPaths
import Verif.Props.ReadBackV2

set_option linter.unusedSimpArgs false

/-!
# C09, C10, C38, C39: metadata documents

Sessions of whole frames on any storage (writes may fail or be lost), both versions, filesystem and S3 names.
-/

namespace AZ
open Spec

/-- Codec name, level and shuffle of the settings. -/
def codecSetting (s : Settings) : Option (String × Nat × Nat) :=
  s.compression.map fun c => (codecNameOf c.codec, c.level, c.shuffle)

/-- Compression settings, if present, select a compressor (see C37 for the other case). -/
def RealCodec (s : Settings) : Prop := ∀ c, s.compression = some c → c.compressor ≠ 0

/-- `v` is a correct array document of level `i` for dimensions `ds` and `m` steps along the append dimension. -/
def LevelDoc (s : Settings) (ds : List DimProps) (i m : Nat) (v : JVal) : Prop :=
  if s.version = 2 then
    ArrayDocV2 v (m :: sizesAt i ds.tail) (chunksAt i ds) (typeNameV2 s.dataType) (codecSetting s)
  else
    ArrayDocV3 v (m :: sizesAt i ds.tail) (chunksAt i ds) (shardsAt i ds) (typeNameV3 s.dataType) (codecSetting s)

section
variable {w : World} {env : Env} {fuel : Nat} {s : Settings} {cfg : WConfig} {cfgs : List WConfig}
  {a y x : DimProps} {inner : List DimProps} {root : Text} {calls : List (List Bytes)}
  {st : SState} {ns : List Nat} {tr : List Ev}

theorem codec_eq (h : Setup w fuel s cfg cfgs) (hr : RealCodec s) {c : WConfig} (hi : Inherits cfg c) :
    codecOf c.compression = codecSetting s := by
  rw [← hi.compression, (commit_fields h.commit).2.2.2.1]
  unfold codecOf codecSetting
  cases hs : s.compression with
  | none => rfl
  | some q =>
    have hv := (validateSettings_ok h.valid).compression q hs
    have hn := hr q hs
    unfold validateCompression at hv
    have hq : q.codec = 1 ∨ q.codec = 2 := by
      split at hv
      · simp at hv
      · split at hv
        · simp at hv
        · split at hv
          · simp at hv
          · rename_i h1 h2 h3
            simp at h2 h3
            have := h3 hn
            omega
    simp only [Option.map_some]
    rcases hq with hq | hq <;> rw [hq] <;> rfl

theorem level_doc (h : Setup w fuel s cfg cfgs) (hz : SizesInRange s) (hr : RealCodec s)
    (hd : s.dimensions = some (a :: (inner ++ [y, x]))) {i : Nat} {c : WConfig} (hc : cfgs[i]? = some c) (m : Nat) :
    ∃ v, JsonFile (metaDoc c m) v ∧ LevelDoc s (a :: (inner ++ [y, x])) i m v := by
  obtain ⟨h1, _⟩ := levelConfigs_inherits h.levels hc
  have hL := h.levelShape hz hd hc
  have hcd := codec_eq h hr h1
  have hdt := (validateSettings_ok h.valid).dtype
  refine ⟨(metaJson c m).val, jsonFile_dump _, ?_⟩
  unfold LevelDoc metaJson
  have hver : c.version = if s.version = 2 then .v2 else .v3 := by
    rw [← h1.same.version]; exact (commit_fields h.commit).2.2.2.2
  rw [hver, List.tail_cons, ← hL.tail, ← hL.chunks, ← hcd]
  by_cases hv : s.version = 2
  · rw [if_pos hv, if_pos hv]
    exact metaV2_doc c m (by rw [hL.dtype]; exact dtypeV2_spec hdt)
  · rw [if_neg hv, if_neg hv, ← hL.shards]
    exact metaV3_doc c m (by rw [hL.dtype]; exact dtypeV3_spec hdt)

theorem writesTo_about (p : Text) (tr : List Ev) : writesTo p tr = writesTo p (about p tr) := by
  unfold writesTo
  induction tr with
  | nil => rfl
  | cons e es ih =>
    by_cases h : e.path = p
    · rw [show about p (e :: es) = e :: about p es from List.filter_cons_of_pos (by simpa using h)]
      simp only [List.filterMap_cons]
      rw [ih]
    · rw [show about p (e :: es) = about p es from List.filter_cons_of_neg (by simpa using h), ← ih]
      simp only [List.filterMap_cons]
      cases e with
      | wrote q off d => dsimp only; rw [if_neg (show q ≠ p from h)]
      | _ => rfl

theorem writesTo_docs (p : Text) (ds : List Bytes) (tl : List Ev) (htl : tl = [] ∨ tl = [.finalized p]) :
    writesTo p (.opened p :: ds.map (Ev.wrote p 0) ++ tl) = ds.map fun d => (0, d) := by
  have : ∀ tl : List Ev, (tl = [] ∨ tl = [.finalized p]) →
      writesTo p (ds.map (Ev.wrote p 0) ++ tl) = ds.map fun d => (0, d) := by
    intro tl htl
    induction ds with
    | nil => rcases htl with rfl | rfl <;> rfl
    | cons d ds ih =>
      unfold writesTo at *
      simp only [List.map_cons, List.cons_append, List.filterMap_cons, if_true]
      rw [ih]
  have h2 := this tl htl
  unfold writesTo at *
  simp only [List.cons_append, List.filterMap_cons]
  exact h2

theorem frame_size (h : Setup w fuel s cfg cfgs) (hd : s.dimensions = some (a :: (inner ++ [y, x]))) :
    bytesOfFrame cfg.dims = y.arraySize * x.arraySize * itemSize s.dataType ∧ 0 < bytesOfFrame cfg.dims := by
  have hD := dimsOf h.valid h.commit hd
  rw [ArrayDims.bytesOfFrame_eq h.dimsValid h.fits]
  exact ⟨hD.frame, ArrayDims.frameBytes_pos h.dimsValid h.fits⟩

theorem framesOfLevel_length (cfg : WConfig) (i : Nat) (frames : List Bytes) :
    (framesOfLevel cfg i frames).length = frames.length / 2 ^ i := levelFrames_length ..

/-- **C09.** Whatever the storage does, every write to the array document of a level is a complete JSON
document at offset 0 with the level's shape, chunk shape (shard shape), data type, compressor and fill value; the
append extent is the least number of steps that covers `k` frames, where `k` never decreases and is at most the
number of frames the level received. -/
theorem array_documents (h : Setup w fuel s cfg cfgs) (hz : SizesInRange s) (hr : RealCodec s)
    (hd : s.dimensions = some (a :: (inner ++ [y, x]))) (hl : LocatedAt s root)
    (hn : calls.flatten.length < 2 ^ 32)
    (hf : ∀ c ∈ calls, ∀ f ∈ c, f.length = y.arraySize * x.arraySize * itemSize s.dataType)
    (hrun : runStream w env fuel s (calls.map List.flatten) = some (.ok (st, ns, tr)))
    {i : Nat} (hi : i < cfgs.length) :
    ∃ ks : List Nat, ks.Pairwise (· ≤ ·) ∧ (∀ k ∈ ks, k ≤ calls.flatten.length / 2 ^ i) ∧
      List.Forall₂ (fun (wr : Nat × Bytes) (k : Nat) => wr.1 = 0 ∧ ∃ v, JsonFile wr.2 v ∧
          LevelDoc s (a :: (inner ++ [y, x])) i (ceilDiv k (prod (sizesAt i inner))) v)
        (writesTo (root ++ '/' :: arrayDocName s.version i) tr) ks := by
  obtain ⟨hF, hF0⟩ := frame_size h hd
  rw [← hF] at hf
  obtain ⟨hS, _⟩ := session_ok h.commit h.levels hF0 hf hrun
  have hc : cfgs[i]? = some cfgs[i] := List.getElem?_eq_getElem hi
  generalize cfgs[i] = c at hc
  obtain ⟨stf, r1, r2⟩ := hS.level i c hc
  obtain ⟨d1, d2⟩ := h.levelDims.1 c (List.mem_of_getElem? hc)
  have hlen := framesOfLevel_length cfg i calls.flatten
  obtain ⟨ks, k1, k2, k3⟩ := runArray_meta d1 d2 (by
    rw [hlen]; exact Nat.lt_of_le_of_lt (Nat.div_le_self _ _) hn) r1
  rw [← hl.arrayDoc h hc, writesTo_about, r2 _ (.inl rfl)]
  have hL := h.levelShape hz hd hc
  rcases k3 with k3 | k3
  · exact ⟨[], .nil, by simp, by rw [k3]; exact .nil⟩
  · refine ⟨ks, k1, fun k hk => hlen ▸ k2 k hk, ?_⟩
    rw [k3]
    have := writesTo_docs (arrayMetaPath c) (ks.map (docFor c)) [.finalized (arrayMetaPath c)] (.inr rfl)
    rw [List.map_map, List.map_map] at this
    rw [show (ks.map fun n => Ev.wrote (arrayMetaPath c) 0 (docFor c n)) =
      ks.map (Ev.wrote (arrayMetaPath c) 0 ∘ docFor c) from rfl, this]
    have hk : ks = ks.map id := (List.map_id _).symm
    conv => rhs; rw [hk]
    apply forall₂_map
    intro k _
    refine ⟨rfl, ?_⟩
    obtain ⟨v, v1, v2⟩ := level_doc h hz hr hd hc (ceilDiv k (prod (aShape c.dims.inner)))
    rw [hL.innerSizes] at v1 v2
    refine ⟨v, ?_, v2⟩
    show JsonFile (docFor c k) v
    unfold docFor
    rw [hL.innerSizes]
    exact v1

/-- The append extent of the documents is the least one that covers the frames. -/
theorem ceilDiv_least {a b m : Nat} (hb : 0 < b) : ceilDiv a b ≤ m ↔ a ≤ m * b := by
  unfold ceilDiv
  rw [Nat.div_le_iff_le_mul_add_pred hb]
  have : b * m = m * b := Nat.mul_comm _ _
  omega

theorem writesTo_open (p : Text) (ds : List Bytes) :
    writesTo p (.opened p :: ds.map (Ev.wrote p 0)) = ds.map fun d => (0, d) := by
  have := writesTo_docs p ds [] (.inl rfl)
  rwa [List.append_nil] at this

theorem MInv.writes {c : WConfig} {st : WState} {ns : List Nat} (h : MInv c st ns) :
    writesTo (arrayMetaPath c) st.trace = ns.map fun n => (0, docFor c n) := by
  rw [writesTo_about, h.tr]
  split
  · rw [show (ns.map fun n => Ev.wrote (arrayMetaPath c) 0 (docFor c n)) =
      (ns.map (docFor c)).map (Ev.wrote (arrayMetaPath c) 0) by rw [List.map_map]; rfl, writesTo_open, List.map_map]
    rfl
  · rename_i hm
    rw [h.closed (by simpa using hm)]
    rfl

theorem writeFrames_minv' {c : WConfig} (hv : c.dims.Valid) (hf : c.dims.Fits) {fs : List Bytes} {st : WState}
    (hn : fs.length < 2 ^ 32) (h : writeFrames env c fs (WState.init c) = .ok st) :
    ∃ ns, MInv c st ns ∧ st.framesWritten = fs.length := by
  obtain ⟨ns, m1, m2⟩ := writeFrames_minv hv hf fs (minv_init c) (by simpa [WState.init] using hn) h
  exact ⟨ns, m1, by rw [m2]; simp [WState.init]⟩

/-- **C09, at the moment of writing.** After any number of frames `fs` and on any storage, the next frame `f`
either writes no array document or exactly one: a complete document at offset 0 whose append extent is the least
one covering all the frames `fs ++ [f]`. Closing the array likewise, covering `fs`. -/
theorem array_document_step (h : Setup w fuel s cfg cfgs) (hz : SizesInRange s) (hr : RealCodec s)
    (hd : s.dimensions = some (a :: (inner ++ [y, x]))) (hl : LocatedAt s root)
    {i : Nat} {c : WConfig} (hc : cfgs[i]? = some c) {fs : List Bytes} {ws : WState}
    (hn : fs.length + 1 < 2 ^ 32) (hrun : writeFrames env c fs (WState.init c) = .ok ws) :
    (∀ (f : Bytes) (ws' : WState) (k : Nat), writeFrame env c f ws = .ok (ws', k) → k ≠ 0 →
      ∃ new, writesTo (root ++ '/' :: arrayDocName s.version i) ws'.trace =
          writesTo (root ++ '/' :: arrayDocName s.version i) ws.trace ++ new ∧
        (new = [] ∨ ∃ doc v, new = [(0, doc)] ∧ JsonFile doc v ∧
          LevelDoc s (a :: (inner ++ [y, x])) i (ceilDiv (fs.length + 1) (prod (sizesAt i inner))) v)) ∧
    (∀ ws', finalizeArray env c ws = .ok ws' →
      ∃ new, writesTo (root ++ '/' :: arrayDocName s.version i) ws'.trace =
          writesTo (root ++ '/' :: arrayDocName s.version i) ws.trace ++ new ∧
        (new = [] ∨ ∃ doc v, new = [(0, doc)] ∧ JsonFile doc v ∧
          LevelDoc s (a :: (inner ++ [y, x])) i (ceilDiv fs.length (prod (sizesAt i inner))) v)) := by
  obtain ⟨d1, d2⟩ := h.levelDims.1 c (List.mem_of_getElem? hc)
  obtain ⟨ns, m1, m2⟩ := writeFrames_minv' d1 d2 (by omega) hrun
  have hL := h.levelShape hz hd hc
  rw [← hl.arrayDoc h hc]
  have key : ∀ (n : Nat) (ns' : List Nat) (ws' : WState), MInv c ws' ns' → (ns' = ns ∨ ns' = ns ++ [n]) →
      ∃ new, writesTo (arrayMetaPath c) ws'.trace = writesTo (arrayMetaPath c) ws.trace ++ new ∧
        (new = [] ∨ ∃ doc v, new = [(0, doc)] ∧ JsonFile doc v ∧
          LevelDoc s (a :: (inner ++ [y, x])) i (ceilDiv n (prod (sizesAt i inner))) v) := by
    intro n ns' ws' hm hns
    rw [hm.writes, m1.writes]
    rcases hns with rfl | rfl
    · exact ⟨[], by simp, .inl rfl⟩
    · refine ⟨[(0, docFor c n)], by simp, .inr ?_⟩
      obtain ⟨v, v1, v2⟩ := level_doc h hz hr hd hc (ceilDiv n (prod (aShape c.dims.inner)))
      exact ⟨_, v, rfl, v1, by rw [← hL.innerSizes]; exact v2⟩
  constructor
  · intro f ws' k hw hk
    obtain ⟨ns', n1, _, n3⟩ := writeFrame_minv d1 d2 m1 (by omega) hw hk
    rw [m2] at n3
    exact key _ _ _ n1 n3
  · intro ws' hw
    rw [finalizeArray_seq] at hw
    obtain ⟨s2, h2, hw⟩ := Res.bind_eq_ok.1 hw
    obtain ⟨s3, h3, hw⟩ := Res.bind_eq_ok.1 hw
    simp only [Res.pure_eq, Res.ok.injEq] at hw
    obtain ⟨ns2, k1, _, k3⟩ := flush_minv d1 d2 (st := { ws with finalizing := true })
      (m1.mono rfl rfl rfl (Nat.le_refl _)) (by rw [show ({ ws with finalizing := true } : WState).framesWritten = _ from m2]; omega) h2
    rw [show ({ ws with finalizing := true } : WState).framesWritten = fs.length from m2] at k3
    obtain ⟨new, e1, e2⟩ := key _ _ _ k1 k3
    refine ⟨new, ?_, e2⟩
    rw [← e1]
    have t3 : writesTo (arrayMetaPath c) s3.trace = writesTo (arrayMetaPath c) s2.trace := by
      split at h3
      · obtain ⟨_, _, h3⟩ := Res.bind_eq_ok.1 h3
        simp only [Res.pure_eq, Res.ok.injEq] at h3
        subst h3
        simp [writesTo]
      · cases h3; rfl
    rw [← t3, ← hw]
    simp [writesTo, List.filterMap_map, Function.comp_def]

/-- In a finished V2 dataset the array document of level `i` exists exactly when the level received a frame,
and describes all of them. -/
theorem v2_final_document (h : Setup w fuel s cfg cfgs) (hz : SizesInRange s) (hr : RealCodec s) (hE : StorageOk env s)
    (hV : s.version = 2) (hd : s.dimensions = some (a :: (inner ++ [y, x]))) (hl : StoredAt s root)
    (hfr : Fresh w s root) (hn : calls.flatten.length < 2 ^ 32)
    (hf : ∀ c ∈ calls, ∀ f ∈ c, f.length = y.arraySize * x.arraySize * itemSize s.dataType) :
    ∃ st tr, runStream w env fuel s (calls.map List.flatten) =
        some (.ok (st, calls.map (fun c => c.flatten.length), tr)) ∧
      ∀ i, i < cfgs.length →
        (calls.flatten.length / 2 ^ i = 0 → fileInStore w cfg (root ++ '/' :: arrayDocName 2 i) tr = none) ∧
        (calls.flatten.length / 2 ^ i ≠ 0 → ∃ b v, fileInStore w cfg (root ++ '/' :: arrayDocName 2 i) tr = some b ∧
          JsonFile b v ∧ LevelDoc s (a :: (inner ++ [y, x])) i
            (ceilDiv (calls.flatten.length / 2 ^ i) (prod (sizesAt i inner))) v) := by
  have hD := dimsOf h.valid h.commit hd
  rw [← hD.frame] at hf
  obtain ⟨st, tr, h1, _, h3⟩ := session_v2 h hE hV hn hf
  refine ⟨st, tr, h1, ?_⟩
  intro i hi
  have hc : cfgs[i]? = some cfgs[i] := List.getElem?_eq_getElem hi
  generalize cfgs[i] = c at hc
  obtain ⟨d1, d2⟩ := h.levelDims.1 c (List.mem_of_getElem? hc)
  have hp := (show LocatedAt s root from .inl hl).arrayDoc h hc
  rw [hV] at hp
  have ho : Owned c (root ++ '/' :: arrayDocName 2 i) := .inl hp.symm
  have hL := h.levelShape hz hd hc
  rw [level_file h hfr h3 hc ho, ← hp, fileAfter_meta_v2 env d1 d2, framesOfLevel_length, hL.innerSizes]
  constructor
  · intro hz; rw [if_pos hz]
  · intro hz'
    rw [if_neg hz']
    obtain ⟨v, v1, v2⟩ := level_doc h hz hr hd hc (ceilDiv (calls.flatten.length / 2 ^ i) (prod (sizesAt i inner)))
    exact ⟨_, v, rfl, v1, v2⟩

theorem replicate_pairwise {d : Bytes} (k : Nat) : (List.replicate k d).Pairwise fun a b => a.length ≤ b.length := by
  rw [List.pairwise_replicate]; simp

/-- **C10.** Whatever the storage does and at every instant of the session (every prefix `tr1` of its history),
each metadata file — the array document of each level and each stream-level document — holds exactly the last
document handed to it: no trailing bytes of an earlier one. -/
theorem metadata_never_stale (h : Setup w fuel s cfg cfgs)
    (hd : s.dimensions = some (a :: (inner ++ [y, x]))) (hl : LocatedAt s root)
    (hn : calls.flatten.length < 2 ^ 32)
    (hf : ∀ c ∈ calls, ∀ f ∈ c, f.length = y.arraySize * x.arraySize * itemSize s.dataType)
    (hrun : runStream w env fuel s (calls.map List.flatten) = some (.ok (st, ns, tr)))
    {tr1 : List Ev} (h1 : tr1 <+: tr) :
    (∀ i, i < cfgs.length → fileAfter (root ++ '/' :: arrayDocName s.version i) tr1 =
      lastDocument (root ++ '/' :: arrayDocName s.version i) tr1) ∧
    (∀ name ∈ streamDocNames s.version, fileAfter (root ++ '/' :: name.toList) tr1 =
      lastDocument (root ++ '/' :: name.toList) tr1) := by
  obtain ⟨hF, hF0⟩ := frame_size h hd
  rw [← hF] at hf
  obtain ⟨hS, _⟩ := session_ok h.commit h.levels hF0 hf hrun
  constructor
  · intro i hi
    have hc : cfgs[i]? = some cfgs[i] := List.getElem?_eq_getElem hi
    generalize cfgs[i] = c at hc
    obtain ⟨stf, r1, r2⟩ := hS.level i c hc
    obtain ⟨d1, d2⟩ := h.levelDims.1 c (List.mem_of_getElem? hc)
    have hlen := framesOfLevel_length cfg i calls.flatten
    obtain ⟨ks, k1, k2, k3⟩ := runArray_meta d1 d2 (by
      rw [hlen]; exact Nat.lt_of_le_of_lt (Nat.div_le_self _ _) hn) r1
    rw [← hl.arrayDoc h hc]
    refine inPlace_always ?_ h1
    rw [r2 _ (.inl rfl)]
    rcases k3 with k3 | k3
    · exact .inl k3
    · refine .inr ⟨ks.map (docFor c), ?_, .inr ?_⟩
      · rw [List.pairwise_map]
        exact k1.imp fun hab => metaDoc_length_mono c (ceilDiv_mono hab)
      · rw [k3, List.map_map]; rfl
  · intro name hname
    have hk : name.toList ∈ metaKeys cfg.version := by
      rw [metaKeys_eq h.commit]; exact List.mem_map_of_mem hname
    have := session_docs h.commit h.levels hF0 hf hrun hk
    rw [← hl.streamDoc h.commit]
    refine inPlace_always ?_ h1
    rw [this]
    refine .inr ⟨_, ?_, .inr rfl⟩
    obtain ⟨d, k, e⟩ := docsFor_eq w s cfg cfgs.length name.toList
    unfold kept
    rw [e]
    exact (replicate_pairwise k).filter _

end

/-! The sample session: V2, three levels, eleven frames; level 0 ends with extent 4 = ⌈11 / 3⌉. -/

theorem Sample.sizesInRange : SizesInRange Sample.settings := by
  intro d hd
  have : d ∈ [Sample.dimT, Sample.dimC, Sample.dimY, Sample.dimX] := hd
  simp only [List.mem_cons, List.not_mem_nil, or_false] at this
  rcases this with rfl | rfl | rfl | rfl <;> decide

theorem Sample.realCodec : RealCodec Sample.settings := by intro c hc; cases hc

example : ∃ st ns tr, runStream Sample.world Sample.env 9 Sample.settings (Sample.calls.map List.flatten) =
        some (.ok (st, ns, tr)) ∧ ∃ b v, fileInStore Sample.world Sample.cfg "/tmp/a.zarr/0/.zarray".toList tr = some b ∧
          JsonFile b v ∧ ArrayDocV2 v [4, 3, 5, 7] [2, 2, 2, 3] "<u2" none := by
  obtain ⟨cfgs, h, hl⟩ := Sample.setup
  obtain ⟨st, tr, h1, h2⟩ := v2_final_document (calls := Sample.calls) h Sample.sizesInRange Sample.realCodec
    Sample.storageOk rfl (a := Sample.dimT) (inner := [Sample.dimC]) (y := Sample.dimY) (x := Sample.dimX) rfl
    Sample.storedAt Sample.fresh (by decide) Sample.calls_sized
  obtain ⟨b, v, e1, e2, e3⟩ := (h2 0 (by omega)).2 (by decide)
  refine ⟨st, _, tr, h1, b, v, e1, e2, ?_⟩
  unfold LevelDoc at e3
  rw [if_pos (show Sample.settings.version = 2 from rfl)] at e3
  exact e3

end AZ
