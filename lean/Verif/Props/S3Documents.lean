import Verif.Props.S3Streams
import Verif.Props.StreamFiles
import Verif.Props.ObjectsV3

set_option linter.unusedSimpArgs false

/-!
# C32: the documents of an S3 stream

The metadata documents of a stream are rewritten from their beginning while the stream runs. In a bucket nothing of this
is visible before the stream is destroyed; then each document is uploaded once, in its last form. A document that was
never written (`0/.zattrs` of Zarr V2) is not created.
-/

namespace AZ.S3
open Spec

/-- Documents written at offset 0, all but the last smaller than a part. -/
def Rewritten (P : Nat) (ds : List Bytes) : Prop := ∀ d ∈ ds.dropLast, d.length < P

theorem overlay_zero (B d : Bytes) (h : B.length ≤ d.length) : overlay B (0, d) = d := by
  unfold overlay
  split
  · rename_i he
    have he' : d = [] := by simpa using he
    subst he'
    simpa using h
  · simp

theorem rewrites_inOrder {P : Nat} (ds : List Bytes) : ∀ B : Bytes, (ds ≠ [] → B.length < P) → Rewritten P ds →
    (B :: ds).Pairwise (fun a b => a.length ≤ b.length) →
    InOrder P B (ds.map fun d => (0, d)) ∧ (ds.map fun d => (0, d)).foldl overlay B = (B :: ds).getLast (by simp) ∧
    ((∀ d ∈ ds, d.length ≤ P * (2 ^ 32 - 1)) → B.length ≤ P * (2 ^ 32 - 1) →
      Bounded (P * (2 ^ 32 - 1)) B (ds.map fun d => (0, d))) := by
  induction ds with
  | nil => intro B _ _ _; exact ⟨trivial, rfl, fun _ h => h⟩
  | cons d ds ih =>
    intro B hB hr hp
    have hb := hB (by simp)
    rw [List.pairwise_cons] at hp
    have hov := overlay_zero B d (hp.1 d (by simp))
    obtain ⟨i1, i2, i3⟩ := ih d (by
        intro hne
        refine hr d ?_
        cases ds with
        | nil => exact absurd rfl hne
        | cons e es => simp [List.dropLast])
      (by
        intro e he
        refine hr e ?_
        cases ds with
        | nil => simp at he
        | cons f fs => simp only [List.dropLast_cons_cons, List.mem_cons]; exact .inr he)
      hp.2
    simp only [List.map_cons, InOrder, Bounded, List.foldl_cons, hov]
    refine ⟨⟨fun _ => ⟨?_, Nat.zero_le _⟩, i1⟩, ?_, ?_⟩
    · rw [Nat.div_eq_of_lt hb]; simp
    · rw [i2]; simp
    · intro h1 h2
      exact ⟨h2, i3 (fun e he => h1 e (by simp [he])) (h1 d (by simp))⟩

/-- An object that is rewritten in place and finalized, on a server that confirms every request. -/
theorem objAfter_inPlace {P : Nat} (hP : 0 < P) {r : Nat → Reply} (h : Spec.Healthy r) {junk : Bytes} (hj : junk.length = P)
    {old : Option Bytes} {p : Text} {ds : List Bytes} (hs : ds.Pairwise (fun a b => a.length ≤ b.length))
    (hr : Rewritten P ds) (hn : ∀ d ∈ ds, d.length ≤ P * (2 ^ 32 - 1)) :
    objAfter P r junk old p (.opened p :: ds.map (Ev.wrote p 0) ++ [.finalized p]) =
      ⟨none, (if ds.getLast?.getD [] = [] then none else some (ds.getLast?.getD [])).or old, true⟩ := by
  obtain ⟨i1, i2, i3⟩ := rewrites_inOrder ds [] (fun _ => hP) hr (by
    rw [List.pairwise_cons]; exact ⟨fun _ _ => Nat.zero_le _, hs⟩)
  have k := objAfter_closed hP h hj (old := old) (p := p) i1 (i3 hn (Nat.zero_le _))
  have e : wrotes p (ds.map fun d => (0, d)) = ds.map (Ev.wrote p 0) := by
    unfold wrotes
    rw [List.map_map]
    rfl
  have e2 : ([] :: ds).getLast (by simp) = ds.getLast?.getD [] := by
    cases ds with
    | nil => rfl
    | cons d ds => rw [List.getLast?_eq_some_getLast (by simp)]; simp
  rw [e, i2, e2] at k
  exact k

end AZ.S3

namespace AZ
open Spec S3

/-- What a bucket holds of a document: nothing new if it was never written. -/
def uploaded (new old : Option Bytes) : Option Bytes :=
  match new with
  | some (b :: bs) => some (b :: bs)
  | _ => old

/-- The paths of the documents of a stream. -/
def IsDocument (s : Settings) (root : Text) (levels : Nat) (p : Text) : Prop :=
  (∃ i < levels, p = root ++ '/' :: arrayDocName s.version i) ∨
  ∃ name ∈ streamDocNames s.version, p = root ++ '/' :: name.toList

section
variable {w : World} {env : Env} {fuel : Nat} {s : Settings} {cfg : WConfig} {cfgs : List WConfig}
  {a y x : DimProps} {inner : List DimProps} {root : Text} {calls : List (List Bytes)} {st : SState} {ns : List Nat}
  {tr : List Ev}

theorem writesTo_filter (p : Text) (tr : List Ev) : writesTo p tr = writesTo p (about p tr) := writesTo_about p tr

theorem writesTo_session {p : Text} {ds : List Bytes} :
    writesTo p (.opened p :: ds.map (Ev.wrote p 0) ++ [.finalized p]) = ds.map fun d => (0, d) := by
  unfold writesTo
  rw [List.cons_append, List.filterMap_cons]
  simp [List.filterMap_append, List.filterMap_map, Function.comp_def]

/-- The life of every document of a stream, on any storage. -/
theorem document_life (h : Setup w fuel s cfg cfgs) (hd : s.dimensions = some (a :: (inner ++ [y, x])))
    (hl : LocatedAt s root) (hn : calls.flatten.length < 2 ^ 32)
    (hf : ∀ c ∈ calls, ∀ f ∈ c, f.length = y.arraySize * x.arraySize * itemSize s.dataType)
    (hrun : runStream w env fuel s (calls.map List.flatten) = some (.ok (st, ns, tr)))
    {p : Text} (hp : IsDocument s root cfgs.length p) :
    about p tr = [] ∨ ∃ ds : List Bytes, ds.Pairwise (fun a b => a.length ≤ b.length) ∧
      about p tr = .opened p :: ds.map (Ev.wrote p 0) ++ [.finalized p] := by
  obtain ⟨hF, hF0⟩ := frame_size h hd
  rw [← hF] at hf
  obtain ⟨hS, _⟩ := session_ok h.commit h.levels hF0 hf hrun
  rcases hp with ⟨i, hi, rfl⟩ | ⟨name, hname, rfl⟩
  · have hc : cfgs[i]? = some cfgs[i] := List.getElem?_eq_getElem hi
    generalize cfgs[i] = c at hc
    obtain ⟨stf, r1, r2⟩ := hS.level i c hc
    obtain ⟨d1, d2⟩ := h.levelDims.1 c (List.mem_of_getElem? hc)
    have hlen := framesOfLevel_length cfg i calls.flatten
    obtain ⟨ks, k1, k2, k3⟩ := runArray_meta d1 d2 (by
      rw [hlen]; exact Nat.lt_of_le_of_lt (Nat.div_le_self _ _) hn) r1
    rw [← hl.arrayDoc h hc, r2 _ (.inl rfl)]
    rcases k3 with k3 | k3
    · exact .inl k3
    · refine .inr ⟨ks.map (docFor c), ?_, ?_⟩
      · rw [List.pairwise_map]
        exact k1.imp fun hab => metaDoc_length_mono c (ceilDiv_mono hab)
      · rw [k3, List.map_map]; rfl
  · have hk : name.toList ∈ metaKeys cfg.version := by
      rw [metaKeys_eq h.commit]; exact List.mem_map_of_mem hname
    have := session_docs h.commit h.levels hF0 hf hrun hk
    rw [← hl.streamDoc h.commit, this]
    refine .inr ⟨_, ?_, rfl⟩
    obtain ⟨d, k, e⟩ := docsFor_eq w s cfg cfgs.length name.toList
    unfold kept
    rw [e]
    exact (replicate_pairwise k).filter _

/-- **C32, documents** (both versions): after the session the bucket holds under the name of every document the last
form that was written, uploaded in one piece, and no sink reported a failure; a document that was never written, or is
empty, is not created. The forms before the last one must be smaller than a part (5 MiB), the last one may have up to
`2^32 - 1` parts. -/
theorem s3_documents (h : Setup w fuel s cfg cfgs) (hd : s.dimensions = some (a :: (inner ++ [y, x])))
    (hr : InBucket s root) (hn : calls.flatten.length < 2 ^ 32)
    (hf : ∀ c ∈ calls, ∀ f ∈ c, f.length = y.arraySize * x.arraySize * itemSize s.dataType)
    (hrun : runStream w env fuel s (calls.map List.flatten) = some (.ok (st, ns, tr)))
    {p : Text} (hp : IsDocument s root cfgs.length p)
    {P : Nat} (hP : 0 < P) (hsmall : ∀ d ∈ (writesTo p tr).dropLast, d.2.length < P)
    (hlast : ∀ d ∈ writesTo p tr, d.2.length ≤ P * (2 ^ 32 - 1))
    {srv : Text → Nat → Reply} (hsrv : Spec.Healthy (srv p)) {junk : Bytes} (hj : junk.length = P)
    (old : Text → Option Bytes) :
    bucketAfter P srv junk old tr p = ⟨none, uploaded (lastDocument p tr) (old p), true⟩ := by
  unfold bucketAfter
  rw [objAfter_filter, lastDocument_filter]
  rw [writesTo_filter] at hsmall hlast
  have hlife := document_life h hd hr.located hn hf hrun hp
  show objAfter P (srv p) junk (old p) p (about p tr) = _
  rcases hlife with e | ⟨ds, hs, e⟩
  · rw [e]
    rfl
  · rw [e] at hsmall hlast ⊢
    rw [writesTo_session] at hsmall hlast
    rw [objAfter_inPlace hP hsrv hj hs]
    · have hl : lastDocument p (.opened p :: ds.map (Ev.wrote p 0) ++ [.finalized p]) = some (ds.getLast?.getD []) :=
        lastDocument_docs _ _
      rw [hl]
      unfold uploaded
      generalize ds.getLast?.getD [] = b
      cases b <;> simp
    · intro d hd'
      rw [← List.map_dropLast] at hsmall
      exact hsmall (0, d) (List.mem_map_of_mem hd')
    · intro d hd'
      exact hlast (0, d) (List.mem_map_of_mem hd')

/-- The documents of a session fit in one part each. -/
def SmallDocuments (s : Settings) (root : Text) (levels P : Nat) (tr : List Ev) : Prop :=
  ∀ p, IsDocument s root levels p → ∀ d ∈ writesTo p tr, d.2.length < P

theorem SmallDocuments.object {P : Nat} (hsd : SmallDocuments s root cfgs.length P tr) (h : Setup w fuel s cfg cfgs)
    (hd : s.dimensions = some (a :: (inner ++ [y, x]))) (hr : InBucket s root) (hn : calls.flatten.length < 2 ^ 32)
    (hf : ∀ c ∈ calls, ∀ f ∈ c, f.length = y.arraySize * x.arraySize * itemSize s.dataType)
    (hrun : runStream w env fuel s (calls.map List.flatten) = some (.ok (st, ns, tr)))
    {p : Text} (hp : IsDocument s root cfgs.length p) (hP : 0 < P)
    {srv : Text → Nat → Reply} (hsrv : ∀ p, Spec.Healthy (srv p)) {junk : Bytes} (hj : junk.length = P)
    (old : Text → Option Bytes) :
    bucketAfter P srv junk old tr p = ⟨none, uploaded (fileAfter p tr) (old p), true⟩ := by
  rw [s3_documents h hd hr hn hf hrun hp hP (fun d hd' => hsd p hp d ((List.dropLast_sublist _).subset hd'))
    (fun d hd' => by
      have := hsd p hp d hd'
      have : P * 1 ≤ P * (2 ^ 32 - 1) := Nat.mul_le_mul_left _ (by decide)
      omega) (hsrv p) hj old]
  have h10 := metadata_never_stale h hd hr.located hn hf hrun (List.prefix_refl tr)
  rcases hp with ⟨i, hi, rfl⟩ | ⟨name, hname, rfl⟩
  · rw [h10.1 i hi]
  · rw [h10.2 name hname]

theorem jsonFile_uploaded {b : Bytes} {v : JVal} (h : JsonFile b v) (old : Option Bytes) :
    uploaded (some b) old = some b := by
  cases b with
  | nil => exact absurd h (empty_not_json v)
  | cons c cs => rfl

/-- **C32, array documents of Zarr V2**: after the session the bucket holds, for every level that received frames, an
array document that describes all of them; for other levels nothing is uploaded. -/
theorem s3_v2_array_documents (h : Setup w fuel s cfg cfgs) (hz : SizesInRange s) (hrc : RealCodec s)
    (hE : StorageOk env s) (hV : s.version = 2) (hd : s.dimensions = some (a :: (inner ++ [y, x]))) (hr : InBucket s root)
    (hn : calls.flatten.length < 2 ^ 32)
    (hf : ∀ c ∈ calls, ∀ f ∈ c, f.length = y.arraySize * x.arraySize * itemSize s.dataType)
    {P : Nat} (hP : 0 < P) {srv : Text → Nat → Reply} (hsrv : ∀ p, Spec.Healthy (srv p)) {junk : Bytes}
    (hj : junk.length = P) (old : Text → Option Bytes) :
    ∃ st tr, runStream w env fuel s (calls.map List.flatten) =
        some (.ok (st, calls.map (fun c => c.flatten.length), tr)) ∧ (SmallDocuments s root cfgs.length P tr →
      ∀ i, i < cfgs.length →
        (calls.flatten.length / 2 ^ i = 0 → bucketAfter P srv junk old tr (root ++ '/' :: arrayDocName 2 i) =
          ⟨none, old (root ++ '/' :: arrayDocName 2 i), true⟩) ∧
        (calls.flatten.length / 2 ^ i ≠ 0 → ∃ b v,
          bucketAfter P srv junk old tr (root ++ '/' :: arrayDocName 2 i) = ⟨none, some b, true⟩ ∧
          JsonFile b v ∧ LevelDoc s (a :: (inner ++ [y, x])) i
            (ceilDiv (calls.flatten.length / 2 ^ i) (prod (sizesAt i inner))) v)) := by
  have hD := dimsOf h.valid h.commit hd
  have hf' := hf
  rw [← hD.frame] at hf'
  obtain ⟨st, tr, h1, _, h3⟩ := session_v2 h hE hV hn hf'
  refine ⟨st, tr, h1, ?_⟩
  intro hsd i hi
  have hdoc : IsDocument s root cfgs.length (root ++ '/' :: arrayDocName 2 i) := .inl ⟨i, hi, by rw [hV]⟩
  rw [hsd.object h hd hr hn hf h1 hdoc hP hsrv hj old]
  have hc : cfgs[i]? = some cfgs[i] := List.getElem?_eq_getElem hi
  generalize cfgs[i] = c at hc
  obtain ⟨d1, d2⟩ := h.levelDims.1 c (List.mem_of_getElem? hc)
  have hp := hr.located.arrayDoc h hc
  rw [hV] at hp
  have ho : Owned c (root ++ '/' :: arrayDocName 2 i) := .inl hp.symm
  have hL := h.levelShape hz hd hc
  have hfile : fileAfter (root ++ '/' :: arrayDocName 2 i) tr = fileAfter (root ++ '/' :: arrayDocName 2 i)
      (runEventsV2 env c (framesOfLevel cfg i calls.flatten).flatten (framesOfLevel cfg i calls.flatten).length) :=
    fileAfter_about (h3.level i c hc _ ho)
  rw [hfile]
  have hmeta := fileAfter_meta_v2 env d1 d2 (framesOfLevel cfg i calls.flatten).flatten (framesOfLevel cfg i calls.flatten).length
  rw [hp, framesOfLevel_length, hL.innerSizes] at hmeta
  rw [framesOfLevel_length, hmeta]
  constructor
  · intro hz; rw [if_pos hz]; rfl
  · intro hz'
    rw [if_neg hz']
    obtain ⟨v, v1, v2⟩ := level_doc h hz hrc hd hc (ceilDiv (calls.flatten.length / 2 ^ i) (prod (sizesAt i inner)))
    exact ⟨_, v, by rw [jsonFile_uploaded v1], v1, v2⟩

/-- **C32, array documents of Zarr V3**: the bucket holds for every level exactly the document a filesystem store would
hold (which covers `docFrames` of its frames, see C53). -/
theorem s3_v3_array_documents (h : Setup w fuel s cfg cfgs) (h3 : cfg.dims.FitsV3) (hz : SizesInRange s) (hrc : RealCodec s)
    (hE : StorageOk env s) (ho : SmallOverhead env) (hV : s.version = 3)
    (hd : s.dimensions = some (a :: (inner ++ [y, x]))) (hr : InBucket s root)
    (hn : calls.flatten.length < 2 ^ 32)
    (hf : ∀ c ∈ calls, ∀ f ∈ c, f.length = y.arraySize * x.arraySize * itemSize s.dataType)
    {P : Nat} (hP : 0 < P) {srv : Text → Nat → Reply} (hsrv : ∀ p, Spec.Healthy (srv p)) {junk : Bytes}
    (hj : junk.length = P) (old : Text → Option Bytes) :
    ∃ st tr, runStream w env fuel s (calls.map List.flatten) =
        some (.ok (st, calls.map (fun c => c.flatten.length), tr)) ∧ (SmallDocuments s root cfgs.length P tr →
      ∀ i, i < cfgs.length → ∀ m, m = docFrames (framesPerAt i a inner) (shardAt i a) (calls.flatten.length / 2 ^ i) →
        (m = 0 → bucketAfter P srv junk old tr (root ++ '/' :: arrayDocName 3 i) =
          ⟨none, old (root ++ '/' :: arrayDocName 3 i), true⟩) ∧
        (m ≠ 0 → ∃ b v,
          bucketAfter P srv junk old tr (root ++ '/' :: arrayDocName 3 i) = ⟨none, some b, true⟩ ∧
          JsonFile b v ∧ LevelDoc s (a :: (inner ++ [y, x])) i (ceilDiv m (prod (sizesAt i inner))) v)) := by
  have hD := dimsOf h.valid h.commit hd
  have hf' := hf
  rw [← hD.frame] at hf'
  obtain ⟨st, tr, h1, _, hs⟩ := session_v3 h h3 hE ho hV hn hf'
  refine ⟨st, tr, h1, ?_⟩
  intro hsd i hi m hm
  have hdoc : IsDocument s root cfgs.length (root ++ '/' :: arrayDocName 3 i) := .inl ⟨i, hi, by rw [hV]⟩
  rw [hsd.object h hd hr hn hf h1 hdoc hP hsrv hj old]
  have hc : cfgs[i]? = some cfgs[i] := List.getElem?_eq_getElem hi
  generalize cfgs[i] = c at hc
  obtain ⟨d1, d2⟩ := h.levelDims.1 c (List.mem_of_getElem? hc)
  have d3 := h.levelFitsV3 h3 c (List.mem_of_getElem? hc)
  have hp := hr.located.arrayDoc h hc
  rw [hV] at hp
  have hown : Owned c (root ++ '/' :: arrayDocName 3 i) := .inl hp.symm
  have hL := h.levelShape hz hd hc
  have hfile : fileAfter (root ++ '/' :: arrayDocName 3 i) tr = fileAfter (root ++ '/' :: arrayDocName 3 i)
      (runEventsV3 env c (framesOfLevel cfg i calls.flatten).flatten (framesOfLevel cfg i calls.flatten).length) :=
    fileAfter_about (hs.level i c hc _ hown)
  rw [hfile]
  have hmeta := fileAfter_meta_v3 (env := env) d1 d2 d3 (framesOfLevel cfg i calls.flatten).flatten
    (framesOfLevel cfg i calls.flatten).length
  rw [hp, framesOfLevel_length, hL.innerSizes, hL.framesPer, hL.shardSize, ← hm] at hmeta
  rw [framesOfLevel_length, hmeta]
  constructor
  · intro hz; rw [if_pos hz]; rfl
  · intro hz'
    rw [if_neg hz']
    obtain ⟨v, v1, v2⟩ := level_doc h hz hrc hd hc (ceilDiv m (prod (sizesAt i inner)))
    exact ⟨_, v, by rw [jsonFile_uploaded v1], v1, v2⟩

theorem streamDoc_ne (hprint : ∀ m d, w.parseJson m = some d → d ≠ []) {ds inner : List DimProps} {n : Nat} {name : String}
    {b : Bytes} (h : StreamDoc w s ds inner n name b) : b ≠ [] := by
  rintro rfl
  unfold StreamDoc at h
  split at h
  · obtain ⟨v, _, h, _⟩ := h; exact empty_not_json v h
  · obtain ⟨v, h, _⟩ := h; exact empty_not_json v h
  · obtain ⟨v, h, _⟩ := h; exact empty_not_json v h
  · obtain ⟨v, _, _, h, _⟩ := h; exact empty_not_json v h
  · exact hprint _ _ h rfl
  · exact hprint _ _ h rfl
  · exact h

/-- **C32, documents of the stream** (both versions): after the session every stream-level document is in the bucket and
has the values of the settings, except `0/.zattrs` (Zarr V2), which is never uploaded. (`hprint`: the JSON library never
prints a value as the empty text.) -/
theorem s3_stream_documents (hj' : JsonLib w) (hprint : ∀ m d, w.parseJson m = some d → d ≠ []) (hm : HasCustomText s) (h : Setup w fuel s cfg cfgs) (hE : StorageOk env s)
    (hd : s.dimensions = some (a :: (inner ++ [y, x]))) (hr : InBucket s root) (hn : calls.flatten.length < 2 ^ 32)
    (hf : ∀ c ∈ calls, ∀ f ∈ c, f.length = y.arraySize * x.arraySize * itemSize s.dataType)
    (hrun : runStream w env fuel s (calls.map List.flatten) = some (.ok (st, ns, tr)))
    {P : Nat} (hP : 0 < P) {srv : Text → Nat → Reply} (hsrv : ∀ p, Spec.Healthy (srv p)) {junk : Bytes}
    (hj : junk.length = P) (old : Text → Option Bytes) (hsd : SmallDocuments s root cfgs.length P tr) :
    (∀ name ∈ streamDocNames s.version, name ≠ "0/.zattrs" →
      ∃ b, bucketAfter P srv junk old tr (root ++ '/' :: name.toList) = ⟨none, some b, true⟩ ∧
        StreamDoc w s (a :: (inner ++ [y, x])) inner cfgs.length name b) ∧
    (s.version = 2 → bucketAfter P srv junk old tr (root ++ "/0/.zattrs".toList) =
      ⟨none, old (root ++ "/0/.zattrs".toList), true⟩) := by
  have key : ∀ name ∈ streamDocNames s.version,
      bucketAfter P srv junk old tr (root ++ '/' :: name.toList) =
        ⟨none, uploaded (some ((docsFor w s cfg cfgs.length name.toList).getLast?.getD [])) (old (root ++ '/' :: name.toList)),
          true⟩ ∧ writesTo (root ++ '/' :: name.toList) tr =
            (docsFor w s cfg cfgs.length name.toList).map fun d => (0, d) := by
    intro name hname
    have hk : name.toList ∈ metaKeys cfg.version := by
      rw [metaKeys_eq h.commit]; exact List.mem_map_of_mem hname
    obtain ⟨hF, hF0⟩ := frame_size h hd
    have hf' := hf
    rw [← hF] at hf'
    have hs := session_docs h.commit h.levels hF0 hf' hrun hk
    rw [hr.located.streamDoc h.commit, kept_all hE] at hs
    constructor
    · rw [hsd.object h hd hr hn hf hrun (.inr ⟨name, hname, rfl⟩) hP hsrv hj old,
        (metadata_never_stale h hd hr.located hn hf hrun (List.prefix_refl tr)).2 name hname, lastDocument_filter]
      show _ = Obj.mk none (uploaded (some _) _) true
      rw [hs, lastDocument_docs]
    · rw [writesTo_about, hs, writesTo_session]
  constructor
  · intro name hname hne
    obtain ⟨k1, k2⟩ := key name hname
    have hne' := docs_nonempty (w := w) h (fun _ => hm) hname hne cfgs.length
    have hmem : (docsFor w s cfg cfgs.length name.toList).getLast?.getD [] ∈ docsFor w s cfg cfgs.length name.toList := by
      rw [List.getLast?_eq_some_getLast hne', Option.getD_some]
      exact List.getLast_mem hne'
    have hdoc := (stream_documents hj' h hd hr.located hf hrun hname (off := 0)
      (b := (docsFor w s cfg cfgs.length name.toList).getLast?.getD []) (by
      rw [k2]; exact List.mem_map_of_mem hmem)).2
    refine ⟨_, ?_, hdoc⟩
    rw [k1]
    have hb := streamDoc_ne hprint hdoc
    generalize (docsFor w s cfg cfgs.length name.toList).getLast?.getD [] = b at *
    cases b with
    | nil => exact absurd rfl hb
    | cons c cs => rfl
  · intro hV
    have := (key "0/.zattrs" (by unfold streamDocNames; rw [if_pos hV]; simp)).1
    rw [docs_attrs h hV] at this
    exact this

/-- The documents grow with the number of frames: it is enough to look at the last ones. -/
theorem smallDocuments_of (h : Setup w fuel s cfg cfgs) (hd : s.dimensions = some (a :: (inner ++ [y, x])))
    (hl : LocatedAt s root) (hn : calls.flatten.length < 2 ^ 32)
    (hf : ∀ c ∈ calls, ∀ f ∈ c, f.length = y.arraySize * x.arraySize * itemSize s.dataType)
    (hrun : runStream w env fuel s (calls.map List.flatten) = some (.ok (st, ns, tr))) {P : Nat}
    (h1 : ∀ i c, cfgs[i]? = some c → (docFor c (calls.flatten.length / 2 ^ i)).length < P)
    (h2 : ∀ key ∈ metaKeys cfg.version, ∀ d ∈ docsFor w s cfg cfgs.length key, d.length < P) :
    SmallDocuments s root cfgs.length P tr := by
  intro p hp d hd'
  obtain ⟨hF, hF0⟩ := frame_size h hd
  rw [← hF] at hf
  obtain ⟨hS, _⟩ := session_ok h.commit h.levels hF0 hf hrun
  rw [writesTo_about] at hd'
  rcases hp with ⟨i, hi, rfl⟩ | ⟨name, hname, rfl⟩
  · have hc : cfgs[i]? = some cfgs[i] := List.getElem?_eq_getElem hi
    generalize cfgs[i] = c at hc
    obtain ⟨stf, r1, r2⟩ := hS.level i c hc
    obtain ⟨d1, d2⟩ := h.levelDims.1 c (List.mem_of_getElem? hc)
    have hlen := framesOfLevel_length cfg i calls.flatten
    obtain ⟨ks, k1, k2, k3⟩ := runArray_meta d1 d2 (by
      rw [hlen]; exact Nat.lt_of_le_of_lt (Nat.div_le_self _ _) hn) r1
    rw [← hl.arrayDoc h hc, r2 _ (.inl rfl)] at hd'
    rcases k3 with k3 | k3
    · rw [k3] at hd'; cases hd'
    · have e : (ks.map fun n => Ev.wrote (arrayMetaPath c) 0 (docFor c n)) =
          (ks.map (docFor c)).map (Ev.wrote (arrayMetaPath c) 0) := by rw [List.map_map]; rfl
      rw [k3, e, writesTo_session] at hd'
      obtain ⟨b, hb, rfl⟩ := List.mem_map.1 hd'
      obtain ⟨n, hn', rfl⟩ := List.mem_map.1 hb
      have hle := k2 n hn'
      rw [hlen] at hle
      have hm : (docFor c n).length ≤ (docFor c (calls.flatten.length / 2 ^ i)).length :=
        metaDoc_length_mono c (ceilDiv_mono hle)
      exact Nat.lt_of_le_of_lt hm (h1 i c hc)
  · have hk : name.toList ∈ metaKeys cfg.version := by
      rw [metaKeys_eq h.commit]; exact List.mem_map_of_mem hname
    have := session_docs h.commit h.levels hF0 hf hrun hk
    rw [← hl.streamDoc h.commit, this, writesTo_session] at hd'
    obtain ⟨b, hb, rfl⟩ := List.mem_map.1 hd'
    exact h2 _ hk b (List.mem_of_mem_filter hb)

end

/-- Three frames of one pixel in Zarr V2: the bucket holds an array document of extent 3, and no `0/.zattrs`. -/
example {srv : Text → Nat → Reply} (hsrv : ∀ p, Spec.Healthy (srv p)) {junk : Bytes} (hj : junk.length = 5 * 2 ^ 20) :
    ∃ st tr b v, runStream Sample.world Sample.env 9 (Sample.slabS3 2 2 1) [[5, 6], [7]] = some (.ok (st, [2, 1], tr)) ∧
    bucketAfter (5 * 2 ^ 20) srv junk (fun _ => none) tr "a/0/.zarray".toList = ⟨none, some b, true⟩ ∧
    JsonFile b v ∧ ArrayDocV2 v [3, 1, 1] [2, 1, 1] "<u1" none ∧
    bucketAfter (5 * 2 ^ 20) srv junk (fun _ => none) tr "a/0/.zattrs".toList = ⟨none, none, true⟩ := by
  have hf : ∀ c ∈ ([[[5], [6]], [[7]]] : List (List Bytes)), ∀ f ∈ c, f.length = 1 := by decide
  obtain ⟨st, tr, h1, h2⟩ := s3_v2_array_documents (calls := [[[5], [6]], [[7]]]) Sample.slabS3Setup2
    (by intro d hd; revert d; decide) (by intro c hc; cases hc)
    Sample.storageOk rfl (inner := []) rfl (Sample.slabS3Bucket 2 2 1)
    (by decide) hf (P := 5 * 2 ^ 20) (by decide) hsrv hj (fun _ => none)
  have hsd := smallDocuments_of (calls := [[[5], [6]], [[7]]]) Sample.slabS3Setup2 (inner := []) rfl
    (Sample.slabS3Bucket 2 2 1).located (by decide) hf h1 (P := 5 * 2 ^ 20) (by
      intro i c hc
      have hi : i = 0 := by
        have := (List.getElem?_eq_some_iff.1 hc).1
        simpa using this
      subst hi
      cases hc
      decide +kernel) (by decide +kernel)
  obtain ⟨b, v, e1, e2, e3⟩ := (h2 hsd 0 (by decide)).2 (by decide)
  refine ⟨st, tr, b, v, h1, e1, e2, ?_, ?_⟩
  · exact e3
  · exact (s3_stream_documents Sample.jsonLib (fun m d h => by cases h; exact List.cons_ne_nil _ _) (by intro m hm; cases hm)
      Sample.slabS3Setup2 Sample.storageOk (inner := []) rfl (Sample.slabS3Bucket 2 2 1) (by decide) hf h1 (by decide) hsrv hj
      (fun _ => none) hsd).2 rfl

end AZ
