import Verif.Props.Blosc
import Verif.Props.CustomMetadata
import Verif.Props.Objects
import Verif.Props.ObjectsV3
import Verif.Props.S3Reader
import Verif.Props.PyKeywords
import Verif.Props.PySession

set_option linter.unusedSimpArgs false

/-!
# The parts of violated properties that hold

For C48, C50, C51, C55, C74, C83 and C84: what holds of the property, composed of the theorems of the other modules. What is missing is in each comment; the corresponding `..._violated` theorem shows that
it is false of the code. -/

namespace AZ
open _root_.Spec

section
variable {w : World} {env : Env} {fuel : Nat} {s : Settings} {cfg : WConfig} {cfgs : List WConfig}
  {a y x : DimProps} {inner : List DimProps} {root : Text} {calls : List (List Bytes)}

/-- **C48, the part that holds**: up to 2^32 - 1 frames, every pixel reads back and the array document of every level counts the frames of the level. Missing: more frames
(`frame_counter_violated`). -/
theorem long_streams_partial (h : Setup w fuel s cfg cfgs) (hz : SizesInRange s) (hr : RealCodec s) (hE : StorageOk env s) (hV : s.version = 2)
    {decode : Bytes → Option Bytes} (hdec : Decodes env s decode)
    (hd : s.dimensions = some (a :: (inner ++ [y, x]))) (hl : StoredAt s root) (hfr : Fresh w s root) (hn : calls.flatten.length < 2 ^ 32)
    (hf : ∀ c ∈ calls, ∀ f ∈ c, f.length = y.arraySize * x.arraySize * itemSize s.dataType) :
    ∃ st tr, runStream w env fuel s (calls.map List.flatten) = some (.ok (st, calls.map (fun c => c.flatten.length), tr)) ∧ st.error = [] ∧
      (∀ (t : Nat) (i : List Nat) (py px : Nat), InBounds (inner.map (·.arraySize)) i → py < y.arraySize → px < x.arraySize →
        readV2 (fun p => fileInStore w cfg p tr) (levelDir root 0) decode ((a :: (inner ++ [y, x])).map (·.chunkSize)) (itemSize s.dataType) (t :: (i ++ [py, px])) =
        some (match calls.flatten[t * prod (inner.map (·.arraySize)) + ravel (inner.map (·.arraySize)) i]? with
          | some f => pixelOf f x.arraySize (itemSize s.dataType) py px
          | none => List.replicate (itemSize s.dataType) 0)) ∧
      ∀ i, i < cfgs.length → calls.flatten.length / 2 ^ i ≠ 0 → ∃ b v, fileInStore w cfg (root ++ '/' :: arrayDocName 2 i) tr = some b ∧
        JsonFile b v ∧ LevelDoc s (a :: (inner ++ [y, x])) i (ceilDiv (calls.flatten.length / 2 ^ i) (prod (sizesAt i inner))) v := by
  obtain ⟨st, tr, h1, h2, h3⟩ := v2_read h hE hV hd hl hfr hdec hn hf
  obtain ⟨st', tr', k1, k2⟩ := v2_final_document h hz hr hE hV hd hl hfr hn hf
  rw [h1] at k1
  cases k1
  exact ⟨st, tr, h1, h2, h3, fun i hi hne => (k2 i hi).2 hne⟩

/-- Names of chunk files (version 2) and shard files (version 3). -/
def DataName (version : Nat) (q : Text) : Prop :=
  if version = 2 then ∃ i g l, q = decimal i ++ '/' :: chunkKey (g :: l)
  else ∃ i g l, q = "data/root/".toList ++ decimal i ++ "/c".toList ++ chunkKey (g :: l)

/-- **C50, the part that holds**: every file of a finished dataset is a chunk (or shard) file, or a complete JSON document. Missing: `0/.zattrs` of version 2, which is empty
(`level_attributes_violated`), and custom metadata of blanks only (C90). -/
theorem metadata_files_partial (hj : JsonLib w) (hp : ∀ t b, w.parseJson t = some b → ∃ v, JsonFile b v) (hm : HasCustomText s)
    (h : Setup w fuel s cfg cfgs) (h3 : s.version = 3 → cfg.dims.FitsV3) (hz : SizesInRange s) (hr : RealCodec s) (hE : StorageOk env s) (ho : SmallOverhead env)
    (hd : s.dimensions = some (a :: (inner ++ [y, x]))) (hl : StoredAt s root) (hfr : Fresh w s root) (hn : calls.flatten.length < 2 ^ 32)
    (hf : ∀ c ∈ calls, ∀ f ∈ c, f.length = y.arraySize * x.arraySize * itemSize s.dataType) :
    ∃ st tr, runStream w env fuel s (calls.map List.flatten) = some (.ok (st, calls.map (fun c => c.flatten.length), tr)) ∧
      ∀ q b, fileInStore w cfg (root ++ '/' :: q) tr = some b → DataName s.version q ∨ q = "0/.zattrs".toList ∨ ∃ v, JsonFile b v := by
  have hdoc : ∀ {st : SState} {ns : List Nat} {tr : List Ev}, runStream w env fuel s (calls.map List.flatten) = some (.ok (st, ns, tr)) →
      ∀ name ∈ streamDocNames s.version, ∀ b, fileInStore w cfg (root ++ '/' :: name.toList) tr = some b → name.toList = "0/.zattrs".toList ∨ ∃ v, JsonFile b v := by
    intro st ns tr hrun name hname b hb
    by_cases hz0 : name = "0/.zattrs"
    · exact .inl (by rw [hz0])
    · obtain ⟨b', h1, h2⟩ := stream_files hj hm h hE hd hl hfr hn hf hrun hname hz0
      rw [hb] at h1
      cases h1
      right
      unfold StreamDoc at h2
      split at h2
      · obtain ⟨v, m, k, _⟩ := h2; exact ⟨v, k⟩
      · obtain ⟨v, k, _⟩ := h2; exact ⟨v, k⟩
      · obtain ⟨v, k, _⟩ := h2; exact ⟨v, k⟩
      · obtain ⟨v, _, m, k, _⟩ := h2; exact ⟨v, k⟩
      · exact hp _ _ h2
      · exact hp _ _ h2
      · exact h2.elim
  rcases (validateSettings_ok h.valid).version with hV | hV
  · obtain ⟨st, tr, h1, h2⟩ := v2_objects_exact h hz hE hV hd hl hfr hn hf
    obtain ⟨st', tr', k1, k2⟩ := v2_final_document h hz hr hE hV hd hl hfr hn hf
    rw [h1] at k1
    cases k1
    refine ⟨st, tr, h1, fun q b hb => ?_⟩
    rcases (h2 q).1 ⟨b, hb⟩ with ⟨name, hname, rfl⟩ | ⟨i, hi, ⟨hpos, rfl⟩ | ⟨g, l, rfl, _⟩⟩
    · exact .inr (hdoc h1 name (hV ▸ hname) b hb)
    · obtain ⟨b', v, e1, e2, _⟩ := (k2 i hi).2 (Nat.pos_iff_ne_zero.1 hpos)
      rw [show arrayDocName 2 i = decimal i ++ "/.zarray".toList from rfl, hb] at e1
      cases e1
      exact .inr (.inr ⟨v, e2⟩)
    · left
      unfold DataName
      rw [if_pos hV]
      exact ⟨i, g, l, rfl⟩
  · obtain ⟨st, tr, h1, h2⟩ := v3_objects_exact h (h3 hV) hz hE ho hV hd hl hfr hn hf
    obtain ⟨st', tr', k1, _, k2⟩ := v3_final_document h (h3 hV) hz hr hE ho hV hd hl hfr hn hf
    rw [h1] at k1
    cases k1
    refine ⟨st, tr, h1, fun q b hb => ?_⟩
    rcases (h2 q).1 ⟨b, hb⟩ with ⟨name, hname, rfl⟩ | ⟨i, hi, ⟨hpos, rfl⟩ | ⟨g, l, rfl, _⟩⟩
    · exact .inr (hdoc h1 name (hV ▸ hname) b hb)
    · obtain ⟨b', v, e1, e2, _⟩ := (k2 i hi _ rfl).2 (Nat.pos_iff_ne_zero.1 hpos)
      rw [show arrayDocName 3 i = "meta/root/".toList ++ decimal i ++ ".array.json".toList from rfl, hb] at e1
      cases e1
      exact .inr (.inr ⟨v, e2⟩)
    · left
      unfold DataName
      rw [if_neg (by rw [hV]; decide)]
      exact ⟨i, g, l, rfl⟩

/-- **C55, the part that holds**: chunks of a size that Blosc accepts. If Blosc meets its contract and returns 0 for no such chunk, and what it returns decodes, then a session in which the
storage works and no chunk is refused stores chunks that decode to the frames, and none is empty. Missing: larger chunks, which become empty files (`huge_chunks_lost`). -/
theorem compressed_chunks_partial {B : Blosc} {q : CompressionSettings} (h : Setup w fuel s cfg cfgs) (hB : BloscContract B)
    (hE : StorageOk (env.withBlosc B) s) (hV : s.version = 2) (hcomp : s.compression = some q)
    (hsize : prod ((a :: (inner ++ [y, x])).map (·.chunkSize)) * itemSize s.dataType ≤ bloscMaxBuffer)
    {decode : Bytes → Option Bytes}
    (hpos : ∀ p n b, b.length ≤ bloscMaxBuffer → B.ret p n b ≠ 0)
    (hdec : ∀ p n b, b.length ≤ bloscMaxBuffer → 0 < B.ret p n b → decode ((B.dest p n b).take (B.ret p n b).toNat) = some b)
    (hd : s.dimensions = some (a :: (inner ++ [y, x]))) (hr : StoredAt s root) (hfr : Fresh w s root)
    (hn : calls.flatten.length < 2 ^ 32)
    (hf : ∀ c ∈ calls, ∀ f ∈ c, f.length = y.arraySize * x.arraySize * itemSize s.dataType) :
    ∃ st tr, runStream w (env.withBlosc B) fuel s (calls.map List.flatten) =
        some (.ok (st, calls.map (fun c => c.flatten.length), tr)) ∧ st.error = [] ∧
      (∀ (t : Nat) (i : List Nat) (py px : Nat), InBounds (inner.map (·.arraySize)) i → py < y.arraySize → px < x.arraySize →
        readV2 (fun p => fileInStore w cfg p tr) (levelDir root 0) decode
          ((a :: (inner ++ [y, x])).map (·.chunkSize)) (itemSize s.dataType) (t :: (i ++ [py, px])) =
        some (match calls.flatten[t * prod (inner.map (·.arraySize)) + ravel (inner.map (·.arraySize)) i]? with
          | some f => pixelOf f x.arraySize (itemSize s.dataType) py px
          | none => List.replicate (itemSize s.dataType) 0)) ∧
      ∀ (g : Nat) (l : List Nat) (raw : Bytes), fileInStore w cfg (levelDir root 0 ++ chunkKey (g :: l)) tr = some raw → raw ≠ [] := by
  have hfull : fullChunk s = prod ((a :: (inner ++ [y, x])).map (·.chunkSize)) * itemSize s.dataType := by
    unfold fullChunk
    rw [hd]
    rfl
  have hjob : ∀ p n b out, b.length ≤ bloscMaxBuffer → (env.withBlosc B).compress p n b = some out →
      0 < B.ret p n b ∧ out = (B.dest p n b).take (B.ret p n b).toNat := by
    intro p n b out hb ho
    have h' : B.job p n b = some out := ho
    unfold Blosc.job at h'
    split at h'
    · cases h'
    · rename_i hneg
      have h1 := hB.small p n b
      have h2 := hB.dest p n b
      have h3 := hpos p n b hb
      cases h'
      exact ⟨by omega, resize_le (by omega)⟩
  obtain ⟨st, tr, h1, h2, h3, h4⟩ := v2_compressed_reads_back (decode := decode) h hE hV hcomp
    (fun b out hb ho => by
      obtain ⟨k1, k2⟩ := hjob _ _ b out (by omega) ho
      rw [k2]
      exact hdec _ _ b (by omega) k1) hd hr hfr hn hf
  refine ⟨st, tr, h1, h2, h3, fun g l raw hraw hnil => ?_⟩
  obtain ⟨chunk, k1, k2, _⟩ := h4 g l raw hraw
  obtain ⟨k3, k4⟩ := hjob _ _ chunk raw (by omega) k1
  have hdl := hB.dest ⟨codecName q.codec, q.level, q.shuffle⟩ (itemSize s.dataType) chunk
  have := congrArg List.length (k4.symm.trans hnil)
  rw [List.length_take, List.length_nil] at this
  omega

/-- Not vacuous (C50): what the files of the sample session are. -/
example : ∃ st ns tr, runStream Sample.world Sample.env 9 Sample.settings (Sample.calls.map List.flatten) = some (.ok (st, ns, tr)) ∧
    ∀ q b, fileInStore Sample.world Sample.cfg ("/tmp/a.zarr".toList ++ '/' :: q) tr = some b → DataName 2 q ∨ q = "0/.zattrs".toList ∨ ∃ v, JsonFile b v := by
  obtain ⟨cfgs, h, hl⟩ := Sample.setup
  obtain ⟨st, tr, h1, h2⟩ := metadata_files_partial (calls := Sample.calls) Sample.jsonLib
    (by
      intro t b hb
      have : b = [0x7b, 0x7d] := by cases hb; rfl
      rw [this]
      exact ⟨.obj [], "{}".toList, rfl, rfl⟩) Sample.hasCustomText h (fun h => by cases h) Sample.sizesInRange Sample.realCodec Sample.storageOk Sample.overhead
    (a := Sample.dimT) (inner := [Sample.dimC]) (y := Sample.dimY) (x := Sample.dimX) rfl Sample.storedAt Sample.fresh (by decide) Sample.calls_sized
  exact ⟨st, _, tr, h1, h2⟩

/-- Not vacuous (C55): a Blosc library with the hypotheses of `compressed_chunks_partial`. -/
example : BloscContract Sample.copyBlosc ∧ (∀ p n b, b.length ≤ bloscMaxBuffer → Sample.copyBlosc.ret p n b ≠ 0) ∧
    (∀ p n b, b.length ≤ bloscMaxBuffer → 0 < Sample.copyBlosc.ret p n b →
      (fun c : Bytes => some (c.drop 16)) ((Sample.copyBlosc.dest p n b).take (Sample.copyBlosc.ret p n b).toNat) = some b) := by
  have hret : ∀ p n b, b.length ≤ bloscMaxBuffer → Sample.copyBlosc.ret p n b = ((b.length + 16 : Nat) : Int) := by
    intro p n b hb
    show (if bloscMaxBuffer < b.length then (0 : Int) else b.length + 16) = _
    rw [if_neg (by omega)]
    rfl
  refine ⟨Sample.copyBlosc_contract, fun p n b hb => by rw [hret p n b hb]; omega, fun p n b hb _ => ?_⟩
  rw [hret p n b hb, Int.toNat_natCast]
  show some (((List.replicate 16 1 ++ b).take (b.length + 16)).drop 16) = some b
  rw [List.take_of_length_le (by simp), List.drop_left' (by simp)]

end

namespace S3

/-- **C51, the part that holds**: if every write and the finalization report success, the object consists of everything written, whatever the server did. Missing: calls after a write
that reported a failure (`s3_failed_part_violated`). -/
theorem s3_reported_complete_partial {P : Nat} (hP : 0 < P) {r : Nat → Reply} {junk : Bytes} (hj : junk.length = P) {ds : List Bytes}
    {s : Sink} (hn : ds.flatten.length ≤ P * (2 ^ 32 - 1)) (hr : session P r junk (consecutive 0 ds) = some (.returned true s)) :
    object (exchange s.log) = (if ds.flatten = [] then none else some ds.flatten) :=
  (s3_object_exact hP hj hn hr).1

variable {w : World} {env : Env} {fuel : Nat} {s : Settings} {cfg : WConfig} {cfgs : List WConfig}
  {a y x : DimProps} {inner : List DimProps} {root : Text} {calls : List (List Bytes)}

/-- **C83, the part that holds of version 3**: levels with one append chunk per shard whose frames fill their shards, whatever
was in the bucket before. (Version 2 is `s3_v2_self_describing`.) Missing: other numbers of frames
(`s3_v3_zeros_violated`) and several append chunks per shard (C81). -/
theorem s3_v3_self_describing_partial (h : Setup w fuel s cfg cfgs) (h3 : cfg.dims.FitsV3) (hz : SizesInRange s) (hrc : RealCodec s)
    (hr : InBucket s root) (hE : StorageOk env s) (ho : SmallOverhead env) (hV : s.version = 3)
    (hd : s.dimensions = some (a :: (inner ++ [y, x])))
    {unblosc : Bytes → Option Bytes} (hu : Unblosc env s unblosc) (hn : calls.flatten.length < 2 ^ 32)
    (hf : ∀ c ∈ calls, ∀ f ∈ c, f.length = y.arraySize * x.arraySize * itemSize s.dataType)
    {P : Nat} (hP : 0 < P) (hsz : ShardsFit s (a :: (inner ++ [y, x])) P)
    {srv : Text → Nat → Reply} (hsrv : ∀ p, _root_.Spec.Healthy (srv p)) {junk : Bytes} (hj : junk.length = P)
    (old : Text → Option Bytes) :
    ∃ st tr, runStream w env fuel s (calls.map List.flatten) =
        some (.ok (st, calls.map (fun c => c.flatten.length), tr)) ∧ st.error = [] ∧ (SmallDocuments s root cfgs.length P tr →
      levelsV3 (fun p => (bucketAfter P srv junk old tr p).object) root = some ((List.range cfgs.length).map decimal) ∧
      ∃ L : Nat → List Bytes, L 0 = calls.flatten ∧
        (s.dataType < 8 → MeanPyramid (itemSize s.dataType) y.arraySize x.arraySize cfgs.length L) ∧ ∀ i, i < cfgs.length → (L i).length = calls.flatten.length / 2 ^ i ∧
        ((L i).length ≠ 0 → shardAt i a = 1 → (L i).length % framesPerAt i a inner = 0 →
          ∃ info, loadV3 (fun p => (bucketAfter P srv junk old tr p).object) unblosc root (decimal i) =
            some (info, paddedTo (prod info.shape * info.itemSize) (L i)))) := by
  obtain ⟨st, tr, h1, h2, h4⟩ := s3_v3_loads_exact h h3 hz hrc hr hE ho hV hd hu hn hf hP hsz hsrv hj old
  refine ⟨st, tr, h1, h2, fun hsd => ?_⟩
  obtain ⟨k1, L, k2, km, k3⟩ := h4 hsd
  refine ⟨k1, L, k2, km, fun i hi => ⟨(k3 i hi).1, fun hne hs hm => ?_⟩⟩
  obtain ⟨info, k4, _⟩ := (k3 i hi).2 hne hs (fun e => absurd hm e)
  refine ⟨info, ?_⟩
  rw [k4, Nat.div_mul_cancel (Nat.dvd_of_mod_eq_zero hm), List.take_length]

end S3

namespace Py
open AZ.Spec

/-- **C84, the part that holds**: arguments are assignments, in any order; a successful construction has every attribute as given and the others as initially; and documented values, with `dimensions`
a `VectorDimension`, are accepted. Missing: the documented `List[Dimension]` (`list_of_dimensions_violated`). -/
theorem keywords_partial {kw kw' : Kwargs} (hd : (kw.map Prod.fst).Nodup) (hp : kw.Perm kw') :
    initStream kw = kw'.foldlM (fun x p => setStream x p.1 p.2) Settings.initial ∧
    (∀ t, initStream kw = some t → ∀ p, look t p = match kw.lookup (keyword p).toList with | some v => givenAt v p | none => unset p) ∧
    ((∀ p ∈ kw, Documented p.1 p.2) → ∃ t, initStream kw = some t) :=
  ⟨(keywords_are_assignments hd hp).1, fun _ ht p => keywords_take_effect ht p, fun hk => keywords_accepted hk hd⟩

variable {w : World} {env : Env} {fuel : Nat} {s : Settings} {cfg : WConfig} {cfgs : List WConfig} {a y x : Dimension}
  {inner : List Dimension} {root : Text} {decode : Bytes → Option Bytes} {ms : List Py.Array}

/-- **C74, the part that holds**: arrays of the stream's element size that consist of whole frames are stored element by element. Missing: other arrays are not rejected
(`python_mismatch_violated`). -/
theorem python_match_partial (h : Setup w fuel (toC s) cfg cfgs) (hE : StorageOk env (toC s)) (hV : s.version = 2)
    (hd : s.dimensions = a :: (inner ++ [y, x])) (hr : StoredAt (toC s) root) (hfr : Fresh w (toC s) root)
    (hdec : Decodes env (toC s) decode) (hn : (ms.flatMap planes).length < 2 ^ 32)
    (hm : ∀ m ∈ ms, FramesOf y.arraySize x.arraySize (itemSize s.dataType) m) :
    ∃ st tr, session w env fuel s ms = some (.ok (st, .ok tr)) ∧
      ∀ (t : Nat) (i : List Nat) (py px : Nat), InBounds (inner.map (·.arraySize)) i → py < y.arraySize → px < x.arraySize →
        readV2 (fun p => fileInStore w cfg p tr) (levelDir root 0) decode ((a :: (inner ++ [y, x])).map (·.chunkSize))
          (itemSize s.dataType) (t :: (i ++ [py, px])) =
        some (match (ms.flatMap planes)[t * prod (inner.map (·.arraySize)) + ravel (inner.map (·.arraySize)) i]? with
          | some (m, index) => element m (index ++ [py, px])
          | none => List.replicate (itemSize s.dataType) 0) :=
  python_elements_read_back h hE hV hd hr hfr hdec hn hm

end Py
end AZ
