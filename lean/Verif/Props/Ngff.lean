import Verif.Spec.Ngff
import Verif.Props.S3Reader

set_option linter.unusedSimpArgs false

/-!
# C98: the image metadata follow OME-NGFF 0.4
-/

namespace AZ
open Spec

/-- The axes that a user describes in the settings, with the names of the types in OME-NGFF. -/
def ngffAxesOf (ds : List DimProps) : List NgffAxis := ds.map fun d => (d.name.getD [], some (.text (axisType d.kind)))

theorem forall₂_unique {α β : Type} {R : α → β → Prop} {l : List α} {m n : List β} (hR : ∀ a b c, R a b → R a c → b = c)
    (h : List.Forall₂ R l m) (h' : List.Forall₂ R l n) : m = n := by
  induction h generalizing n with
  | nil => cases h'; rfl
  | cons h1 _ ih =>
    cases h' with
    | cons h2 ht => rw [hR _ _ _ h1 h2, ih ht]

/-- A multiscales document is valid exactly if its axes are. -/
theorem ngff_iff {v : JVal} {ds : List DimProps} {datasets : List (String × List Nat)}
    (h : MultiscalesDoc v (axesOf ds) datasets) (hne : datasets ≠ [])
    (hl : ∀ d ∈ datasets, d.2.length = ds.length ∧ ∀ q ∈ d.2, 0 < q) : Ngff v ↔ NgffAxes (ngffAxesOf ds) := by
  obtain ⟨m, rfl, _, ⟨as, a1, a2⟩, ⟨es, d1, d2⟩⟩ := h.version
  have a3 : List.Forall₂ (fun (a : JVal) (x : NgffAxis) => a.get? "name" = some (.str x.1) ∧ a.get? "type" = x.2) as (ngffAxesOf ds) := by
    unfold ngffAxesOf
    unfold axesOf at a2
    rw [List.forall₂_map_right_iff] at a2 ⊢
    exact a2
  constructor
  · rintro ⟨ms, e, _, hm⟩
    cases e
    obtain ⟨as', axes, _, b1, b2, b3, _⟩ := hm m (List.mem_singleton.2 rfl)
    rw [a1] at b1
    cases b1
    have : axes = ngffAxesOf ds := forall₂_unique (fun a b c hb hc => by
      have e1 : b.1 = c.1 := by
        have := hb.1.symm.trans hc.1
        injection this with this
        injection this
      exact Prod.ext e1 (hb.2.symm.trans hc.2)) b2 a3
    rw [← this]
    exact b3
  · intro hax
    refine ⟨[m], rfl, by simp, fun m' hm' => ?_⟩
    rw [List.mem_singleton.1 hm']
    refine ⟨as, _, es, a1, a3, hax, d1, ?_, ?_⟩
    · rintro rfl
      cases d2
      exact hne rfl
    · intro d hd
      obtain ⟨x, hx, p1, t, p2, p3, p4⟩ : ∃ x ∈ datasets, d.get? "path" = some (.text x.1) ∧ ∃ t,
          d.get? "coordinateTransformations" = some (.arr [t]) ∧ t.get? "type" = some (.text "scale") ∧
          t.get? "scale" = some (.nats x.2) := by
        clear d1 hl hne h
        induction d2 with
        | nil => cases hd
        | cons h1 _ ih =>
          rcases List.mem_cons.1 hd with rfl | hd
          · exact ⟨_, List.mem_cons_self, h1⟩
          · obtain ⟨x, hx, k⟩ := ih hd
            exact ⟨x, List.mem_cons_of_mem _ hx, k⟩
      refine ⟨_, t, [], _, p1, p2, p3, p4, ?_, ?_, .inl rfl⟩
      · rw [List.length_map, (hl x hx).1]
        simp [ngffAxesOf]
      · intro q hq
        obtain ⟨k, hk, rfl⟩ := List.mem_map.1 hq
        exact ⟨_, rfl, by exact_mod_cast (hl x hx).2 k hk⟩

theorem declared_ok {a y x : DimProps} {inner : List DimProps} {n : Nat} :
    ∀ d ∈ (List.range n).map (declaredLevel inner), d.2.length = (a :: (inner ++ [y, x])).length ∧ ∀ q ∈ d.2, 0 < q := by
  intro d hd
  obtain ⟨i, _, rfl⟩ := List.mem_map.1 hd
  refine ⟨by simp [declaredLevel], fun q hq => ?_⟩
  have hp : 0 < 2 ^ i := Nat.pow_pos (by decide)
  simp only [declaredLevel, List.mem_cons, List.mem_append, List.mem_replicate, List.not_mem_nil, or_false] at hq
  rcases hq with rfl | ⟨_, rfl⟩ | rfl | rfl
  · exact hp
  · decide
  · exact hp
  · exact hp

section
variable {w : World} {env : Env} {fuel : Nat} {s : Settings} {cfg : WConfig} {cfgs : List WConfig}
  {a y x : DimProps} {inner : List DimProps} {root : Text} {calls : List (List Bytes)} {tr : List Ev}

/-- A reader of the group document finds valid image metadata exactly if the axes of the settings are valid. -/
theorem ngff_from {file : Text → Option Bytes} {n : Nat} (hn : 0 < n) (hV : s.version = 2 ∨ s.version = 3) {b : Bytes}
    (f : file (root ++ '/' :: (if s.version = 2 then ".zattrs" else "meta/root.group.json").toList) = some b)
    (k : StreamDoc w s (a :: (inner ++ [y, x])) inner n (if s.version = 2 then ".zattrs" else "meta/root.group.json") b) :
    ∃ v, imageMetadata s.version file root = some v ∧ (Ngff v ↔ NgffAxes (ngffAxesOf (a :: (inner ++ [y, x])))) := by
  have hne : (List.range n).map (declaredLevel inner) ≠ [] := by
    intro e
    rw [List.map_eq_nil_iff, List.range_eq_nil] at e
    omega
  unfold imageMetadata
  rcases hV with hV | hV
  · rw [if_pos hV] at f k ⊢
    obtain ⟨v, m, j1, j2, j3⟩ := k
    refine ⟨m, ?_, ngff_iff j3 hne declared_ok⟩
    have e1 : jsonFile file (root ++ "/.zattrs".toList) = some v := by
      unfold jsonFile
      rw [show "/.zattrs".toList = '/' :: ".zattrs".toList by decide, f]
      exact jsonOf_file j1
    rw [e1]
    exact j2
  · have h2 : ¬ s.version = 2 := by rw [hV]; decide
    rw [if_neg h2] at f k ⊢
    obtain ⟨v, at_, m, j1, j2, j3, j4⟩ := k
    refine ⟨m, ?_, ngff_iff j4 hne declared_ok⟩
    have e1 : jsonFile file (root ++ "/meta/root.group.json".toList) = some v := by
      unfold jsonFile
      rw [show "/meta/root.group.json".toList = '/' :: "meta/root.group.json".toList by decide, f]
      exact jsonOf_file j1
    simp only [e1, j2, Option.bind_eq_bind, Option.bind_some]
    exact j3

theorem version_cases (h : Setup w fuel s cfg cfgs) : s.version = 2 ∨ s.version = 3 := by
  have := (validateSettings_ok h.valid).version
  omega

theorem levels_pos (h : Setup w fuel s cfg cfgs) : 0 < cfgs.length := by
  obtain ⟨rest, hrest⟩ := levelConfigs_head h.levels
  rw [hrest]
  simp

/-- **C98**, file system. After any completed session the dataset has image metadata, and they are valid OME-NGFF 0.4 exactly if the dimensions of the
settings are axes that the standard allows. -/
theorem ngff_valid_partial (h : Setup w fuel s cfg cfgs) (hE : StorageOk env s)
    (hd : s.dimensions = some (a :: (inner ++ [y, x]))) (hl : StoredAt s root) (hfr : Fresh w s root)
    (hn : calls.flatten.length < 2 ^ 32)
    (hf : ∀ c ∈ calls, ∀ f ∈ c, f.length = y.arraySize * x.arraySize * itemSize s.dataType)
    {st : SState} {ns : List Nat} (hrun : runStream w env fuel s (calls.map List.flatten) = some (.ok (st, ns, tr))) :
    ∃ v, imageMetadata s.version (fun p => fileInStore w cfg p tr) root = some v ∧
      (Ngff v ↔ NgffAxes (ngffAxesOf (a :: (inner ++ [y, x])))) := by
  have hV := version_cases h
  obtain ⟨b, f, d⟩ := stream_files_of h hE hd hl hfr hn hf hrun
    (name := if s.version = 2 then ".zattrs" else "meta/root.group.json")
    (by unfold streamDocNames; rcases hV with hV | hV <;> rw [hV] <;> decide)
    (by rcases hV with hV | hV <;> rw [hV] <;> decide)
    (fun e => by
      rcases hV with hV | hV
      · rw [hV] at e
        exact absurd e (v2_external_ne h hV (by decide))
      · rw [hV] at e
        exact absurd e (v3_external_ne h hV (by decide)))
  exact ngff_from (file := fun p => fileInStore w cfg p tr) (levels_pos h) hV f d

/-- Five dimensions are the most that OME-NGFF allows. -/
theorem ngff_at_most_five {axes : List NgffAxis} (h : NgffAxes axes) : axes.length ≤ 5 := by
  have : ∀ l : List NgffAxis, l.length = (l.map NgffAxis.rank).count 0 + (l.map NgffAxis.rank).count 1 + (l.map NgffAxis.rank).count 2 := by
    intro l
    induction l with
    | nil => rfl
    | cons x l ih =>
      have hr : x.rank = 0 ∨ x.rank = 1 ∨ x.rank = 2 := by
        unfold NgffAxis.rank
        split
        · split
          · exact .inl rfl
          · split
            · exact .inr (.inr rfl)
            · exact .inr (.inl rfl)
        · exact .inr (.inl rfl)
      rw [List.map_cons, List.length_cons, ih]
      rcases hr with e | e | e <;> rw [e] <;> simp [List.count_cons] <;> omega
  have h1 := this axes
  have h2 := h.time
  have h3 := h.other
  rcases h.space with h4 | h4 <;> omega

/-- **C98 is false**: the library accepts any number of dimensions from three on, and with six or more the metadata are never valid. -/
theorem ngff_many_dimensions_violated (h : Setup w fuel s cfg cfgs) (hE : StorageOk env s)
    (hd : s.dimensions = some (a :: (inner ++ [y, x]))) (hl : StoredAt s root) (hfr : Fresh w s root)
    (hn : calls.flatten.length < 2 ^ 32)
    (hf : ∀ c ∈ calls, ∀ f ∈ c, f.length = y.arraySize * x.arraySize * itemSize s.dataType)
    {st : SState} {ns : List Nat} (hrun : runStream w env fuel s (calls.map List.flatten) = some (.ok (st, ns, tr)))
    (h6 : 6 ≤ (a :: (inner ++ [y, x])).length) :
    ∃ v, imageMetadata s.version (fun p => fileInStore w cfg p tr) root = some v ∧ ¬ Ngff v := by
  obtain ⟨v, h1, h2⟩ := ngff_valid_partial h hE hd hl hfr hn hf hrun
  refine ⟨v, h1, fun hv => ?_⟩
  have := ngff_at_most_five (h2.1 hv)
  unfold ngffAxesOf at this
  rw [List.length_map] at this
  omega

end

instance (axes : List NgffAxis) : Decidable (NgffAxes axes) :=
  decidable_of_iff ((axes.map (·.1)).Nodup ∧ (axes.map NgffAxis.rank).Pairwise (· ≤ ·) ∧
    ((axes.map NgffAxis.rank).count 2 = 2 ∨ (axes.map NgffAxis.rank).count 2 = 3) ∧
    (axes.map NgffAxis.rank).count 0 ≤ 1 ∧ (axes.map NgffAxis.rank).count 1 ≤ 1)
    ⟨fun ⟨a, b, c, d, e⟩ => ⟨a, b, c, d, e⟩, fun ⟨a, b, c, d, e⟩ => ⟨a, b, c, d, e⟩⟩

/-- The metadata of the sample dataset (time, channel, height, width) are valid. -/
example : ∃ st ns tr v, runStream Sample.world Sample.env 9 Sample.settings (Sample.calls.map List.flatten) = some (.ok (st, ns, tr)) ∧
    imageMetadata 2 (fun p => fileInStore Sample.world Sample.cfg p tr) "/tmp/a.zarr".toList = some v ∧ Ngff v := by
  obtain ⟨cfgs, h, hl⟩ := Sample.setup
  obtain ⟨st, tr, h1, _⟩ := v2_self_describing (calls := Sample.calls) h Sample.sizesInRange Sample.realCodec
    Sample.storageOk rfl (a := Sample.dimT) (inner := [Sample.dimC]) (y := Sample.dimY) (x := Sample.dimX) rfl
    Sample.storedAt Sample.fresh (unblosc_none rfl) (by decide) Sample.calls_sized
  obtain ⟨v, k1, k2⟩ := ngff_valid_partial (calls := Sample.calls) h Sample.storageOk
    (a := Sample.dimT) (inner := [Sample.dimC]) (y := Sample.dimY) (x := Sample.dimX) rfl
    Sample.storedAt Sample.fresh (by decide) Sample.calls_sized h1
  exact ⟨st, _, tr, v, h1, k1, k2.2 (by decide)⟩

/-- The sample with two dimensions of the same name. -/
def Sample.twins : Settings :=
  { Sample.slab 2 1 with
    dimensions := some [⟨some "t".toList, 2, 0, 2, 1⟩, ⟨some "x".toList, 0, 1, 1, 1⟩, ⟨some "x".toList, 0, 1, 1, 1⟩] }

def Sample.twinsCfg : WConfig :=
  { Sample.slabCfg 2 1 with
    dims := ⟨⟨"t", .time, 0, 2, 1⟩, [], ⟨"x", .space, 1, 1, 1⟩, ⟨"x", .space, 1, 1, 1⟩, .u8⟩ }

/-- The sample with the channels before the time. -/
def Sample.swapped : Settings :=
  { Sample.slab 2 1 with
    dimensions := some [⟨some "c".toList, 1, 0, 2, 1⟩, ⟨some "t".toList, 2, 3, 1, 1⟩, ⟨some "y".toList, 0, 1, 1, 1⟩,
      ⟨some "x".toList, 0, 1, 1, 1⟩] }

def Sample.swappedCfg : WConfig :=
  { Sample.slabCfg 2 1 with
    dims := ⟨⟨"c", .channel, 0, 2, 1⟩, [⟨"t", .time, 3, 1, 1⟩], ⟨"y", .space, 1, 1, 1⟩, ⟨"x", .space, 1, 1, 1⟩, .u8⟩ }

/-- **C98 is false** for other reasons: two dimensions of the same name are accepted, and so are channels before time; every call succeeds, and
the metadata are not valid. -/
theorem ngff_axes_violated :
    (∃ st ns tr v, runStream Sample.world Sample.env 9 Sample.twins [[5, 6], [7]] = some (.ok (st, ns, tr)) ∧ st.error = [] ∧
      imageMetadata 3 (fun p => fileInStore Sample.world Sample.twinsCfg p tr) "/tmp/a".toList = some v ∧ ¬ Ngff v) ∧
    (∃ st ns tr v, runStream Sample.world Sample.env 9 Sample.swapped [[5, 6], [7]] = some (.ok (st, ns, tr)) ∧ st.error = [] ∧
      imageMetadata 3 (fun p => fileInStore Sample.world Sample.swappedCfg p tr) "/tmp/a".toList = some v ∧ ¬ Ngff v) := by
  constructor
  · have hS : Setup Sample.world 9 Sample.twins Sample.twinsCfg [Sample.twinsCfg] :=
      ⟨rfl, rfl, rfl, rfl, by decide, fun h => by cases h⟩
    have hf : ∀ c ∈ ([[[5], [6]], [[7]]] : List (List Bytes)), ∀ f ∈ c, f.length = 1 := by decide
    obtain ⟨st, tr, h1, h2, _⟩ := session_v3 (calls := [[[5], [6]], [[7]]]) hS (by decide) Sample.storageOk Sample.overhead rfl (by decide) hf
    have hst : StoredAt Sample.twins "/tmp/a".toList := ⟨rfl, _, rfl, .inr (by decide)⟩
    have hfr : Fresh Sample.world Sample.twins "/tmp/a".toList := .inl ⟨_, rfl, by decide⟩
    obtain ⟨v, k1, k2⟩ := ngff_valid_partial (calls := [[[5], [6]], [[7]]]) hS Sample.storageOk (inner := []) rfl hst hfr (by decide) hf h1
    exact ⟨st, _, tr, v, h1, h2, k1, fun hv => absurd (k2.1 hv) (by decide)⟩
  · have hS : Setup Sample.world 9 Sample.swapped Sample.swappedCfg [Sample.swappedCfg] :=
      ⟨rfl, rfl, rfl, rfl, by decide, fun h => by cases h⟩
    have hf : ∀ c ∈ ([[[5], [6]], [[7]]] : List (List Bytes)), ∀ f ∈ c, f.length = 1 := by decide
    obtain ⟨st, tr, h1, h2, _⟩ := session_v3 (calls := [[[5], [6]], [[7]]]) hS (by decide) Sample.storageOk Sample.overhead rfl (by decide) hf
    have hst : StoredAt Sample.swapped "/tmp/a".toList := ⟨rfl, _, rfl, .inr (by decide)⟩
    have hfr : Fresh Sample.world Sample.swapped "/tmp/a".toList := .inl ⟨_, rfl, by decide⟩
    obtain ⟨v, k1, k2⟩ := ngff_valid_partial (calls := [[[5], [6]], [[7]]]) hS Sample.storageOk
      (inner := [⟨some "t".toList, 2, 3, 1, 1⟩]) rfl hst hfr (by decide) hf h1
    exact ⟨st, _, tr, v, h1, h2, k1, fun hv => absurd (k2.1 hv) (by decide)⟩

end AZ

namespace AZ.S3
open Spec

section
variable {w : World} {env : Env} {fuel : Nat} {s : Settings} {cfg : WConfig} {cfgs : List WConfig}
  {a y x : DimProps} {inner : List DimProps} {root : Text} {calls : List (List Bytes)} {tr : List Ev}

/-- **C98**, S3: the same for the objects of the bucket, whatever was in it before. -/
theorem s3_ngff_valid_partial (h : Setup w fuel s cfg cfgs) (hE : StorageOk env s)
    (hd : s.dimensions = some (a :: (inner ++ [y, x]))) (hr : InBucket s root) (hn : calls.flatten.length < 2 ^ 32)
    (hf : ∀ c ∈ calls, ∀ f ∈ c, f.length = y.arraySize * x.arraySize * itemSize s.dataType)
    {st : SState} {ns : List Nat} (hrun : runStream w env fuel s (calls.map List.flatten) = some (.ok (st, ns, tr)))
    {P : Nat} (hP : 0 < P) {srv : Text → Nat → Reply} (hsrv : ∀ p, Spec.Healthy (srv p)) {junk : Bytes}
    (hj : junk.length = P) (old : Text → Option Bytes) (hsd : SmallDocuments s root cfgs.length P tr) :
    ∃ v, imageMetadata s.version (fun p => (bucketAfter P srv junk old tr p).object) root = some v ∧
      (Ngff v ↔ NgffAxes (ngffAxesOf (a :: (inner ++ [y, x])))) := by
  have hV := version_cases h
  obtain ⟨b, f, d⟩ := s3_stream_document_of h hE hd hr hn hf hrun hP hsrv hj old hsd
    (name := if s.version = 2 then ".zattrs" else "meta/root.group.json")
    (by unfold streamDocNames; rcases hV with hV | hV <;> rw [hV] <;> decide)
    (by rcases hV with hV | hV <;> rw [hV] <;> decide)
    (by
      rcases hV with hV | hV
      · rw [hV]
        exact v2_external_ne h hV (by decide)
      · rw [hV]
        exact v3_external_ne h hV (by decide))
    (by
      rcases hV with hV | hV
      · rw [hV]
        rintro b ⟨v, _, hb, _⟩ rfl
        exact empty_not_json v hb
      · rw [hV]
        rintro b ⟨v, _, _, hb, _⟩ rfl
        exact empty_not_json v hb)
  exact ngff_from (file := fun p => (bucketAfter P srv junk old tr p).object) (levels_pos h) hV f d

end

/-- A non-trivial instance of `s3_ngff_valid_partial`: the metadata of the sample in a bucket are valid. -/
example {srv : Text → Nat → Reply} (hsrv : ∀ p, Spec.Healthy (srv p)) {junk : Bytes} (hj : junk.length = 5 * 2 ^ 20)
    (old : Text → Option Bytes) :
    ∃ st ns tr v, runStream Sample.world Sample.env 9 (Sample.slabS3 2 2 1) [[5, 6], [7]] = some (.ok (st, ns, tr)) ∧
      imageMetadata 2 (fun p => (bucketAfter (5 * 2 ^ 20) srv junk old tr p).object) "a".toList = some v ∧ Ngff v := by
  have hf : ∀ c ∈ ([[[5], [6]], [[7]]] : List (List Bytes)), ∀ f ∈ c, f.length = 1 := by decide
  obtain ⟨st, tr, h1, _, _⟩ := s3_v2_self_describing (calls := [[[5], [6]], [[7]]]) Sample.slabS3Setup2
    (by intro d hd; revert d; decide) (by intro c hc; cases hc) (Sample.slabS3Bucket 2 2 1)
    Sample.storageOk Sample.nonempty Sample.overhead rfl (inner := []) rfl (unblosc_none rfl)
    (by decide) hf (P := 5 * 2 ^ 20) (by decide) (by decide) hsrv hj old
  have hsd := smallDocuments_of (calls := [[[5], [6]], [[7]]]) Sample.slabS3Setup2 (inner := []) rfl
    (Sample.slabS3Bucket 2 2 1).located (by decide) hf h1 (P := 5 * 2 ^ 20) (by
      intro i c hc
      have hi : i = 0 := by
        have := (List.getElem?_eq_some_iff.1 hc).1
        simpa using this
      subst hi
      cases hc
      decide +kernel) (by decide +kernel)
  obtain ⟨v, k1, k2⟩ := s3_ngff_valid_partial (calls := [[[5], [6]], [[7]]]) Sample.slabS3Setup2 Sample.storageOk (inner := []) rfl
    (Sample.slabS3Bucket 2 2 1) (by decide) hf h1 (by decide) hsrv hj old hsd
  exact ⟨st, _, tr, v, h1, k1, k2.2 (by decide)⟩

end AZ.S3
