import Verif.Spec.CustomJson
import Verif.Props.StreamFiles
import Verif.Props.S3Documents

set_option linter.unusedSimpArgs false

/-!
# C90: the custom metadata of a stream is in the dataset
-/

namespace AZ
open Spec

/-- A blank text is not JSON. -/
theorem blank_not_json {m : Text} {v : JVal} (h : parseJson m = some v) : trim m ≠ [] := by
  intro ht
  have hall : ∀ c ∈ m, isSpace c = true := by
    unfold trim at ht
    rw [List.reverse_eq_nil_iff] at ht
    have h1 : ∀ l : Text, l.dropWhile isSpace = [] → ∀ c ∈ l, isSpace c = true := by
      intro l
      induction l with
      | nil => intro _ c hc; cases hc
      | cons d l ih =>
        intro hd c hc
        cases hd' : isSpace d with
        | true =>
          rw [List.dropWhile_cons_of_pos hd'] at hd
          rcases List.mem_cons.1 hc with rfl | hc
          · exact hd'
          · exact ih hd c hc
        | false =>
          rw [List.dropWhile_cons_of_neg (by simp [hd'])] at hd
          cases hd
    have h2 := h1 _ ht
    have h3 : m.dropWhile isSpace = [] := by
      cases e : m.dropWhile isSpace with
      | nil => rfl
      | cons c r =>
        have k1 : isSpace c = true := h2 c (by rw [e]; simp)
        have k2 := List.head?_dropWhile_not isSpace m
        rw [e] at k2
        simp only [List.head?_cons] at k2
        rw [k1] at k2
        cases k2
    exact h1 m h3
  unfold parseJson at h
  cases hv : value (m.length + 1) m with
  | none => rw [hv] at h; cases h
  | some p =>
    simp only [value] at hv
    cases hs : skipWs m with
    | nil => rw [hs] at hv; cases hv
    | cons c r =>
      rw [hs] at hv
      have hc : isSpace c = true := by
        refine hall c ?_
        have : c ∈ skipWs m := by rw [hs]; simp
        exact (List.dropWhile_sublist isWs).mem this
      have hn : c = Char.ofNat 32 ∨ c = Char.ofNat 9 ∨ c = Char.ofNat 10 ∨ c = Char.ofNat 11 ∨ c = Char.ofNat 12 ∨ c = Char.ofNat 13 := by
        unfold isSpace at hc
        simp only [Bool.or_eq_true, decide_eq_true_eq] at hc
        have e : Char.ofNat c.toNat = c := Char.ofNat_toNat c
        rcases hc with ((((hc | hc) | hc) | hc) | hc) | hc
        · exact .inl hc
        all_goals (rw [hc] at e; rw [← e]; simp)
      have hnum : number (c :: r) = none := by
        rcases hn with rfl | rfl | rfl | rfl | rfl | rfl <;> rfl
      dsimp only at hv
      rw [hnum] at hv
      rcases hn with rfl | rfl | rfl | rfl | rfl | rfl <;> cases hv

section
variable {w : World} {env : Env} {fuel : Nat} {s : Settings} {cfg : WConfig} {cfgs : List WConfig}
  {a y x : DimProps} {inner : List DimProps} {root : Text} {calls : List (List Bytes)}
  {st : SState} {ns : List Nat} {tr : List Ev}

/-- Where the custom metadata of a dataset are. -/
def customName (version : Nat) : String := if version = 2 then "acquire.json" else "meta/acquire.json"

theorem customName_mem (v : Nat) : customName v ∈ streamDocNames v := by
  unfold customName streamDocNames
  split <;> simp

theorem customName_ne (v : Nat) : customName v ≠ "0/.zattrs" := by
  unfold customName
  split <;> decide

theorem customName_doc {ds : List DimProps} {n : Nat} {b : Bytes} (h : StreamDoc w s ds inner n (customName s.version) b) :
    w.parseJson (s.customMetadata.getD "{}".toList) = some b := by
  unfold customName at h
  split at h <;> exact h

/-- What the user gave: the JSON text, `{}` if nothing. -/
def GivenJson (s : Settings) (v : JVal) : Prop := parseJson (s.customMetadata.getD "{}".toList) = some v

theorem GivenJson.text {v : JVal} (h : GivenJson s v) : HasCustomText s := by
  intro m hm
  unfold GivenJson at h
  rw [hm] at h
  exact blank_not_json h

/-- **C90, files.** A stream that was created with a JSON text as custom metadata, or without: after the session, whatever was appended, the dataset contains a document with that
value. -/
theorem custom_metadata_stored_partial {round : Rat → Option Rat} {v : JVal} (hj : JsonLib w) (hp : PrintsWhatItReads round w.parseJson) (hv : GivenJson s v)
    (h : Setup w fuel s cfg cfgs) (hE : StorageOk env s)
    (hd : s.dimensions = some (a :: (inner ++ [y, x]))) (hl : StoredAt s root) (hfr : Fresh w s root)
    (hn : calls.flatten.length < 2 ^ 32)
    (hf : ∀ c ∈ calls, ∀ f ∈ c, f.length = y.arraySize * x.arraySize * itemSize s.dataType)
    (hrun : runStream w env fuel s (calls.map List.flatten) = some (.ok (st, ns, tr))) :
    ∃ b v', fileInStore w cfg (root ++ '/' :: (customName s.version).toList) tr = some b ∧ JsonFile b v' ∧ SameJson round v v' := by
  obtain ⟨b, hb, hdoc⟩ := stream_files hj hv.text h hE hd hl hfr hn hf hrun (customName_mem s.version) (customName_ne s.version)
  obtain ⟨v', h1, h2⟩ := hp _ _ _ hv (customName_doc hdoc)
  exact ⟨b, v', hb, h1, h2⟩

/-- **C90, S3.** The same for the object in the bucket. -/
theorem custom_metadata_uploaded_partial {round : Rat → Option Rat} {v : JVal} (hj : JsonLib w) (hp : PrintsWhatItReads round w.parseJson)
    (hprint : ∀ m d, w.parseJson m = some d → d ≠ []) (hv : GivenJson s v)
    (h : Setup w fuel s cfg cfgs) (hE : StorageOk env s)
    (hd : s.dimensions = some (a :: (inner ++ [y, x]))) (hr : InBucket s root)
    (hn : calls.flatten.length < 2 ^ 32)
    (hf : ∀ c ∈ calls, ∀ f ∈ c, f.length = y.arraySize * x.arraySize * itemSize s.dataType)
    (hrun : runStream w env fuel s (calls.map List.flatten) = some (.ok (st, ns, tr)))
    {P : Nat} (hP : 0 < P) {srv : Text → Nat → S3.Reply} (hsrv : ∀ p, Spec.Healthy (srv p)) {junk : Bytes}
    (hjunk : junk.length = P) (old : Text → Option Bytes) (hsd : SmallDocuments s root cfgs.length P tr) :
    ∃ b v', bucketAfter P srv junk old tr (root ++ '/' :: (customName s.version).toList) = ⟨none, some b, true⟩ ∧ JsonFile b v' ∧ SameJson round v v' := by
  obtain ⟨b, hb, hdoc⟩ := (s3_stream_documents hj hprint hv.text h hE hd hr hn hf hrun hP hsrv hjunk old hsd).1 _ (customName_mem s.version) (customName_ne s.version)
  obtain ⟨v', h1, h2⟩ := hp _ _ _ hv (customName_doc hdoc)
  exact ⟨b, v', hb, h1, h2⟩

/-- **C90 is violated by the code** for the empty text, which is accepted as no metadata: the document is created and stays empty. -/
theorem empty_metadata_violated (hm : s.customMetadata = some []) (h : Setup w fuel s cfg cfgs) (hE : StorageOk env s)
    (hd : s.dimensions = some (a :: (inner ++ [y, x]))) (hl : StoredAt s root) (hfr : Fresh w s root)
    (hn : calls.flatten.length < 2 ^ 32)
    (hf : ∀ c ∈ calls, ∀ f ∈ c, f.length = y.arraySize * x.arraySize * itemSize s.dataType)
    (hrun : runStream w env fuel s (calls.map List.flatten) = some (.ok (st, ns, tr))) :
    fileInStore w cfg (root ++ '/' :: (customName s.version).toList) tr = some [] ∧ ∀ v, ¬ JsonFile [] v := by
  refine ⟨?_, empty_not_json⟩
  rw [stream_file h hE hd hl hfr hn hf hrun (customName_mem s.version)]
  suffices docsFor w s cfg cfgs.length (customName s.version).toList = [] by rw [this]; rfl
  have hext : externalDoc w s = none := by
    unfold externalDoc customMetadata
    rw [hm]
    rfl
  have hver := (commit_fields h.commit).2.2.2.2
  have k : (baseDoc cfg cfgs.length).1 ≠ (customName s.version).toList ∧ (groupDoc cfg cfgs.length).1 ≠ (customName s.version).toList := by
    unfold baseDoc groupDoc customName
    rw [hver]
    by_cases hv : s.version = 2
    · simp only [if_pos hv]; decide
    · simp only [if_neg hv]; decide
  unfold docsFor
  rw [hext]
  generalize (customName s.version).toList = key at *
  rw [if_neg k.1, if_neg k.2]
  split <;> rfl

end

theorem sameJson_refl (round : Rat → Option Rat) : ∀ v, SameJson round v v
  | .null => .null
  | .bool b => .bool b
  | .num _ => .num rfl
  | .str t => .str t
  | .arr xs => .arr rfl fun i x y hx hy => by
      rw [hx] at hy
      cases hy
      have : x ∈ xs := List.mem_of_getElem? hx
      exact sameJson_refl round x
  | .obj ms => .obj (fun _ => rfl) fun k v v' hv hv' => by
      rw [hv] at hv'
      cases hv'
      have : ∃ m ∈ ms, m.2 = v := by
        unfold lastMember at hv
        rw [Option.map_eq_some_iff] at hv
        obtain ⟨m, h1, h2⟩ := hv
        exact ⟨m, List.mem_reverse.1 (List.mem_of_find?_eq_some h1), h2⟩
      obtain ⟨m, h1, h2⟩ := this
      have h3 := List.sizeOf_lt_of_mem h1
      have h4 : sizeOf v < sizeOf m := by
        obtain ⟨m1, m2⟩ := m
        dsimp only at h2
        subst h2
        simp
      have h5 : sizeOf v < 1 + sizeOf ms := by omega
      exact sameJson_refl round v

namespace Sample

/-- Custom metadata, formatted as the library prints them. -/
def givenJson : Json := .obj [("exposure".toList, .num 25), ("objective".toList, .str "63x".toList), ("stages".toList, .arr [.null, .obj []])]
def given : Text := givenJson.dump 0

/-- A JSON library that knows two texts. -/
def jsonWorld : World := { world with
  parseJson := fun m => if m = "{}".toList then some (utf8 "{}".toList) else if m = given then some (utf8 given) else none }

def jsonSettings : Settings := { settings with customMetadata := some given }

theorem jsonWorld_lib : JsonLib jsonWorld := by
  refine ⟨by decide, fun m d h => ?_⟩
  have hm : m = "{}".toList ∨ m = given := by
    dsimp only [jsonWorld] at h
    split at h
    next e => exact .inl e
    · split at h
      next e => exact .inr e
      · cases h
  rcases hm with rfl | rfl
  · rw [show trim "{}".toList = "{}".toList by decide]; exact h
  · rw [show trim given = given by decide]; exact h

theorem jsonWorld_prints : PrintsWhatItReads some jsonWorld.parseJson := by
  intro t v b hv h
  dsimp only [jsonWorld] at h
  split at h
  next e =>
    cases h
    subst e
    exact ⟨v, ⟨_, rfl, hv⟩, sameJson_refl _ v⟩
  · split at h
    next e =>
      cases h
      subst e
      exact ⟨v, ⟨_, rfl, hv⟩, sameJson_refl _ v⟩
    · cases h

/-- The sample session with these metadata: the document in the dataset has their value. -/
example : ∃ cfg st ns tr b v, runStream jsonWorld env 9 jsonSettings (calls.map List.flatten) = some (.ok (st, ns, tr)) ∧
    fileInStore jsonWorld cfg "/tmp/a.zarr/acquire.json".toList tr = some b ∧ JsonFile b v ∧ SameJson some givenJson.val v := by
  have hs : ∃ cfg cfgs, Setup jsonWorld 9 jsonSettings cfg cfgs := ⟨_, _, ⟨by decide, rfl, rfl, rfl, by decide, fun _ => by decide⟩⟩
  obtain ⟨cfg, cfgs, h⟩ := hs
  obtain ⟨st, tr, h1, _⟩ := v2_pixel_reads_back (calls := calls) h storageOk rfl rfl
    (a := dimT) (inner := [dimC]) (y := dimY) (x := dimX) rfl storedAt fresh (by decide) calls_sized
  have hg : GivenJson jsonSettings givenJson.val := by
    unfold GivenJson jsonSettings
    dsimp only
    rw [Option.getD_some, given]
    exact parseJson_dump givenJson
  obtain ⟨b, v, h2, h3, h4⟩ := custom_metadata_stored_partial (v := givenJson.val) jsonWorld_lib jsonWorld_prints hg h storageOk
    (a := dimT) (inner := [dimC]) (y := dimY) (x := dimX) rfl storedAt fresh (by decide) calls_sized h1
  exact ⟨cfg, st, _, tr, b, v, h1, h2, h3, h4⟩

end Sample
end AZ
