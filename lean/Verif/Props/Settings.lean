import Verif.Props.Trim
import Verif.Props.Append
import Verif.Props.Pyramid
import Verif.Model.Api

set_option linter.unusedSimpArgs false

/-! # Settings (C22, C23, C24) -/

namespace AZ
open Spec

variable {w : World} {env : Env} {fuel : Nat} {s : Settings} {cfg : WConfig} {cfgs : List WConfig}

/-! ### Validation decides the documented constraints -/

theorem isEmptyString_false_iff (t : Option Text) : isEmptyString t = .ok false ↔ Given t := by
  cases t with
  | none => simp [isEmptyString, Given]
  | some x =>
    simp only [isEmptyString, Res.ok.injEq, Given, Option.some.injEq, exists_eq_left']
    rw [← trim_eq_nil_iff]
    simp

theorem validateS3_iff (x : S3Settings) : validateS3 x = .ok true ↔ GoodS3 x := by
  unfold validateS3
  constructor
  · intro h
    obtain ⟨e1, h1, h⟩ := Res.bind_eq_ok.1 h
    simp only [Res.pure_eq] at h
    split at h
    · simp at h
    rename_i g1
    obtain ⟨e2, h2, h⟩ := Res.bind_eq_ok.1 h
    split at h
    · simp at h
    rename_i g2
    obtain ⟨e3, h3, h⟩ := Res.bind_eq_ok.1 h
    split at h
    · simp at h
    rename_i g3
    simp only [Bool.not_eq_true] at g1 g2 g3
    rw [g1] at h1; rw [g2] at h2; rw [g3] at h3
    refine ⟨(isEmptyString_false_iff _).1 h1, (isEmptyString_false_iff _).1 h2, (isEmptyString_false_iff _).1 h3, ?_⟩
    split at h
    · simp at h
    · rename_i b hb
      simp at h
      exact ⟨b, trim b, hb, trim_spec b, by omega, by omega⟩
  · rintro ⟨h1, h2, h3, b, t, h4, h5, h6, h7⟩
    rw [(isEmptyString_false_iff _).2 h1, (isEmptyString_false_iff _).2 h2, (isEmptyString_false_iff _).2 h3, h4]
    have := trimmed_unique (trim_spec b) h5
    simp [this]
    omega

theorem validateCompression_iff (c : CompressionSettings) : validateCompression c = true ↔ GoodCompression c := by
  unfold validateCompression
  constructor
  · intro h
    split at h; · simp at h
    split at h; · simp at h
    split at h; · simp at h
    split at h; · simp at h
    split at h; · simp at h
    rename_i a1 a2 a3 a4 a5
    simp at a3 a5
    exact ⟨by omega, by omega, fun hc => a3 (by omega), by omega, by omega⟩
  · rintro ⟨h1, h2, h3, h4, h5⟩
    rw [if_neg (by omega), if_neg (by omega), if_neg ?_, if_neg (by omega), if_neg ?_]
    · simp; omega
    · simp
      intro hc
      exact h3 (by omega)

theorem validateDimension_iff (v : Nat) (b : Bool) (d : DimProps) :
    validateDimension v b d = .ok true ↔ GoodDim v d ∧ (b = false → d.arraySize ≠ 0) := by
  constructor
  · intro h
    obtain ⟨⟨n, h1, h2⟩, h3, h4, h5, h6⟩ := validateDimension_ok h
    refine ⟨⟨⟨n, h1, ?_⟩, by omega, by omega, fun hv => by have := h6 hv; omega⟩, fun hb => by have := h4 hb; omega⟩
    rw [← trim_eq_nil_iff]
    simpa using h2
  · rintro ⟨⟨h1, h2, h3, h4⟩, h5⟩
    unfold validateDimension
    rw [(isEmptyString_false_iff _).2 h1]
    simp only [Res.bind_ok, Bool.false_eq_true, if_false, Res.pure_eq]
    rw [if_neg (by omega), if_neg ?_, if_neg h3, if_neg ?_]
    · simp; exact fun hv => h4 hv
    · simp; exact fun hb => h5 hb

theorem validateDimensions_iff (v : Nat) (b : Bool) (ds : List DimProps) :
    validateDimensions v b ds = .ok true ↔ (∀ d ∈ ds, GoodDim v d) ∧
      ∀ (d : DimProps) (i : Nat), ds[i]? = some d → (b = false ∨ 0 < i) → d.arraySize ≠ 0 := by
  induction ds generalizing b with
  | nil => simp [validateDimensions]
  | cons d ds ih =>
    rw [validateDimensions]
    constructor
    · intro h
      obtain ⟨e, h1, h⟩ := Res.bind_eq_ok.1 h
      cases e with
      | false => simp at h
      | true =>
        simp only [Bool.not_true, Bool.false_eq_true, if_false] at h
        obtain ⟨i1, i2⟩ := (ih false).1 h
        obtain ⟨k1, k2⟩ := (validateDimension_iff v b d).1 h1
        refine ⟨?_, ?_⟩
        · intro x hx
          rcases List.mem_cons.1 hx with rfl | hx
          · exact k1
          · exact i1 x hx
        · intro x i hx hi
          cases i with
          | zero =>
            simp at hx
            rw [← hx]
            exact k2 (by simpa using hi)
          | succ i => exact i2 x i (by simpa using hx) (.inl rfl)
    · rintro ⟨h1, h2⟩
      rw [(validateDimension_iff v b d).2 ⟨h1 d (by simp), fun hb => h2 d 0 rfl (.inl hb)⟩]
      simp only [Res.bind_ok, Bool.not_true, Bool.false_eq_true, if_false]
      rw [ih]
      exact ⟨fun x hx => h1 x (by simp [hx]), fun x i hx _ => h2 x (i + 1) (by simpa using hx) (.inr (by omega))⟩

theorem dimsStage_iff (s : Settings) :
    dimsStage s = .ok true ↔ ∃ ds, s.dimensions = some ds ∧ Spec.GoodDims s.version ds := by
  unfold dimsStage
  cases hs : s.dimensions with
  | none => simp
  | some ds =>
    simp only [Option.some.injEq, exists_eq_left']
    by_cases hl : ds.length < 3
    · rw [if_pos hl]
      simp only [Res.ok.injEq, Bool.false_eq_true, false_iff]
      intro h
      exact absurd h.count (by omega)
    · rw [if_neg hl]
      obtain ⟨r, y, x, rfl⟩ : ∃ r y x, ds = r ++ [y, x] := by
        have h1 : ds = ds.take (ds.length - 2) ++ ds.drop (ds.length - 2) := (List.take_append_drop _ _).symm
        have h2 : (ds.drop (ds.length - 2)).length = 2 := by simp; omega
        obtain ⟨y, x, hyx⟩ := List.length_eq_two.1 h2
        rw [hyx] at h1
        exact ⟨_, y, x, h1⟩
      have hrev : (r ++ [y, x]).reverse = x :: y :: r.reverse := by simp
      rw [hrev]
      dsimp only
      have hx : (r ++ [y, x])[r.length + 1]? = some x := by simp
      have hy : (r ++ [y, x])[r.length]? = some y := by simp
      have hlen : (r ++ [y, x]).length = r.length + 2 := by simp
      by_cases h1 : x.kind ≠ 0
      · rw [if_pos h1]
        simp only [Res.ok.injEq, Bool.false_eq_true, false_iff]
        intro h
        exact h1 (h.spatial x _ hx (by omega))
      · rw [if_neg h1]
        by_cases h2 : y.kind ≠ 0
        · rw [if_pos h2]
          simp only [Res.ok.injEq, Bool.false_eq_true, false_iff]
          intro h
          exact h2 (h.spatial y _ hy (by omega))
        · rw [if_neg h2, validateDimensions_iff]
          constructor
          · rintro ⟨k1, k2⟩
            refine ⟨by omega, ?_, k1, fun d i hd hi => k2 d i hd (.inr hi)⟩
            intro d i hd hi
            have hi2 : i < (r ++ [y, x]).length := by
              rcases Nat.lt_or_ge i (r ++ [y, x]).length with h | h
              · exact h
              · rw [List.getElem?_eq_none h] at hd; simp at hd
            rcases (by omega : i = r.length ∨ i = r.length + 1) with rfl | rfl
            · rw [hy] at hd
              simp at hd; subst hd
              simpa using h2
            · rw [hx] at hd
              simp at hd; subst hd
              simpa using h1
          · intro h
            exact ⟨h.each, fun d i hd hi => h.sizes d i hd (by simpa using hi)⟩

/-- **C22, decision.** Validation accepts exactly the settings that satisfy the documented constraints. -/
theorem validation_exact (w : World) (s : Settings) : validateSettings w (some s) = .ok true ↔ GoodSettings w s := by
  have hcustom : validateCustomMetadata w s.customMetadata = true ↔
      ∀ m, s.customMetadata = some m → m ≠ [] → (w.parseJson m).isSome = true := by
    unfold validateCustomMetadata
    cases s.customMetadata with
    | none => simp
    | some m => cases m <;> simp
  have hpath : ∀ p, validateStorePath w p = true ↔
      w.parentExists p = true ∧ w.parentIsDir p = true ∧ w.parentWritable p = true := by
    intro p
    unfold validateStorePath
    simp [and_assoc]
  constructor
  · intro h
    obtain ⟨a1, ⟨p, a2, a3, a4⟩, a5, a6, a7, a8, _⟩ := validateSettings_ok h
    refine ⟨a1, ⟨p, a2, a3, fun h3 => (hpath p).1 (a4 h3)⟩, fun x hx => (validateS3_iff x).1 (a5 x hx), by omega,
      fun c hc => (validateCompression_iff c).1 (a7 c hc), hcustom.1 a8, ?_⟩
    rw [← dimsStage_iff]
    rw [validateSettings_eq] at h
    have hrest : restStage w s = .ok true → dimsStage s = .ok true := by
      intro hr
      unfold restStage at hr
      split at hr; · simp at hr
      split at hr; · simp at hr
      split at hr; · simp at hr
      exact hr
    split at h; · simp at h
    rw [a2] at h
    dsimp only at h
    split at h; · simp at h
    split at h
    · rename_i x hx
      rw [a5 x hx] at h
      exact hrest (by simpa [Res.bind] using h)
    · split at h; · simp at h
      exact hrest h
  · rintro ⟨a1, ⟨p, a2, a3, a4⟩, a5, a6, a7, a8, a9⟩
    have hrest : restStage w s = .ok true := by
      unfold restStage
      rw [if_neg (by omega), if_neg ?_, if_neg ?_]
      · exact (dimsStage_iff s).2 a9
      · rw [hcustom.2 a8]; simp
      · cases hc : s.compression with
        | none => simp
        | some c => simp [(validateCompression_iff c).2 (a7 c hc)]
    rw [validateSettings_eq, if_neg (by simp; omega), a2]
    dsimp only
    rw [if_neg (by simpa using a3)]
    cases hs : s.s3 with
    | none =>
      dsimp only
      rw [(hpath p).2 (a4 hs)]
      simpa using hrest
    | some x =>
      dsimp only
      rw [(validateS3_iff x).2 (a5 x hs)]
      simpa [Res.bind] using hrest

/-- The settings contain no NULL where a string is required to be non-NULL. -/
def NoNullStrings (s : Settings) : Prop :=
  (∀ x, s.s3 = some x → x.endpoint ≠ none ∧ x.accessKeyId ≠ none ∧ x.secretAccessKey ≠ none ∧ x.bucketName ≠ none) ∧
  ∀ ds, s.dimensions = some ds → ∀ d ∈ ds, d.name ≠ none

theorem isEmptyString_ok {t : Option Text} (h : t ≠ none) : ∃ b, isEmptyString t = .ok b := by
  cases t with
  | none => exact absurd rfl h
  | some x => exact ⟨_, rfl⟩

theorem validateDimensions_total {v : Nat} {b : Bool} {ds : List DimProps} (h : ∀ d ∈ ds, d.name ≠ none) :
    ∃ r, validateDimensions v b ds = .ok r := by
  induction ds generalizing b with
  | nil => exact ⟨true, rfl⟩
  | cons d ds ih =>
    obtain ⟨e, he⟩ := isEmptyString_ok (h d (by simp))
    have hd : ∃ r, validateDimension v b d = .ok r := by
      unfold validateDimension
      rw [he]
      simp only [Res.bind_ok, Res.pure_eq]
      split; · exact ⟨_, rfl⟩
      split; · exact ⟨_, rfl⟩
      split; · exact ⟨_, rfl⟩
      split; · exact ⟨_, rfl⟩
      split <;> exact ⟨_, rfl⟩
    obtain ⟨r, hr⟩ := hd
    rw [validateDimensions, hr]
    simp only [Res.bind_ok]
    cases r with
    | false => exact ⟨false, rfl⟩
    | true => exact ih (b := false) fun x hx => h x (by simp [hx])

theorem validateSettings_total (h : NoNullStrings s) : ∃ b, validateSettings w (some s) = .ok b := by
  have hdims : ∃ b, dimsStage s = .ok b := by
    unfold dimsStage
    split; · exact ⟨_, rfl⟩
    rename_i ds hds
    split; · exact ⟨_, rfl⟩
    split
    · split; · exact ⟨_, rfl⟩
      split; · exact ⟨_, rfl⟩
      exact validateDimensions_total (h.2 ds hds)
    · exact ⟨_, rfl⟩
  have hrest : ∃ b, restStage w s = .ok b := by
    unfold restStage
    split; · exact ⟨_, rfl⟩
    split; · exact ⟨_, rfl⟩
    split; · exact ⟨_, rfl⟩
    exact hdims
  rw [validateSettings_eq]
  split; · exact ⟨_, rfl⟩
  split; · exact ⟨_, rfl⟩
  split; · exact ⟨_, rfl⟩
  split
  · rename_i x hx
    obtain ⟨h1, h2, h3, h4⟩ := h.1 x hx
    have : ∃ b, validateS3 x = .ok b := by
      unfold validateS3
      obtain ⟨b1, e1⟩ := isEmptyString_ok h1
      obtain ⟨b2, e2⟩ := isEmptyString_ok h2
      obtain ⟨b3, e3⟩ := isEmptyString_ok h3
      rw [e1, e2, e3]
      simp only [Res.bind_ok, Res.pure_eq]
      split; · exact ⟨_, rfl⟩
      split; · exact ⟨_, rfl⟩
      split; · exact ⟨_, rfl⟩
      cases hb : x.bucketName with
      | none => exact absurd hb h4
      | some b => exact ⟨_, rfl⟩
    obtain ⟨b, hb⟩ := this
    rw [hb]
    simp only [Res.bind]
    split
    · exact ⟨_, rfl⟩
    · exact hrest
  · split; · exact ⟨_, rfl⟩
    exact hrest

/-- **C22, rejection.** Settings that violate a documented constraint are rejected, before anything is touched
(NULL strings are C24). -/
theorem invalid_settings_rejected (h : ¬ GoodSettings w s) (hn : NoNullStrings s) :
    apiCreate w env fuel (some s) = (false, some .throw) := by
  obtain ⟨b, hb⟩ := validateSettings_total (w := w) hn
  have : b = false := by
    cases b with
    | false => rfl
    | true => exact absurd ((validation_exact w s).1 hb) h
  subst this
  unfold apiCreate createStream
  rw [hb]

/-- A NULL settings pointer is rejected likewise. -/
theorem null_settings_rejected : apiCreate w env fuel none = (false, some .throw) := by
  unfold apiCreate createStream
  rfl

/-- **C22, acceptance.** Settings that satisfy the constraints are accepted when the store can be created and
storage works, with sizes as the API types have them and, for multiscale, the condition of C17. -/
theorem valid_settings_accepted_partial (h : GoodSettings w s) (hE : StorageWorks env)
    (hst : ∀ p, w.storeOk p = true) (hz : SizesInRange s) (hm : s.multiscale = true → HasShrinkable s) :
    ∃ st, apiCreate w env 32 (some s) = (true, some (.ok st)) := by
  have hv := (validation_exact w s).2 h
  obtain ⟨cfg, hc⟩ := commit_ok hv
  have hl : ∃ cfgs, levelConfigs 32 s.multiscale cfg = some (.ok cfgs) := by
    cases hms : s.multiscale with
    | false => exact ⟨_, rfl⟩
    | true =>
      obtain ⟨d, d1, d2, d3, d4⟩ := hm hms
      obtain ⟨cfgs, hcf, _⟩ := levelConfigs_ends (sizesOk_of hv hc hz) (d := d.toDim) (by
        rw [toList_commit hc]; exact List.mem_map_of_mem d1) (by
        rw [ne_eq, kind_channel]; simp [d2]) d3 d4
      exact ⟨cfgs, hcf⟩
  obtain ⟨cfgs, hl⟩ := hl
  obtain ⟨st, hs⟩ := createStream_works hE hv hc (hst _) hl
  refine ⟨st, ?_⟩
  unfold apiCreate
  rw [hv]
  dsimp only
  rw [hc, hs]

/-! ### C24: NULL strings -/

/-- A NULL settings pointer, store path or dimension array is rejected, and a NULL custom metadata string means
"none". Missing: NULL dimension names and NULL S3 strings (`null_strings_violated`). -/
theorem null_pointers_partial (h : s.storePath = none ∨ s.dimensions = none) (hn : NoNullStrings s) :
    apiCreate w env fuel (some s) = (false, some .throw) := by
  refine invalid_settings_rejected ?_ hn
  intro hg
  rcases h with h | h
  · obtain ⟨p, hp, _⟩ := hg.path
    rw [h] at hp; simp at hp
  · obtain ⟨p, hp, _⟩ := hg.dims
    rw [h] at hp; simp at hp

/-- For every struct that reaches the S3 check, a NULL endpoint is dereferenced. -/
theorem null_endpoint_ub {x : S3Settings} {p : Text} (hv : s.version = 2 ∨ s.version = 3) (hp : s.storePath = some p)
    (hpe : p ≠ []) (hx : s.s3 = some x) (he : x.endpoint = none) : createStream w env fuel (some s) = some .ub := by
  have : validateSettings w (some s) = .ub := by
    rw [validateSettings_eq, if_neg (by simp; omega), hp]
    dsimp only
    rw [if_neg (by simpa using hpe), hx]
    dsimp only
    unfold validateS3
    rw [he]
    rfl
  unfold createStream
  rw [this]

theorem validateDimensions_null {v : Nat} {d : DimProps} {r : List DimProps} (l : List DimProps) {b : Bool}
    (h : validateDimensions v b (l ++ d :: r) = .ok true) : validateDimensions v b (l ++ { d with name := none } :: r) = .ub := by
  induction l generalizing b with
  | nil => rfl
  | cons e l ih =>
    rw [List.cons_append, validateDimensions] at h ⊢
    obtain ⟨x, h1, h⟩ := Res.bind_eq_ok.1 h
    rw [h1]
    cases x with
    | false => simp at h
    | true =>
      simp only [Bool.not_true, Bool.false_eq_true, if_false] at h
      exact ih h

theorem dimsStage_null {s : Settings} {d : DimProps} {l r : List DimProps} (hd : s.dimensions = some (l ++ d :: r))
    (h : dimsStage s = .ok true) : dimsStage { s with dimensions := some (l ++ { d with name := none } :: r) } = .ub := by
  unfold dimsStage at h ⊢
  rw [hd] at h
  dsimp only at h ⊢
  have hl : (l ++ { d with name := none } :: r).length = (l ++ d :: r).length := by simp
  rw [hl]
  by_cases h3 : (l ++ d :: r).length < 3
  · rw [if_pos h3] at h; simp at h
  · rw [if_neg h3] at h ⊢
    have e : ∀ d : DimProps, (l ++ d :: r).reverse = r.reverse ++ d :: l.reverse := by intro d; simp
    rw [e] at h ⊢
    cases hr : r.reverse with
    | nil =>
      rw [hr] at h
      cases hll : l.reverse with
      | nil => rw [hll] at h; simp at h
      | cons y t =>
        rw [hll] at h
        dsimp only [List.nil_append] at h ⊢
        split at h
        · simp at h
        · rename_i c1
          split at h
          · simp at h
          · rename_i c2
            rw [if_neg c1, if_neg c2]
            exact validateDimensions_null l h
    | cons x t =>
      rw [hr] at h
      cases t with
      | nil =>
        dsimp only [List.cons_append, List.nil_append] at h ⊢
        split at h
        · simp at h
        · rename_i c1
          split at h
          · simp at h
          · rename_i c2
            rw [if_neg c1, if_neg c2]
            exact validateDimensions_null l h
      | cons y t =>
        dsimp only [List.cons_append] at h ⊢
        split at h
        · simp at h
        · rename_i c1
          split at h
          · simp at h
          · rename_i c2
            rw [if_neg c1, if_neg c2]
            exact validateDimensions_null l h

/-- **C24 is violated for every accepted struct**: with the name of any one dimension replaced by NULL, `create` dereferences it. -/
theorem null_name_ub {d : DimProps} {l r : List DimProps} (h : validateSettings w (some s) = .ok true)
    (hd : s.dimensions = some (l ++ d :: r)) :
    createStream w env fuel (some { s with dimensions := some (l ++ { d with name := none } :: r) }) = some .ub := by
  have rest : restStage w s = .ok true → restStage w { s with dimensions := some (l ++ { d with name := none } :: r) } = .ub := by
    intro h
    unfold restStage at h ⊢
    dsimp only
    split at h
    · simp at h
    · rename_i c1
      rw [if_neg c1]
      split at h
      · simp at h
      · rename_i c2
        rw [if_neg c2]
        split at h
        · simp at h
        · rename_i c3
          rw [if_neg c3]
          exact dimsStage_null hd h
  have : validateSettings w (some { s with dimensions := some (l ++ { d with name := none } :: r) }) = .ub := by
    rw [validateSettings_eq] at h ⊢
    dsimp only
    split at h
    · simp at h
    · rename_i c1
      rw [if_neg c1]
      split at h
      · simp at h
      · rename_i p hp
        rw [hp]
        split at h
        · simp at h
        · rename_i c2
          rw [if_neg c2]
          split at h
          · rename_i x hx
            rw [hx]
            cases hv : validateS3 x with
            | throw => rw [hv] at h; simp [Res.bind] at h
            | ub => rw [hv] at h; simp [Res.bind] at h
            | ok b =>
              rw [hv] at h
              cases b with
              | false => simp [Res.bind] at h
              | true =>
                simp only [Res.bind, Bool.not_true, Bool.false_eq_true, if_false] at h ⊢
                exact rest h
          · rename_i hx
            rw [hx]
            split at h
            · simp at h
            · rename_i c3
              rw [if_neg c3]
              exact rest h
  unfold createStream
  rw [this]

/-- **C24 is violated for every accepted struct with S3 settings**: with any one of the four strings replaced by NULL, `create`
dereferences it. -/
theorem null_s3_ub {x x' : S3Settings} (h : validateSettings w (some s) = .ok true) (hx : s.s3 = some x)
    (hn : x' = { x with endpoint := none } ∨ x' = { x with bucketName := none } ∨ x' = { x with accessKeyId := none } ∨
      x' = { x with secretAccessKey := none }) :
    createStream w env fuel (some { s with s3 := some x' }) = some .ub := by
  have hA := validateSettings_ok h
  obtain ⟨p, hp, hpe, _⟩ := hA.path
  have hs3 := hA.s3 x hx
  have hub : validateS3 x' = .ub := by
    unfold validateS3 at hs3
    obtain ⟨b1, h1, hs3⟩ := Res.bind_eq_ok.1 hs3
    cases b1 with
    | true => simp at hs3
    | false =>
      simp only [Bool.false_eq_true, if_false] at hs3
      obtain ⟨b2, h2, hs3⟩ := Res.bind_eq_ok.1 hs3
      cases b2 with
      | true => simp at hs3
      | false =>
        simp only [Bool.false_eq_true, if_false] at hs3
        obtain ⟨b3, h3, hs3⟩ := Res.bind_eq_ok.1 hs3
        cases b3 with
        | true => simp at hs3
        | false =>
          rcases hn with rfl | rfl | rfl | rfl
          · rfl
          · unfold validateS3; dsimp only; rw [h1, h2, h3]; rfl
          · unfold validateS3; dsimp only; rw [h1]; rfl
          · unfold validateS3; dsimp only; rw [h1, h2]; rfl
  have : validateSettings w (some { s with s3 := some x' }) = .ub := by
    rw [validateSettings_eq]
    dsimp only
    rw [if_neg (by have := hA.version; simp; omega), hp]
    dsimp only
    rw [if_neg (by simpa using hpe), hub]
    rfl
  unfold createStream
  rw [this]

/-- The sample settings meet the hypotheses of `null_name_ub` (for any of the four dimensions) and, on S3, of `null_s3_ub`. -/
example : validateSettings Sample.world (some Sample.settings1) = .ok true ∧
    Sample.settings1.dimensions = some ([Sample.dimT] ++ Sample.dimC :: [Sample.dimY, Sample.dimX]) ∧
    validateSettings Sample.world (some { Sample.settings1 with
      s3 := some ⟨some "localhost".toList, some "bucket".toList, some "k".toList, some "s".toList⟩ }) = .ok true :=
  ⟨by decide +kernel, rfl, by decide +kernel⟩

/-- Settings with an unnamed first dimension. -/
def Sample.unnamed : Settings := { Sample.settings1 with
  dimensions := some [{ Sample.dimT with name := none }, Sample.dimC, Sample.dimY, Sample.dimX] }

/-- **C24 is violated**: a NULL dimension name, and a NULL S3 string, are dereferenced. -/
theorem null_strings_violated : createStream Sample.world Sample.env 9 (some Sample.unnamed) = some .ub ∧
    createStream Sample.world Sample.env 9 (some { Sample.settings1 with
      s3 := some ⟨none, some "bucket".toList, some "k".toList, some "s".toList⟩ }) = some .ub :=
  ⟨rfl, rfl⟩

/-! ### C23: accepted settings establish the preconditions -/

/-- The preconditions of the writers on a list of dimensions, append dimension first. -/
structure Preconditions (v3 : Bool) (ds : List Dim) : Prop where
  count : 3 ≤ ds.length
  chunk : ∀ d ∈ ds, d.chunkSize ≠ 0
  size : ∀ d ∈ ds.tail, d.arraySize ≠ 0
  shard : v3 = true → ∀ d ∈ ds, d.shardSize ≠ 0
  range : ∀ d ∈ ds, d.arraySize < 2 ^ 32

theorem preconditions_down {v3 : Bool} {ds ds' : List Dim} (h : Preconditions v3 ds)
    (hd : List.Forall₂ DownDim ds ds') : Preconditions v3 ds' := by
  have hsize : ∀ d d' : Dim, d ∈ ds → DownDim d d' → d'.arraySize = if d.kind = .channel then d.arraySize else ceilDiv d.arraySize 2 :=
    fun d d' hm hr => hr.array (h.range d hm) fun _ => Nat.pos_of_ne_zero (h.chunk d hm)
  refine ⟨by rw [← hd.length_eq]; exact h.count, ?_, ?_, ?_, ?_⟩
  · intro d' hm
    obtain ⟨d, h1, h2⟩ := forall₂_mem_right hd hm
    exact Nat.ne_of_gt (h2.chunk_pos (Nat.pos_of_ne_zero (h.chunk d h1)))
  · intro d' hm
    cases hd with
    | nil => simp at hm
    | cons hr hrest =>
      obtain ⟨d, h1, h2⟩ := forall₂_mem_right hrest hm
      have h3 := h.size d h1
      rw [hsize d d' (by simp [h1]) h2]
      split
      · exact h3
      · rw [ceilDiv_two]; omega
  · intro hv d' hm
    obtain ⟨d, h1, h2⟩ := forall₂_mem_right hd hm
    exact Nat.ne_of_gt (h2.shard_pos (h.range d h1) (Nat.pos_of_ne_zero (h.chunk d h1)) (Nat.pos_of_ne_zero (h.shard hv d h1)))
  · intro d' hm
    obtain ⟨d, h1, h2⟩ := forall₂_mem_right hd hm
    have := h.range d h1
    rw [hsize d d' h1 h2]
    split
    · exact this
    · rw [ceilDiv_two]; omega

theorem preconditions_pyramid {v3 : Bool} {n : Nat} {c0 : WConfig} {rest : List WConfig}
    (h : pyramidFrom n c0 = some (.ok rest)) (h0 : Preconditions v3 c0.dims.toList) :
    ∀ c ∈ rest, Preconditions v3 c.dims.toList := by
  induction n generalizing c0 rest with
  | zero => simp [pyramidFrom] at h
  | succ n ih =>
    rw [pyramidFrom] at h
    split at h
    · simp at h
    · simp at h
    · rename_i next again hd
      have hn : Preconditions v3 next.dims.toList := by
        have dd := downsample_dims hd
        refine preconditions_down h0 ?_
        unfold ArrayDims.toList
        exact .cons dd.append (List.rel_append dd.inner (.cons dd.height (.cons dd.width .nil)))
      split at h
      · split at h
        · simp at h
        · simp at h
        · simp at h
        · rename_i rest' hr
          simp only [Option.some.injEq, Res.ok.injEq] at h
          subst h
          intro c hc
          rcases List.mem_cons.1 hc with rfl | hc
          · exact hn
          · exact ih hr hn c hc
      · simp only [Option.some.injEq, Res.ok.injEq] at h
        subst h
        intro c hc
        rw [List.mem_singleton] at hc
        rw [hc]; exact hn

/-- **C23, preconditions.** Every stream that `ZarrStream_create` returns has, at every level, at least three
dimensions, nonzero chunk sizes, nonzero sizes except possibly along the append dimension, and nonzero shard sizes
in V3. The hypothesis is the C type of the sizes. -/
theorem accepted_preconditions {st : SState} (h : createStream w env fuel (some s) = some (.ok st))
    (hz : ∀ d ∈ s.dimensions.getD [], d.arraySize < 2 ^ 32) {lv : Level} (hl : lv ∈ st.levels) :
    Preconditions (s.version == 3) lv.cfg.dims.toList := by
  obtain ⟨cfg, cfgs, hc⟩ := createStream_ok h
  rw [hc.slevels] at hl
  obtain ⟨c, hcm, rfl⟩ := List.mem_map.1 hl
  obtain ⟨ds, hds, hg⟩ := ((validation_exact w s).1 hc.valid).dims
  have hlist : cfg.dims.toList = ds.map DimProps.toDim := by rw [toList_commit hc.commit, hds]; rfl
  have h0 : Preconditions (s.version == 3) cfg.dims.toList := by
    rw [hlist]
    refine ⟨by simpa using hg.count, ?_, ?_, ?_, ?_⟩
    · intro d hd
      obtain ⟨q, hq, rfl⟩ := List.mem_map.1 hd
      exact (hg.each q hq).chunk
    · intro d hd
      rw [← List.map_tail] at hd
      obtain ⟨q, hq, rfl⟩ := List.mem_map.1 hd
      obtain ⟨i, hi⟩ := List.mem_iff_getElem?.1 hq
      refine hg.sizes q (i + 1) ?_ (by omega)
      rw [← List.drop_one, List.getElem?_drop] at hi
      rw [Nat.add_comm]
      exact hi
    · intro hv d hd
      obtain ⟨q, hq, rfl⟩ := List.mem_map.1 hd
      exact (hg.each q hq).shard (by simpa using hv)
    · intro d hd
      obtain ⟨q, hq, rfl⟩ := List.mem_map.1 hd
      exact hz q (by rw [hds]; exact hq)
  have hlv := hc.levels
  unfold levelConfigs at hlv
  split at hlv
  · split at hlv
    · simp at hlv
    · simp at hlv
    · simp at hlv
    · rename_i rest hr
      simp only [Option.some.injEq, Res.ok.injEq] at hlv
      subst hlv
      rcases List.mem_cons.1 hcm with rfl | hcm
      · exact h0
      · exact preconditions_pyramid hr h0 c hcm
  · simp only [Option.some.injEq, Res.ok.injEq] at hlv
    subst hlv
    rw [List.mem_singleton] at hcm
    rw [hcm]; exact h0

/-- Hence whole-frame appends never meet undefined behaviour, whatever the storage does, and on working storage
they never fail: no internal check can fail. -/
theorem accepted_never_fails_partial (h : Setup w fuel s cfg cfgs) (h3 : s.version = 3 → cfg.dims.FitsV3)
    {a y x : DimProps} {inner : List DimProps} (hd : s.dimensions = some (a :: (inner ++ [y, x])))
    {calls : List (List Bytes)} (hn : calls.flatten.length < 2 ^ 32)
    (hf : ∀ c ∈ calls, ∀ f ∈ c, f.length = frameSize s y x) :
    (∀ env st prev data, Reached w env fuel s prev st → (∀ c ∈ prev, frameSize s y x ∣ c.length) →
      append env (appendFuel data) data st ≠ some .ub) ∧
    ∀ env, StorageOk env s → (s.version = 3 → SmallOverhead env) → ∃ st tr,
      runStream w env fuel s (calls.map List.flatten) =
        some (.ok (st, calls.map (fun c => c.flatten.length), tr)) ∧ st.error = [] := by
  refine ⟨fun env st prev data hr hp => append_whole_frames_in_bounds h h3 hd hr hp data, ?_⟩
  intro env hE ho
  have hf' : ∀ c ∈ calls, ∀ f ∈ c, f.length = cfg.dims.frameBytes := by
    intro c hc f hfc
    rw [(dimsOf h.valid h.commit hd).frame]
    exact hf c hc f hfc
  rcases (validateSettings_ok h.valid).version with hv | hv
  · obtain ⟨st, tr, h1, h2, _⟩ := session_v2 h hE hv hn hf'
    exact ⟨st, tr, h1, h2⟩
  · obtain ⟨st, tr, h1, h2, _⟩ := session_v3 h (h3 hv) hE (ho hv) hv hn hf'
    exact ⟨st, tr, h1, h2⟩

/-! ### The hypotheses are satisfiable -/

theorem Sample.good1 : GoodSettings Sample.world Sample.settings1 := (validation_exact _ _).1 rfl

theorem Sample.noNull1 : NoNullStrings Sample.settings1 := by
  refine ⟨fun x hx => absurd hx (by simp [Sample.settings1, Sample.settings]), ?_⟩
  intro ds hds d hd
  cases hds
  simp only [List.mem_cons, List.not_mem_nil, or_false] at hd
  rcases hd with rfl | rfl | rfl | rfl <;> simp [Sample.dimT, Sample.dimC, Sample.dimY, Sample.dimX]

/-- Valid settings, and the same settings with one constraint broken (a version that does not exist). -/
example : (∃ st, apiCreate Sample.world Sample.env 32 (some Sample.settings1) = (true, some (.ok st))) ∧
    apiCreate Sample.world Sample.env 32 (some { Sample.settings1 with version := 4 }) = (false, some .throw) := by
  refine ⟨valid_settings_accepted_partial Sample.good1 (Sample.storageOk (s := Sample.settings)).works (fun _ => rfl) Sample.sizesInRange
    (fun h => by cases h), invalid_settings_rejected ?_ Sample.noNull1⟩
  intro h
  have := h.version
  simp at this

example : apiCreate Sample.world Sample.env 9 (some { Sample.settings1 with storePath := none }) = (false, some .throw) :=
  null_pointers_partial (.inl rfl) Sample.noNull1

example : ∃ st tr, runStream Sample.world Sample.env 9 Sample.settings1 (Sample.calls.map List.flatten) =
    some (.ok (st, Sample.calls.map (fun c => c.flatten.length), tr)) ∧ st.error = [] :=
  (accepted_never_fails_partial Sample.setup1 Sample.noV3 (a := Sample.dimT) (inner := [Sample.dimC]) (y := Sample.dimY)
    (x := Sample.dimX) rfl (calls := Sample.calls) (by decide) (by rw [Sample.fs]; exact Sample.calls_sized)).2
    Sample.env Sample.storageOk (fun h => absurd h (by decide))

example {st : SState} (h : createStream Sample.world Sample.env 9 (some Sample.settings1) = some (.ok st)) :
    ∀ lv ∈ st.levels, Preconditions false lv.cfg.dims.toList := by
  intro lv hl
  exact accepted_preconditions h (by decide) hl

end AZ
