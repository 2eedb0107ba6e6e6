import Verif.Model.ByteText
import Verif.Spec.PlainText
import Verif.Props.Trim
import Verif.Props.Sample

set_option linter.unusedSimpArgs false

/-!
# C95: settings strings may be in any language

They may not begin or end with a character outside ASCII: `trim` calls `std::isspace` with a negative value then, which is undefined. -/

namespace AZ.ByteText
open Spec

/-! ### Characters and bytes -/

theorem encode_ascii {c : Char} (h : c.toNat < 128) : String.utf8EncodeChar c = [UInt8.ofNat c.toNat] := by
  have : c.val.toNat ≤ 127 := by have : c.val.toNat = c.toNat := rfl; omega
  unfold String.utf8EncodeChar
  simp only [this, if_true]
  rfl

theorem encode_high {c : Char} (h : ¬ c.toNat < 128) :
    String.utf8EncodeChar c ≠ [] ∧ ∀ b ∈ String.utf8EncodeChar c, 128 ≤ b.toNat ∧ b.toNat ≤ 254 := by
  have h1 : ¬ c.val.toNat ≤ 127 := by have : c.val.toNat = c.toNat := rfl; omega
  unfold String.utf8EncodeChar
  simp only [h1, if_false]
  split
  · refine ⟨by simp, ?_⟩
    intro b hb
    simp only [List.mem_cons, List.not_mem_nil, or_false] at hb
    rcases hb with rfl | rfl <;> simp <;> omega
  · split
    · refine ⟨by simp, ?_⟩
      intro b hb
      simp only [List.mem_cons, List.not_mem_nil, or_false] at hb
      rcases hb with rfl | rfl | rfl <;> simp <;> omega
    · refine ⟨by simp, ?_⟩
      intro b hb
      simp only [List.mem_cons, List.not_mem_nil, or_false] at hb
      rcases hb with rfl | rfl | rfl | rfl <;> simp <;> omega

theorem isspace_ascii {c : Char} (h : c.toNat < 128) : isspaceCall (UInt8.ofNat c.toNat) = .ok (isSpace c) := by
  have e : (UInt8.ofNat c.toNat).toNat = c.toNat := by simp; omega
  have ea : isspaceArg (UInt8.ofNat c.toNat) = c.toNat := by
    unfold isspaceArg
    rw [e, if_pos h]
  unfold isspaceCall
  dsimp only
  rw [ea, if_pos (by omega)]
  congr 1
  have hs : (c = ' ') ↔ c.toNat = 32 := by
    constructor
    · rintro rfl; rfl
    · intro h; exact Char.ext (UInt32.toNat_inj.1 h)
  unfold isSpace
  rw [Bool.eq_iff_iff]
  simp only [Bool.or_eq_true, beq_iff_eq, Bool.and_eq_true, decide_eq_true_eq, hs]
  omega

theorem isspace_high {b : UInt8} (h1 : 128 ≤ b.toNat) (h2 : b.toNat ≤ 254) : isspaceCall b = .ub := by
  have ea : isspaceArg b = (b.toNat : Int) - 256 := by
    unfold isspaceArg
    rw [if_neg (by omega)]
  unfold isspaceCall
  dsimp only
  rw [ea, if_neg (by omega)]

/-! ### Trimming -/

theorem eraseBlank_flatMap {g : Char → Bytes} (ha : ∀ c, c.toNat < 128 → g c = [UInt8.ofNat c.toNat])
    (hh : ∀ c, ¬ c.toNat < 128 → g c ≠ [] ∧ ∀ b ∈ g c, 128 ≤ b.toNat ∧ b.toNat ≤ 254) (r : Text) :
    ((∀ c, (r.dropWhile isSpace).head? = some c → c.toNat < 128) → eraseBlank (r.flatMap g) = .ok ((r.dropWhile isSpace).flatMap g)) ∧
    (∀ c, (r.dropWhile isSpace).head? = some c → ¬ c.toNat < 128 → eraseBlank (r.flatMap g) = .ub) := by
  induction r with
  | nil => exact ⟨fun _ => rfl, fun c hc => by simp at hc⟩
  | cons c r ih =>
    rw [List.flatMap_cons]
    by_cases hs : isSpace c = true
    · have hc : c.toNat < 128 := by
        have : c = ' ' ∨ c.toNat ≤ 13 := by
          unfold isSpace at hs
          simp only [Bool.or_eq_true, decide_eq_true_eq] at hs
          rcases hs with ((((h | h) | h) | h) | h) | h
          · exact .inl h
          all_goals exact .inr (by omega)
        rcases this with rfl | h
        · decide
        · omega
      rw [List.dropWhile_cons, if_pos hs, ha c hc, List.singleton_append]
      have e : eraseBlank (UInt8.ofNat c.toNat :: r.flatMap g) = eraseBlank (r.flatMap g) := by
        rw [eraseBlank, isspace_ascii hc, hs]
        rfl
      rw [e]
      exact ih
    · rw [List.dropWhile_cons, if_neg hs]
      refine ⟨fun h => ?_, fun d hd h => ?_⟩
      · have hc := h c rfl
        rw [ha c hc, List.singleton_append, eraseBlank, isspace_ascii hc, List.flatMap_cons, ha c hc]
        simp only [Bool.not_eq_true] at hs
        rw [hs]
        rfl
      · cases hd
        obtain ⟨h1, h2⟩ := hh c h
        cases hg : g c with
        | nil => exact absurd hg h1
        | cons b bs =>
          obtain ⟨h3, h4⟩ := h2 b (by rw [hg]; simp)
          rw [List.cons_append, eraseBlank, isspace_high h3 h4]
          rfl

theorem reverse_utf8 (t : Text) : (utf8 t).reverse = t.reverse.flatMap fun c => (String.utf8EncodeChar c).reverse := by
  unfold utf8
  induction t with
  | nil => rfl
  | cons c t ih => rw [List.flatMap_cons, List.reverse_append, ih, List.reverse_cons, List.flatMap_append]; simp

theorem head_trim (t : Text) : (trim t).head? = (t.dropWhile isSpace).head? := by
  obtain ⟨b, h3, h4⟩ := dropWhile_split (p := isSpace) (t.dropWhile isSpace).reverse
  have h5 : t.dropWhile isSpace = trim t ++ b.reverse := by
    have := congrArg List.reverse h3
    simpa [trim] using this
  cases ht : trim t with
  | cons x xs => rw [h5, ht]; rfl
  | nil =>
    rw [ht, List.nil_append] at h5
    cases hd : (t.dropWhile isSpace).head? with
    | none => rfl
    | some c =>
      have h6 := dropWhile_head (p := isSpace) t c hd
      have : c ∈ b := by
        have := List.mem_of_head? hd
        rw [h5] at this
        simpa using this
      rw [h4 c this] at h6
      cases h6

theorem last_trim (t : Text) : (trim t).getLast? = ((t.dropWhile isSpace).reverse.dropWhile isSpace).head? := by
  unfold trim
  rw [List.getLast?_reverse]

theorem trimmed_eq {t u : Text} (h : Trimmed t u) : u = trim t := by
  exact trimmed_unique h (trim_spec t)

theorem plainEnds_iff (t : Text) : PlainEnds t ↔
    (∀ c, (trim t).head? = some c → c.toNat < 128) ∧ (∀ c, (trim t).getLast? = some c → c.toNat < 128) := by
  constructor
  · intro h; exact h _ (trim_spec t)
  · intro h u hu
    rw [trimmed_eq hu]
    exact h

/-- **Exact.** `zarr::trim` on the bytes of a string: the bytes of the trimmed string, or undefined behaviour. -/
theorem trim_bytes_exact (t : Text) :
    (PlainEnds t → trimBytes (utf8 t) = .ok (utf8 (trim t))) ∧ (¬ PlainEnds t → trimBytes (utf8 t) = .ub) := by
  have a1 : ∀ c : Char, c.toNat < 128 → (String.utf8EncodeChar c).reverse = [UInt8.ofNat c.toNat] := by
    intro c h; rw [encode_ascii h]; rfl
  have a2 : ∀ c : Char, ¬ c.toNat < 128 → (String.utf8EncodeChar c).reverse ≠ [] ∧
      ∀ b ∈ (String.utf8EncodeChar c).reverse, 128 ≤ b.toNat ∧ b.toNat ≤ 254 := by
    intro c h
    obtain ⟨h1, h2⟩ := encode_high h
    exact ⟨by simpa using h1, fun b hb => h2 b (by simpa using hb)⟩
  obtain ⟨l1, l2⟩ := eraseBlank_flatMap (fun c => encode_ascii) (fun c => encode_high) t
  obtain ⟨r1, r2⟩ := eraseBlank_flatMap a1 a2 (t.dropWhile isSpace).reverse
  rw [← reverse_utf8] at r1 r2
  rw [plainEnds_iff, head_trim, last_trim]
  by_cases he : utf8 t = []
  · have ht : t = [] := by
      cases t with
      | nil => rfl
      | cons c t =>
        exfalso
        unfold utf8 at he
        rw [List.flatMap_cons] at he
        by_cases hc : c.toNat < 128
        · rw [encode_ascii hc] at he; simp at he
        · exact (encode_high hc).1 (List.append_eq_nil_iff.1 he).1
    subst ht
    exact ⟨fun _ => rfl, fun h => absurd ⟨fun c hc => by simp at hc, fun c hc => by simp at hc⟩ h⟩
  · have hu : trimBytes (utf8 t) = (eraseBlank (utf8 t)).bind fun l => (eraseBlank l.reverse).bind fun r => .ok r.reverse := by
      unfold trimBytes
      rw [if_neg (by simpa using he)]
      rfl
    rw [hu]
    refine ⟨fun ⟨h1, h2⟩ => ?_, fun h => ?_⟩
    · have e1 : eraseBlank (utf8 t) = .ok (utf8 (t.dropWhile isSpace)) := l1 h1
      have e2 := r1 h2
      rw [e1]
      dsimp only [Res.bind]
      rw [e2]
      dsimp only [Res.bind]
      have : (((t.dropWhile isSpace).reverse.dropWhile isSpace).flatMap fun c => (String.utf8EncodeChar c).reverse).reverse = utf8 (trim t) := by
        have := reverse_utf8 (trim t)
        unfold trim at this ⊢
        rw [List.reverse_reverse] at this
        rw [← this, List.reverse_reverse]
      rw [this]
    · by_cases h1 : ∀ c, (t.dropWhile isSpace).head? = some c → c.toNat < 128
      · have e1 : eraseBlank (utf8 t) = .ok (utf8 (t.dropWhile isSpace)) := l1 h1
        rw [e1]
        dsimp only [Res.bind]
        have h2 : ¬ ∀ c, ((t.dropWhile isSpace).reverse.dropWhile isSpace).head? = some c → c.toNat < 128 := fun h2 => h ⟨h1, h2⟩
        cases hh : ((t.dropWhile isSpace).reverse.dropWhile isSpace).head? with
        | none => rw [hh] at h2; exact absurd (fun c hc => by cases hc) h2
        | some c =>
          rw [r2 c hh (fun hc => h2 fun d hd => by rw [hh] at hd; cases hd; exact hc)]
      · cases hh : (t.dropWhile isSpace).head? with
        | none => rw [hh] at h1; exact absurd (fun c hc => by cases hc) h1
        | some c =>
          have := l2 c hh (fun hc => h1 fun d hd => by rw [hh] at hd; cases hd; exact hc)
          have e1 : eraseBlank (utf8 t) = .ub := this
          rw [e1]
          rfl

/-! ### Validation -/

theorem utf8_isEmpty (t : Text) : (utf8 t).isEmpty = t.isEmpty := by
  cases t with
  | nil => rfl
  | cons c t =>
    unfold utf8
    rw [List.flatMap_cons]
    have : String.utf8EncodeChar c ≠ [] := by
      by_cases hc : c.toNat < 128
      · rw [encode_ascii hc]; simp
      · exact (encode_high hc).1
    cases hg : String.utf8EncodeChar c with
    | nil => exact absurd hg this
    | cons b bs => rfl

/-- As in `Model.Settings`, or undefined behaviour; defined only for plain strings. -/
structure Follows (ts : List Text) (c m : Res Bool) : Prop where
  plain : (∀ t ∈ ts, PlainEnds t) → c = m
  refines : c = .ub ∨ c = m
  needs : c = .ok true → ∀ t ∈ ts, PlainEnds t

theorem isEmptyString_plain {o : Option Text} (h : ∀ t ∈ o.toList, PlainEnds t) : isEmptyString o = AZ.isEmptyString o := by
  cases o with
  | none => rfl
  | some t =>
    unfold isEmptyString AZ.isEmptyString
    dsimp only
    rw [(trim_bytes_exact t).1 (h t (by simp))]
    show Res.ok _ = _
    rw [utf8_isEmpty]

theorem isEmptyString_not {o : Option Text} (h : ¬ ∀ t ∈ o.toList, PlainEnds t) : isEmptyString o = .ub := by
  cases o with
  | none => rfl
  | some t =>
    unfold isEmptyString
    dsimp only
    rw [(trim_bytes_exact t).2 fun hp => h fun u hu => by simp at hu; subst hu; exact hp]
    rfl

/-- A check of one string before the others. -/
theorem Follows.empty {o : Option Text} {ts : List Text} {c m : Res Bool} (h : Follows ts c m) :
    Follows (o.toList ++ ts) ((isEmptyString o).bind fun b => if b then .ok false else c)
      ((AZ.isEmptyString o).bind fun b => if b then .ok false else m) := by
  by_cases ho : ∀ t ∈ o.toList, PlainEnds t
  · rw [isEmptyString_plain ho]
    obtain ⟨h1, h2, h3⟩ := h
    cases hb : AZ.isEmptyString o with
    | ub => exact ⟨fun _ => rfl, .inl rfl, fun hh => by cases hh⟩
    | throw => exact ⟨fun _ => rfl, .inr rfl, fun hh => by cases hh⟩
    | ok b =>
      cases b with
      | true => exact ⟨fun _ => rfl, .inr rfl, fun hh => by cases hh⟩
      | false =>
        refine ⟨fun hp => h1 fun t ht => hp t (by simp [ht]), h2, fun hh t ht => ?_⟩
        rcases List.mem_append.1 ht with ht | ht
        · exact ho t ht
        · exact h3 hh t ht
  · rw [isEmptyString_not ho]
    exact ⟨fun hp => absurd (fun t ht => hp t (by simp [ht])) ho, .inl rfl, fun hh => by cases hh⟩

/-- A check of something else before. -/
theorem Follows.guard {ts : List Text} {c m : Res Bool} (p : Prop) [Decidable p] (h : Follows ts c m) :
    Follows ts (if p then .ok false else c) (if p then .ok false else m) := by
  by_cases hp : p
  · rw [if_pos hp, if_pos hp]
    exact ⟨fun _ => rfl, .inr rfl, fun hh => by cases hh⟩
  · rw [if_neg hp, if_neg hp]
    exact h

theorem Follows.same (r : Res Bool) : Follows [] r r := ⟨fun _ => rfl, .inr rfl, fun _ t ht => by simp at ht⟩

theorem bucket_follows (o : Option Text) : Follows o.toList
    (match o with
      | none => Res.ub
      | some b => (trimBytes (utf8 b)).bind fun t => .ok !(decide (t.length < 3) || decide (t.length > 63)))
    (match o with
      | none => Res.ub
      | some b => .ok !(decide ((utf8 (trim b)).length < 3) || decide ((utf8 (trim b)).length > 63))) := by
  cases o with
  | none => exact ⟨fun _ => rfl, .inl rfl, fun h => by cases h⟩
  | some b =>
    dsimp only
    by_cases hp : PlainEnds b
    · rw [(trim_bytes_exact b).1 hp]
      exact ⟨fun _ => rfl, .inr rfl, fun _ t ht => by simp at ht; subst ht; exact hp⟩
    · rw [(trim_bytes_exact b).2 hp]
      exact ⟨fun h => absurd (h b (by simp)) hp, .inl rfl, fun h => by cases h⟩

/-- The strings of the S3 settings in the order of validation. -/
def s3Texts (x : S3Settings) : List Text :=
  x.endpoint.toList ++ (x.accessKeyId.toList ++ (x.secretAccessKey.toList ++ x.bucketName.toList))

theorem s3_follows (x : S3Settings) : Follows (s3Texts x) (validateS3 x) (AZ.validateS3 x) := by
  have := ((bucket_follows x.bucketName).empty (o := x.secretAccessKey)).empty (o := x.accessKeyId) |>.empty (o := x.endpoint)
  have e1 : validateS3 x = (isEmptyString x.endpoint).bind fun b => if b then .ok false else
      (isEmptyString x.accessKeyId).bind fun b => if b then .ok false else
      (isEmptyString x.secretAccessKey).bind fun b => if b then .ok false else
      (match x.bucketName with
      | none => Res.ub
      | some b => (trimBytes (utf8 b)).bind fun t => .ok !(decide (t.length < 3) || decide (t.length > 63))) := by
    rfl
  have e2 : AZ.validateS3 x = (AZ.isEmptyString x.endpoint).bind fun b => if b then .ok false else
      (AZ.isEmptyString x.accessKeyId).bind fun b => if b then .ok false else
      (AZ.isEmptyString x.secretAccessKey).bind fun b => if b then .ok false else
      (match x.bucketName with
      | none => Res.ub
      | some b => .ok !(decide ((utf8 (trim b)).length < 3) || decide ((utf8 (trim b)).length > 63))) := by
    rfl
  rw [e1, e2]
  exact this

theorem dimension_follows (v : Nat) (a : Bool) (d : DimProps) :
    Follows d.name.toList (validateDimension v a d) (AZ.validateDimension v a d) := by
  have := ((((Follows.same (.ok true)).guard ((decide (v = 3) && decide (d.shardSize = 0)) = true)).guard (d.chunkSize = 0)).guard
    ((!a && decide (d.arraySize = 0)) = true)).guard (d.kind ≥ 4) |>.empty (o := d.name)
  rw [List.append_nil] at this
  exact this

/-- Two checks in a row. -/
theorem Follows.and {ts us : List Text} {c m c' m' : Res Bool} (h : Follows ts c m) (h' : Follows us c' m') :
    Follows (ts ++ us) (c.bind fun b => if !b then .ok false else c') (m.bind fun b => if !b then .ok false else m') := by
  obtain ⟨h1, h2, h3⟩ := h
  obtain ⟨h1', h2', h3'⟩ := h'
  refine ⟨fun hp => ?_, ?_, fun hh => ?_⟩
  · rw [h1 fun t ht => hp t (by simp [ht]), h1' fun t ht => hp t (by simp [ht])]
  · rcases h2 with rfl | rfl
    · exact .inl rfl
    · cases c with
      | ub => exact .inl rfl
      | throw => exact .inr rfl
      | ok b =>
        cases b with
        | false => exact .inr rfl
        | true => exact h2'
  · cases c with
    | ub => cases hh
    | throw => cases hh
    | ok b =>
      cases b with
      | false => cases hh
      | true =>
        intro t ht
        rcases List.mem_append.1 ht with ht | ht
        · exact h3 rfl t ht
        · exact h3' hh t ht

theorem dimensions_follow (v : Nat) (a : Bool) (ds : List DimProps) :
    Follows (ds.flatMap fun d => d.name.toList) (validateDimensions v a ds) (AZ.validateDimensions v a ds) := by
  induction ds generalizing a with
  | nil => exact .same _
  | cons d ds ih =>
    rw [List.flatMap_cons]
    exact (dimension_follows v a d).and (ih false)

/-- The strings that validation looks at. -/
def validatedTexts (s : Settings) : List Text :=
  (s.s3.toList.flatMap s3Texts) ++ ((s.dimensions.getD []).flatMap fun d => d.name.toList)

theorem Follows.mono {ts us : List Text} {c m : Res Bool} (h : Follows ts c m) (hs : ∀ t ∈ ts, t ∈ us)
    (hn : c = .ok true → ∀ t ∈ us, t ∈ ts) : Follows us c m :=
  ⟨fun hp => h.plain fun t ht => hp t (hs t ht), h.refines, fun hc t ht => h.needs hc t (hn hc t ht)⟩

/-- The end of `validate_settings`: `check` is the loop over the dimensions. -/
def dimsPart (check : List DimProps → Res Bool) : Option (List DimProps) → Res Bool
  | none => .ok false
  | some dims =>
    if dims.length < 3 then .ok false else
    match dims.reverse with
    | x :: y :: _ => if x.kind ≠ 0 then .ok false else if y.kind ≠ 0 then .ok false else check dims
    | _ => .ok false

theorem dimsPart_follows {c m : List DimProps → Res Bool} (h : ∀ ds, Follows (ds.flatMap fun d => d.name.toList) (c ds) (m ds))
    (o : Option (List DimProps)) : Follows ((o.getD []).flatMap fun d => d.name.toList) (dimsPart c o) (dimsPart m o) := by
  have no : ∀ ts, Follows ts (.ok false) (.ok false) := fun ts => ⟨fun _ => rfl, .inr rfl, fun h => by cases h⟩
  cases o with
  | none => exact no _
  | some ds =>
    unfold dimsPart
    dsimp only [Option.getD_some]
    refine Follows.guard _ ?_
    cases ds.reverse with
    | nil => exact no _
    | cons x r =>
      cases r with
      | nil => exact no _
      | cons y r => exact ((h ds).guard _).guard _

/-- The part of `validate_settings` after the store. -/
def tailPart (w : World) (s : Settings) (check : List DimProps → Res Bool) : Res Bool :=
  if s.dataType ≥ 10 then .ok false else
  if (!(match s.compression with | some c => validateCompression c | none => true)) then .ok false else
  if !validateCustomMetadata w s.customMetadata then .ok false else dimsPart check s.dimensions

/-- `validate_settings` with the checks that look at strings as parameters. -/
def whole (w : World) (s : Settings) (s3 : S3Settings → Res Bool) (check : List DimProps → Res Bool) : Res Bool :=
  if (decide (s.version < 2) || decide (s.version ≥ 4)) = true then .ok false else
  match s.storePath with
  | none => .ok false
  | some path =>
    if path.isEmpty then .ok false else
    match s.s3 with
    | some x => (s3 x).bind fun b => if !b then .ok false else tailPart w s check
    | none => if !validateStorePath w path then .ok false else tailPart w s check

theorem whole_bytes (w : World) (s : Settings) : validateSettings w s = whole w s validateS3 (validateDimensions s.version true) := by
  unfold validateSettings whole tailPart dimsPart
  cases s.storePath with
  | none => rfl
  | some p =>
    cases s.s3 <;> cases s.compression <;> cases s.dimensions <;> rfl

theorem whole_text (w : World) (s : Settings) : AZ.validateSettings w (some s) = whole w s AZ.validateS3 (AZ.validateDimensions s.version true) := by
  unfold AZ.validateSettings whole tailPart dimsPart
  dsimp only
  cases s.storePath with
  | none => rfl
  | some p =>
    cases s.s3 <;> cases s.compression <;> cases s.dimensions <;> rfl

theorem settings_follow (w : World) (s : Settings) :
    Follows (validatedTexts s) (validateSettings w s) (AZ.validateSettings w (some s)) := by
  have no : ∀ ts, Follows ts (.ok false) (.ok false) := fun ts => ⟨fun _ => rfl, .inr rfl, fun h => by cases h⟩
  rw [whole_bytes, whole_text]
  unfold whole validatedTexts
  have ht : Follows ((s.dimensions.getD []).flatMap fun d => d.name.toList) (tailPart w s (validateDimensions s.version true))
      (tailPart w s (AZ.validateDimensions s.version true)) := by
    unfold tailPart
    exact (((dimsPart_follows (dimensions_follow s.version true) s.dimensions).guard _).guard _).guard _
  refine Follows.guard _ ?_
  cases s.storePath with
  | none => exact no _
  | some p =>
    dsimp only
    refine Follows.guard _ ?_
    cases s.s3 with
    | none => exact ht.guard _
    | some x =>
      have := (s3_follows x).and ht
      simpa only [Option.toList_some, List.flatMap_cons, List.flatMap_nil, List.append_nil] using this

theorem trimAll_plain (ts : List Text) : (∀ t ∈ ts, PlainEnds t) → trimAll ts = .ok () := by
  induction ts with
  | nil => intro _; rfl
  | cons t ts ih =>
    intro h
    rw [trimAll, (trim_bytes_exact t).1 (h t (by simp))]
    exact ih fun u hu => h u (by simp [hu])

theorem trimAll_not (ts : List Text) : ¬ (∀ t ∈ ts, PlainEnds t) → trimAll ts = .ub := by
  induction ts with
  | nil => intro h; exact absurd (by simp) h
  | cons t ts ih =>
    intro h
    rw [trimAll]
    by_cases hp : PlainEnds t
    · rw [(trim_bytes_exact t).1 hp]
      exact ih fun hh => h fun u hu => by
        rcases List.mem_cons.1 hu with rfl | hu
        · exact hp
        · exact hh u hu
    · rw [(trim_bytes_exact t).2 hp]
      rfl

theorem mem_stringsOf (s : Settings) (t : Text) : t ∈ stringsOf s ↔ t ∈ validatedTexts s ∨ t ∈ committedTexts s := by
  unfold stringsOf validatedTexts committedTexts
  cases s.s3 with
  | none => simp only [Option.toList_none, List.flatMap_nil, List.append_nil, List.nil_append, List.mem_append]; grind
  | some x =>
    simp only [Option.toList_some, List.flatMap_cons, List.flatMap_nil, List.append_nil, List.mem_append, s3Texts]
    grind

/-- If all strings begin and end with ASCII characters, white space apart, the characters in between do not matter: creating a stream
does what `Model.Stream` says, which reads the strings as characters. Missing: the others, for which the claim is false. -/
theorem any_language_partial (w : World) (env : Env) (fuel : Nat) (s : Settings) (h : ∀ t ∈ stringsOf s, PlainEnds t) :
    createStream w env fuel s = AZ.createStream w env fuel (some s) := by
  unfold createStream
  rw [(settings_follow w s).plain fun t ht => h t ((mem_stringsOf s t).2 (.inl ht)),
    trimAll_plain _ fun t ht => h t ((mem_stringsOf s t).2 (.inr ht))]
  cases hv : AZ.validateSettings w (some s) with
  | ub => unfold AZ.createStream; rw [hv]
  | throw => unfold AZ.createStream; rw [hv]
  | ok b =>
    cases b with
    | false => unfold AZ.createStream; rw [hv]
    | true => rfl

/-- **C95 is violated by the code**: whenever settings satisfy all documented constraints and one of their strings begins or ends with
a character outside ASCII, white space apart, creating the stream is undefined behaviour. -/
theorem any_language_violated (w : World) (env : Env) (fuel : Nat) (s : Settings) (hg : AZ.validateSettings w (some s) = .ok true)
    {t : Text} (ht : t ∈ stringsOf s) (hp : ¬ PlainEnds t) : createStream w env fuel s = some .ub := by
  unfold createStream
  have hf := settings_follow w s
  rcases hf.refines with h | h
  · rw [h]
  · rw [hg] at h
    rw [h]
    dsimp only
    have hn := hf.needs h
    rw [trimAll_not _ fun hh => hp (((mem_stringsOf s t).1 ht).elim (hn t) (hh t))]

/-! ### The sample -/

/-- The sample settings, in a directory named in German. -/
def german : Settings := { Sample.settings with storePath := some "/tmp/Präparat Nr. 3/Größe".toList }

/-- The same, with a dimension named in Greek. -/
def greek : Settings := { Sample.settings with
  dimensions := some [{ Sample.dimT with name := some "χρόνος".toList }, Sample.dimC, Sample.dimY, Sample.dimX] }

/-- Characters outside ASCII inside a string are no obstacle; at its end they are. -/
example (env : Env) (fuel : Nat) : createStream Sample.world env fuel german = AZ.createStream Sample.world env fuel (some german) ∧
    createStream Sample.world env fuel greek = some .ub := by
  refine ⟨any_language_partial _ _ _ _ ?_, any_language_violated _ _ _ _ (by decide) (t := "χρόνος".toList) (by decide) ?_⟩
  · intro t ht
    rw [plainEnds_iff]
    revert t
    decide
  · rw [plainEnds_iff]
    decide

end AZ.ByteText
