import Verif.Spec.Shown
import Verif.Lemmas.Paths

/-!
# C92: settings that Python prints alike are alike
-/

namespace AZ.Py
open AZ.Spec

theorem cut {c : Char} {a b x y L : Text} (ha : c ∉ a) (hb : c ∉ b) (hL : L.head? = some c) (h : a ++ (L ++ x) = b ++ (L ++ y)) : a = b ∧ x = y := by
  have : a = b := by
    cases L with
    | nil => cases hL
    | cons d L =>
      cases hL
      induction a generalizing b with
      | nil =>
        cases b with
        | nil => rfl
        | cons e b =>
          injection h with h1 h2
          exact absurd (h1 ▸ List.mem_cons_self) hb
      | cons e a ih =>
        cases b with
        | nil =>
          injection h with h1 h2
          exact absurd (h1 ▸ List.mem_cons_self) ha
        | cons f b =>
          injection h with h1 h2
          rw [h1, ih (fun hm => ha (List.mem_cons_of_mem _ hm)) (fun hm => hb (List.mem_cons_of_mem _ hm)) h2]
  subst this
  exact ⟨rfl, List.append_cancel_left (List.append_cancel_left h)⟩

theorem apart {K L x y : Text} (h : (K.zip L).any (fun p => decide (p.1 ≠ p.2)) = true) : K ++ x ≠ L ++ y := by
  induction K generalizing L with
  | nil => simp at h
  | cons a K ih =>
    cases L with
    | nil => simp at h
    | cons b L =>
      intro e
      injection e with e1 e2
      subst e1
      simp only [List.zip_cons_cons, List.any_cons, ne_eq, not_true_eq_false, decide_false, Bool.false_or] at h
      exact ih (by simpa using h) e2

theorem decimal_no {c : Char} (hc : c.isDigit = false) (n : Nat) : c ∉ decimal n := fun h => by
  rw [decimal_isDigit h] at hc; cases hc

theorem kindStr_no : ∀ k, ',' ∉ kindStr k
  | 0 | 1 | 2 | 3 => by decide
  | _ + 4 => show ',' ∉ "UNKNOWN".toList by decide

theorem kindStr_inj {j k : Nat} (hj : j ≤ 3) (hk : k ≤ 3) : kindStr j = kindStr k → j = k := by
  have : ∀ j : Fin 4, ∀ k : Fin 4, kindStr j = kindStr k → j = k := by decide
  intro h
  exact congrArg Fin.val (this ⟨j, by omega⟩ ⟨k, by omega⟩ h)

theorem dataTypeStr_no : ∀ k, ',' ∉ dataTypeStr k
  | 0 | 1 | 2 | 3 | 4 | 5 | 6 | 7 | 8 | 9 => by decide
  | _ + 10 => show ',' ∉ "UNKNOWN".toList by decide

theorem dataTypeStr_inj {j k : Nat} (hj : j ≤ 9) (hk : k ≤ 9) : dataTypeStr j = dataTypeStr k → j = k := by
  have : ∀ j : Fin 10, ∀ k : Fin 10, dataTypeStr j = dataTypeStr k → j = k := by decide
  intro h
  exact congrArg Fin.val (this ⟨j, by omega⟩ ⟨k, by omega⟩ h)

theorem compressorStr_no : ∀ k, ',' ∉ compressorStr k
  | 0 | 1 => by decide
  | _ + 2 => show ',' ∉ "UNKNOWN".toList by decide

theorem compressorStr_inj {j k : Nat} (hj : j ≤ 1) (hk : k ≤ 1) : compressorStr j = compressorStr k → j = k := by
  have : ∀ j : Fin 2, ∀ k : Fin 2, compressorStr j = compressorStr k → j = k := by decide
  intro h
  exact congrArg Fin.val (this ⟨j, by omega⟩ ⟨k, by omega⟩ h)

theorem codecStr_no : ∀ k, ',' ∉ codecStr k
  | 0 | 1 | 2 => by decide
  | _ + 3 => show ',' ∉ "UNKNOWN".toList by decide

theorem codecStr_inj {j k : Nat} (hj : j ≤ 2) (hk : k ≤ 2) : codecStr j = codecStr k → j = k := by
  have : ∀ j : Fin 3, ∀ k : Fin 3, codecStr j = codecStr k → j = k := by decide
  intro h
  exact congrArg Fin.val (this ⟨j, by omega⟩ ⟨k, by omega⟩ h)

theorem dim_cut {d e : Dimension} {x y : Text} (hd : NoQuote d.name ∧ d.kind ≤ 3) (he : NoQuote e.name ∧ e.kind ≤ 3) (h : d.repr ++ x = e.repr ++ y) : d = e ∧ x = y := by
  unfold Dimension.repr at h
  simp only [List.append_assoc] at h
  have h := List.append_cancel_left h
  obtain ⟨h1, h⟩ := cut hd.1 he.1 (by decide) h
  obtain ⟨h2, h⟩ := cut (kindStr_no _) (kindStr_no _) (by decide) h
  obtain ⟨h3, h⟩ := cut (c := ',') (decimal_no (by decide) _) (decimal_no (by decide) _) (by decide) h
  obtain ⟨h4, h⟩ := cut (c := ',') (decimal_no (by decide) _) (decimal_no (by decide) _) (by decide) h
  obtain ⟨h5, h⟩ := cut (c := ')') (decimal_no (by decide) _) (decimal_no (by decide) _) (by decide) h
  refine ⟨?_, h⟩
  obtain ⟨n, k, a, c, s⟩ := d
  obtain ⟨n', k', a', c', s'⟩ := e
  dsimp only at *
  rw [h1, kindStr_inj hd.2 he.2 h2, decimal_inj h3, decimal_inj h4, decimal_inj h5]

theorem comp_cut {d e : Compression} {x y : Text} (hd : d.compressor ≤ 1 ∧ d.codec ≤ 2) (he : e.compressor ≤ 1 ∧ e.codec ≤ 2) (h : d.repr ++ x = e.repr ++ y) :
    d = e ∧ x = y := by
  unfold Compression.repr at h
  simp only [List.append_assoc] at h
  have h := List.append_cancel_left h
  obtain ⟨h1, h⟩ := cut (compressorStr_no _) (compressorStr_no _) (by decide) h
  obtain ⟨h2, h⟩ := cut (codecStr_no _) (codecStr_no _) (by decide) h
  obtain ⟨h3, h⟩ := cut (c := ',') (decimal_no (by decide) _) (decimal_no (by decide) _) (by decide) h
  obtain ⟨h4, h⟩ := cut (c := ')') (decimal_no (by decide) _) (decimal_no (by decide) _) (by decide) h
  refine ⟨?_, h⟩
  obtain ⟨n, k, a, c⟩ := d
  obtain ⟨n', k', a', c'⟩ := e
  dsimp only at *
  rw [compressorStr_inj hd.1 he.1 h1, codecStr_inj hd.2 he.2 h2, decimal_inj h3, decimal_inj h4]

theorem shown_no {t : Text} (h : NoQuote t) : NoQuote (shownSecret t) := by
  unfold shownSecret NoQuote
  split
  · exact h
  · intro hm
    rcases List.mem_append.1 hm with hm | hm
    · exact h (List.mem_of_mem_take hm)
    · exact absurd hm (by decide)

theorem shown_take (t : Text) : (shownSecret t).take 5 = t.take 5 := by
  unfold shownSecret
  split
  · rfl
  · rw [List.take_append_of_le_length (by rw [List.length_take]; omega), List.take_take]; rfl

theorem s3_cut {d e : S3} {x y : Text} (hd : NoQuote d.endpoint ∧ NoQuote d.bucketName ∧ NoQuote d.accessKeyId ∧ NoQuote d.secretAccessKey)
    (he : NoQuote e.endpoint ∧ NoQuote e.bucketName ∧ NoQuote e.accessKeyId ∧ NoQuote e.secretAccessKey) (h : d.repr ++ x = e.repr ++ y) : SameS3 d e ∧ x = y := by
  unfold S3.repr at h
  simp only [List.append_assoc] at h
  have h := List.append_cancel_left h
  obtain ⟨h1, h⟩ := cut hd.1 he.1 (by decide) h
  obtain ⟨h2, h⟩ := cut hd.2.1 he.2.1 (by decide) h
  obtain ⟨h3, h⟩ := cut hd.2.2.1 he.2.2.1 (by decide) h
  obtain ⟨h4, h⟩ := cut (shown_no hd.2.2.2) (shown_no he.2.2.2) (by decide) h
  exact ⟨⟨h1, h2, h3, by rw [← shown_take, h4, shown_take]⟩, h⟩

theorem dims_cut {ds es : List Dimension} {x y : Text} (hd : ∀ d ∈ ds, NoQuote d.name ∧ d.kind ≤ 3) (he : ∀ d ∈ es, NoQuote d.name ∧ d.kind ≤ 3)
    (h : (ds.flatMap fun d => d.repr ++ ", ".toList) ++ ("], multiscale=".toList ++ x) = (es.flatMap fun d => d.repr ++ ", ".toList) ++ ("], multiscale=".toList ++ y)) :
    ds = es ∧ x = y := by
  have hne : ∀ (d : Dimension) (u v : Text), d.repr ++ u ≠ "], multiscale=".toList ++ v := by
    intro d u v
    unfold Dimension.repr
    simp only [List.append_assoc]
    exact apart (by decide)
  induction ds generalizing es with
  | nil =>
    cases es with
    | nil => exact ⟨rfl, List.append_cancel_left h⟩
    | cons e es =>
      rw [List.flatMap_cons] at h
      simp only [List.append_assoc, List.flatMap_nil, List.nil_append] at h
      exact absurd h.symm (hne _ _ _)
  | cons d ds ih =>
    cases es with
    | nil =>
      rw [List.flatMap_cons] at h
      simp only [List.append_assoc, List.flatMap_nil, List.nil_append] at h
      exact absurd h (hne _ _ _)
    | cons e es =>
      rw [List.flatMap_cons, List.flatMap_cons] at h
      simp only [List.append_assoc] at h
      obtain ⟨h1, h⟩ := dim_cut (hd d List.mem_cons_self) (he e List.mem_cons_self) h
      obtain ⟨h2, h3⟩ := ih (fun x hx => hd x (List.mem_cons_of_mem _ hx)) (fun x hx => he x (List.mem_cons_of_mem _ hx)) (List.append_cancel_left h)
      exact ⟨by rw [h1, h2], h3⟩

/-- The tail of the printed form. -/
def tail (s : Settings) : Text :=
  ", dimensions=[".toList ++ ((s.dimensions.flatMap fun d => d.repr ++ ", ".toList) ++ ("], multiscale=".toList ++
    ((if s.multiscale then "True".toList else "False".toList) ++ (", data_type=DataType.".toList ++ (dataTypeStr s.dataType ++ (", version=ZarrVersion.".toList ++
      ((if s.version = 2 then "V2".toList else "V3".toList) ++ ")".toList)))))))

theorem tail_cut {s t : Settings} (hs : Plain s) (ht : Plain t) (h : tail s = tail t) :
    s.dimensions = t.dimensions ∧ s.multiscale = t.multiscale ∧ s.dataType = t.dataType ∧ s.version = t.version := by
  unfold tail at h
  obtain ⟨h1, h⟩ := dims_cut hs.dims ht.dims (List.append_cancel_left h)
  have hc : ∀ b : Bool, ',' ∉ (if b then "True".toList else "False".toList) := by decide
  obtain ⟨h2, h⟩ := cut (hc _) (hc _) (by decide) h
  obtain ⟨h3, h⟩ := cut (dataTypeStr_no _) (dataTypeStr_no _) (by decide) h
  refine ⟨h1, ?_, dataTypeStr_inj hs.dataType ht.dataType h3, ?_⟩
  · have : ∀ a b : Bool, (if a then "True".toList else "False".toList) = (if b then "True".toList else "False".toList) → a = b := by decide
    exact this _ _ h2
  · have h := List.append_cancel_right h
    rcases hs.version with e | e <;> rcases ht.version with f | f <;> rw [e, f] at h ⊢
    · exact absurd h (by decide)
    · exact absurd h (by decide)

/-- What comes after the custom metadata, and after the S3 settings. -/
def tailC (s : Settings) : Text := (match s.compression with | some c => ", compression=".toList ++ c.repr | none => []) ++ tail s

def tailS (s : Settings) : Text := (match s.s3 with | some c => ", s3=".toList ++ c.repr | none => []) ++ tailC s

def tailM (s : Settings) : Text := (match s.customMetadata with | some c => ", custom_metadata='".toList ++ (c ++ "'".toList) | none => []) ++ tailS s

theorem repr_eq (s : Settings) : s.repr = "StreamSettings(store_path='".toList ++ (s.storePath ++ ("'".toList ++ tailM s)) := by
  unfold Settings.repr tailM tailS tailC tail
  simp only [List.append_assoc]
  cases s.customMetadata <;> cases s.s3 <;> cases s.compression <;> simp only [List.append_assoc, List.nil_append]

theorem tailC_cut {s t : Settings} (hs : Plain s) (ht : Plain t) (h : tailC s = tailC t) : s.compression = t.compression ∧ tail s = tail t := by
  unfold tailC at h
  cases es : s.compression with
  | none =>
    cases et : t.compression with
    | none => rw [es, et] at h; exact ⟨rfl, h⟩
    | some c => rw [es, et] at h; unfold tail at h; simp only [List.nil_append, List.append_assoc] at h; exact absurd h (apart (by decide))
  | some b =>
    cases et : t.compression with
    | none => rw [es, et] at h; unfold tail at h; simp only [List.nil_append, List.append_assoc] at h; exact absurd h (apart (by decide))
    | some c =>
      rw [es, et] at h
      simp only [List.append_assoc] at h
      obtain ⟨h1, h⟩ := comp_cut (hs.compression _ es) (ht.compression _ et) (List.append_cancel_left h)
      exact ⟨by rw [h1], h⟩

theorem tailS_cut {s t : Settings} (hs : Plain s) (ht : Plain t) (h : tailS s = tailS t) : Both SameS3 s.s3 t.s3 ∧ tailC s = tailC t := by
  unfold tailS at h
  have hne : ∀ (u : Settings) (x : Text), ", s3=".toList ++ x ≠ tailC u := by
    intro u x
    unfold tailC tail
    cases u.compression with
    | none => simp only [List.nil_append]; exact apart (by decide)
    | some c => simp only [List.append_assoc]; exact apart (by decide)
  cases es : s.s3 with
  | none =>
    cases et : t.s3 with
    | none => rw [es, et] at h; exact ⟨trivial, h⟩
    | some c => rw [es, et] at h; simp only [List.nil_append, List.append_assoc] at h; exact absurd h.symm (hne _ _)
  | some b =>
    cases et : t.s3 with
    | none => rw [es, et] at h; simp only [List.nil_append, List.append_assoc] at h; exact absurd h (hne _ _)
    | some c =>
      rw [es, et] at h
      simp only [List.append_assoc] at h
      exact s3_cut (hs.s3 _ es) (ht.s3 _ et) (List.append_cancel_left h)

theorem tailM_cut {s t : Settings} (hs : Plain s) (ht : Plain t) (h : tailM s = tailM t) : s.customMetadata = t.customMetadata ∧ tailS s = tailS t := by
  unfold tailM at h
  have hne : ∀ (u : Settings) (x : Text), ", custom_metadata='".toList ++ x ≠ tailS u := by
    intro u x
    unfold tailS tailC tail
    cases u.s3 with
    | none =>
      cases u.compression with
      | none => simp only [List.nil_append]; exact apart (by decide)
      | some c => simp only [List.append_assoc, List.nil_append]; exact apart (by decide)
    | some c => simp only [List.append_assoc]; exact apart (by decide)
  cases es : s.customMetadata with
  | none =>
    cases et : t.customMetadata with
    | none => rw [es, et] at h; exact ⟨rfl, h⟩
    | some c => rw [es, et] at h; simp only [List.nil_append, List.append_assoc] at h; exact absurd h.symm (hne _ _)
  | some b =>
    cases et : t.customMetadata with
    | none => rw [es, et] at h; simp only [List.nil_append, List.append_assoc] at h; exact absurd h (hne _ _)
    | some c =>
      rw [es, et] at h
      simp only [List.append_assoc] at h
      obtain ⟨h1, h⟩ := cut (hs.custom _ es) (ht.custom _ et) (by decide) (List.append_cancel_left h)
      exact ⟨by rw [h1], h⟩

/-- **C92, the part that holds.** Stream settings without apostrophes that print alike have the same values (of a secret: the same first five characters). -/
theorem printed_alike_partial {s t : Settings} (hs : Plain s) (ht : Plain t) (h : s.repr = t.repr) : Same s t := by
  rw [repr_eq, repr_eq] at h
  obtain ⟨h0, h⟩ := cut hs.path ht.path (by decide) (List.append_cancel_left h)
  obtain ⟨h1, h⟩ := tailM_cut hs ht h
  obtain ⟨h2, h⟩ := tailS_cut hs ht h
  obtain ⟨h3, h⟩ := tailC_cut hs ht h
  exact ⟨h0, h1, h2, h3, tail_cut hs ht h⟩

/-- **C92**, for the parts: dimensions, compression settings and S3 settings printed on their own. -/
theorem parts_printed_alike_partial :
    (∀ d e : Dimension, NoQuote d.name → d.kind ≤ 3 → NoQuote e.name → e.kind ≤ 3 → d.repr = e.repr → d = e) ∧
    (∀ c d : Compression, c.compressor ≤ 1 → c.codec ≤ 2 → d.compressor ≤ 1 → d.codec ≤ 2 → c.repr = d.repr → c = d) ∧
    (∀ x y : S3, NoQuote x.endpoint → NoQuote x.bucketName → NoQuote x.accessKeyId → NoQuote x.secretAccessKey →
      NoQuote y.endpoint → NoQuote y.bucketName → NoQuote y.accessKeyId → NoQuote y.secretAccessKey → x.repr = y.repr → SameS3 x y) :=
  ⟨fun d e a b a' b' h => (dim_cut (x := []) (y := []) ⟨a, b⟩ ⟨a', b'⟩ (by rw [h])).1,
   fun c d a b a' b' h => (comp_cut (x := []) (y := []) ⟨a, b⟩ ⟨a', b'⟩ (by rw [h])).1,
   fun x y a b c d a' b' c' d' h => (s3_cut (x := []) (y := []) ⟨a, b, c, d⟩ ⟨a', b', c', d'⟩ (by rw [h])).1⟩

/-! ### The printed form is Python source -/

theorem kindStr_name {k : Nat} (h : k ≤ 3) : kindStr k = (kinds.getD k "").toList := by
  have : ∀ k : Fin 4, kindStr k = (kinds.getD k "").toList := by decide
  exact this ⟨k, by omega⟩

theorem dataTypeStr_name {k : Nat} (h : k ≤ 9) : dataTypeStr k = (dataTypes.getD k "").toList := by
  have : ∀ k : Fin 10, dataTypeStr k = (dataTypes.getD k "").toList := by decide
  exact this ⟨k, by omega⟩

theorem compressorStr_name {k : Nat} (h : k ≤ 1) : compressorStr k = (compressors.getD k "").toList := by
  have : ∀ k : Fin 2, compressorStr k = (compressors.getD k "").toList := by decide
  exact this ⟨k, by omega⟩

theorem codecStr_name {k : Nat} (h : k ≤ 2) : codecStr k = (codecs.getD k "").toList := by
  have : ∀ k : Fin 3, codecStr k = (codecs.getD k "").toList := by decide
  exact this ⟨k, by omega⟩

theorem dim_source {d : Dimension} (h : d.kind ≤ 3) : d.repr = dimensionSource d := by
  unfold Dimension.repr dimensionSource pyCall pyText pyMember
  simp only [pyArgs, List.append_assoc, ← kindStr_name h]
  rfl

theorem comp_source {c : Compression} (h : c.compressor ≤ 1 ∧ c.codec ≤ 2) : c.repr = compressionSource c := by
  unfold Compression.repr compressionSource pyCall pyMember
  simp only [pyArgs, List.append_assoc, ← compressorStr_name h.1, ← codecStr_name h.2]
  rfl

theorem s3_source (x : S3) : x.repr = s3Source shownSecret x := by
  unfold S3.repr s3Source pyCall pyText
  simp only [pyArgs, List.append_assoc]
  rfl

theorem pyArgs_cons (k : String) (v : Text) {r : List (String × Text)} (h : r ≠ []) : pyArgs ((k, v) :: r) = k.toList ++ ("=".toList ++ (v ++ (", ".toList ++ pyArgs r))) := by
  cases r with
  | nil => exact absurd rfl h
  | cons x r => rw [pyArgs]; simp only [List.append_assoc]; exact nofun

theorem pyArgs_maybe (k : String) (v : Option Text) {r : List (String × Text)} (h : r ≠ []) :
    ", ".toList ++ pyArgs (pyMaybe k v ++ r) = (match v with | some x => ", ".toList ++ (k.toList ++ ("=".toList ++ x)) | none => []) ++ (", ".toList ++ pyArgs r) := by
  cases v with
  | none => rfl
  | some x => rw [pyMaybe, List.singleton_append, pyArgs_cons _ _ h]; simp only [List.append_assoc]

/-- **C92.** What Python prints is Python source that constructs the object: every attribute under its keyword, every member of an enumeration under its own name; the
secret is replaced by what is shown of it. -/
theorem printed_as_source {s : Settings} (hs : Plain s) : s.repr = settingsSource shownSecret s := by
  have hd : s.dimensions.map dimensionSource = s.dimensions.map Dimension.repr :=
    List.map_congr_left fun d hd => (dim_source (hs.dims d hd).2).symm
  have hc : s.compression.map compressionSource = s.compression.map Compression.repr := by
    cases e : s.compression with
    | none => rfl
    | some c => rw [Option.map_some, Option.map_some, comp_source (hs.compression c e)]
  have h3 : s.s3.map (s3Source shownSecret) = s.s3.map S3.repr := by
    cases e : s.s3 with
    | none => rfl
    | some c => rw [Option.map_some, Option.map_some, s3_source]
  have hv : "ZarrVersion.V".toList ++ decimal s.version = "ZarrVersion.".toList ++ (if s.version = 2 then "V2".toList else "V3".toList) := by
    rcases hs.version with e | e <;> rw [e] <;> decide
  have k1 : (match s.customMetadata.map pyText with | some x => ", ".toList ++ ("custom_metadata".toList ++ ("=".toList ++ x)) | none => []) =
      (match s.customMetadata with | some c => ", custom_metadata='".toList ++ (c ++ "'".toList) | none => []) := by
    cases s.customMetadata with
    | none => rfl
    | some c => unfold pyText; simp only [Option.map_some, List.append_assoc]; rfl
  have k2 : (match s.s3.map S3.repr with | some x => ", ".toList ++ ("s3".toList ++ ("=".toList ++ x)) | none => []) =
      (match s.s3 with | some c => ", s3=".toList ++ c.repr | none => []) := by
    cases s.s3 with
    | none => rfl
    | some c => simp only [Option.map_some]; generalize c.repr = r; rfl
  have k3 : (match s.compression.map Compression.repr with | some x => ", ".toList ++ ("compression".toList ++ ("=".toList ++ x)) | none => []) =
      (match s.compression with | some c => ", compression=".toList ++ c.repr | none => []) := by
    cases s.compression with
    | none => rfl
    | some c => simp only [Option.map_some]; generalize c.repr = r; rfl
  have k4 : ", ".toList ++ (pyArgs [("dimensions", pyList (s.dimensions.map Dimension.repr)), ("multiscale", if s.multiscale then "True".toList else "False".toList),
     ("data_type", pyMember "DataType" dataTypes s.dataType), ("version", "ZarrVersion.".toList ++ (if s.version = 2 then "V2".toList else "V3".toList))] ++ ")".toList) = tail s := by
    unfold tail pyList pyMember
    simp only [pyArgs, List.append_assoc, ← dataTypeStr_name hs.dataType, List.flatMap_map]
    generalize (List.flatMap (fun d : Dimension => d.repr ++ ", ".toList) s.dimensions) = X
    generalize (if s.version = 2 then "V2".toList else "V3".toList) = V
    generalize (if s.multiscale then "True".toList else "False".toList) = M
    rfl
  unfold settingsSource pyCall
  rw [hd, hc, h3, hv, pyArgs_cons _ _ (by simp), pyArgs_maybe _ _ (by simp), pyArgs_maybe _ _ (by simp), pyArgs_maybe _ _ (by simp), k1, k2, k3, repr_eq]
  unfold tailM tailS tailC
  rw [← k4]
  unfold pyText
  generalize pyArgs _ = T
  simp only [List.append_assoc]
  rfl

/-- **C92 is violated by the code**: apostrophes are printed as they are, so that S3 settings that differ in endpoint and bucket print alike, for every endpoint, bucket and key. -/
theorem printed_alike_violated (e b k z : Text) :
    ∃ x y : S3, x.repr = y.repr ∧ x.endpoint = e ∧ y.endpoint ≠ e ∧ x.accessKeyId = k ∧ x.secretAccessKey = z := by
  refine ⟨⟨e, b ++ "', bucket_name='".toList ++ b, k, z⟩, ⟨e ++ "', bucket_name='".toList ++ b, b, k, z⟩, ?_, rfl, ?_, rfl, rfl⟩
  · unfold S3.repr
    simp only [List.append_assoc]
  · intro h
    have := congrArg List.length h
    simp only [List.length_append] at this
    have : ("', bucket_name='".toList).length = 0 := by omega
    exact absurd this (by decide)

/-- Not vacuous: settings with S3, compression, custom metadata and three dimensions are plain. -/
example : Plain ⟨"a.zarr".toList, some "{\"a\": 1}".toList, some ⟨"http://h".toList, "b".toList, "k".toList, "secret123".toList⟩, some ⟨1, 2, 5, 1⟩,
    [⟨"t".toList, 2, 0, 10, 1⟩, ⟨"y".toList, 0, 48, 16, 3⟩, ⟨"x".toList, 0, 64, 16, 4⟩], true, 1, 3⟩ where
  path := by unfold NoQuote; decide
  custom m h := by cases h; unfold NoQuote; decide
  s3 x h := by cases h; unfold NoQuote; decide
  compression c h := by cases h; decide
  dims := by unfold NoQuote; decide
  dataType := by decide
  version := by decide

end AZ.Py
