import Verif.Lemmas.PyKeywords
import Verif.Props.PySession
import Verif.Spec.TypeNames
import Verif.Spec.Documents

/-!
# C84, C85: keyword arguments of the Python settings
-/

namespace AZ.Py
open _root_.Spec AZ.Spec

variable {kw kw' : Kwargs}

/-- **C84, first part.** Making an object with keyword arguments is making it without and then assigning each argument to the attribute
of that name, in any order; if one of the assignments raises an exception, so does the constructor. -/
theorem keywords_are_assignments (hd : (kw.map Prod.fst).Nodup) (hp : kw.Perm kw') :
    initStream kw = kw'.foldlM (fun x p => setStream x p.1 p.2) Settings.initial ∧
    initS3 kw = kw'.foldlM (fun x p => setS3 x p.1 p.2) ⟨[], [], [], []⟩ ∧
    initCompression kw = kw'.foldlM (fun x p => setCompression x p.1 p.2) ⟨0, 0, 0, 0⟩ ∧
    initDimension kw = kw'.foldlM (fun x p => setDimension x p.1 p.2) ⟨[], 0, 0, 0, 0⟩ :=
  ⟨initStream_fold hd hp, initS3_fold hd hp, initCompression_fold hd hp, initDimension_fold hd hp⟩

theorem asText_some {v : Val} {t : Text} (h : asText v = some t) : v = .str t := by
  cases v <;> first | (cases h; rfl) | exact absurd h (by simp [asText])

theorem asEnum_some {c : EnumClass} {v : Val} {n : Nat} (h : asEnum c v = some n) : v = .enum c n := by
  cases v with
  | enum c' m =>
    simp only [asEnum] at h
    split at h
    · rename_i e; cases h; rw [e]
    · cases h
  | _ => cases h

theorem asOptional_some {α : Type} {f : Val → Option α} {v : Val} {o : Option α} (h : asOptional f v = some o) :
    (v = .none ∧ o = none) ∨ ∃ a, f v = some a ∧ o = some a := by
  cases v with
  | none => cases h; exact .inl ⟨rfl, rfl⟩
  | _ =>
    obtain ⟨a, h1, h2⟩ := Option.map_eq_some_iff.1 h
    exact .inr ⟨a, h1, h2.symm⟩

theorem asS3_some {v : Val} {x : S3} (h : asS3 v = some x) : v = .s3 x := by
  cases v <;> first | (cases h; rfl) | exact absurd h (by simp [asS3])

theorem asCompression_some {v : Val} {x : Compression} (h : asCompression v = some x) : v = .compression x := by
  cases v <;> first | (cases h; rfl) | exact absurd h (by simp [asCompression])

theorem asVector_some {v : Val} {l : List Dimension} (h : asVector v = some l) : v = .vector l := by
  cases v <;> first | (cases h; rfl) | exact absurd h (by simp [asVector])

theorem asUnsigned_some {bits : Nat} {v : Val} {n : Nat} (h : asUnsigned bits v = some n) : IsNumber v n ∧ (0 < bits → n < 2 ^ bits) := by
  cases v with
  | bool b =>
    cases h
    refine ⟨.inr (.inr ⟨b, rfl, rfl⟩), fun hb => ?_⟩
    have : 2 ^ 1 ≤ 2 ^ bits := Nat.pow_le_pow_right (by decide) hb
    cases b <;> simp <;> omega
  | int i =>
    simp only [asUnsigned] at h
    split at h
    · rename_i hi
      cases h
      refine ⟨.inl (by rw [Int.toNat_of_nonneg hi.1]), fun _ => ?_⟩
      have := hi.2
      have e : ((i.toNat : Nat) : Int) = i := Int.toNat_of_nonneg hi.1
      exact_mod_cast e ▸ this
    · cases h
  | enum c m =>
    simp only [asUnsigned] at h
    split at h
    · rename_i hm
      cases h
      exact ⟨.inr (.inl ⟨c, rfl⟩), fun _ => hm⟩
    · cases h
  | _ => cases h

/-- **C84, second part.** Every attribute of the object reads as the argument given for it, and every other attribute as in an object
made without arguments. -/
theorem keywords_take_effect {s : Settings} (h : initStream kw = some s) (p : Path) :
    look s p = match kw.lookup (keyword p).toList with | some v => givenAt v p | none => unset p := by
  obtain ⟨g1, g2, g3, g4, g5, g6, g7, g8⟩ := initStream_iff.1 h
  unfold Given at g1 g2 g3 g4 g5 g6 g7 g8
  cases p with
  | storePath =>
    unfold keyword look
    cases e : kw.lookup "store_path".toList with
    | none => rw [e] at g1; simp only [g1]; rfl
    | some v => rw [e] at g1; rw [asText_some g1]; rfl
  | customMetadata =>
    unfold keyword look
    cases e : kw.lookup "custom_metadata".toList with
    | none => rw [e] at g2; simp only [g2]; rfl
    | some v =>
      rw [e] at g2
      rcases asOptional_some g2 with ⟨rfl, e2⟩ | ⟨a, e1, e2⟩
      · rw [e2]; rfl
      · rw [e2, asText_some e1]; rfl
  | multiscale =>
    unfold keyword look
    cases e : kw.lookup "multiscale".toList with
    | none => rw [e] at g6; simp only [g6]; rfl
    | some v =>
      rw [e] at g6
      dsimp only at g6 ⊢
      unfold givenAt
      cases v with
      | none => rw [← Option.some.inj g6]
      | bool b => rw [← Option.some.inj g6]
      | int i => rw [← Option.some.inj g6]
      | vector l =>
        rw [← Option.some.inj g6]
        cases l <;> rfl
      | _ => cases g6
  | dataType =>
    unfold keyword look
    cases e : kw.lookup "data_type".toList with
    | none => rw [e] at g7; simp only [g7]; rfl
    | some v => rw [e] at g7; rw [asEnum_some g7]; rfl
  | version =>
    unfold keyword look
    cases e : kw.lookup "version".toList with
    | none => rw [e] at g8; simp only [g8]; rfl
    | some v => rw [e] at g8; rw [asEnum_some g8]; rfl
  | s3 k =>
    unfold keyword look
    cases e : kw.lookup "s3".toList with
    | none => rw [e] at g3; simp only [g3]; rfl
    | some v =>
      rw [e] at g3
      rcases asOptional_some g3 with ⟨rfl, e2⟩ | ⟨a, e1, e2⟩
      · rw [e2]; rfl
      · rw [e2, asS3_some e1]; rfl
  | compression k =>
    unfold keyword look
    cases e : kw.lookup "compression".toList with
    | none => rw [e] at g4; simp only [g4]; rfl
    | some v =>
      rw [e] at g4
      rcases asOptional_some g4 with ⟨rfl, e2⟩ | ⟨a, e1, e2⟩
      · rw [e2]; rfl
      · rw [e2, asCompression_some e1]; rfl
  | dimensionCount =>
    unfold keyword look
    cases e : kw.lookup "dimensions".toList with
    | none => rw [e] at g5; simp only [g5]; rfl
    | some v => rw [e] at g5; rw [asVector_some g5]; rfl
  | dimensionName i =>
    unfold keyword look
    cases e : kw.lookup "dimensions".toList with
    | none => rw [e] at g5; simp only [g5]; rfl
    | some v => rw [e] at g5; rw [asVector_some g5]; rfl
  | dimension i k =>
    unfold keyword look
    cases e : kw.lookup "dimensions".toList with
    | none => rw [e] at g5; simp only [g5]; rfl
    | some v => rw [e] at g5; rw [asVector_some g5]; rfl

/-- **C84, the other classes.** Texts and numbers are stored as given; a number that does not fit is never stored as another one. -/
theorem parts_take_effect :
    (∀ x, initS3 kw = some x → ∀ k, match kw.lookup (s3Keyword k).toList with
      | some v => ∃ t, v = .str t ∧ s3Value x k = .text t
      | none => s3Value x k = .text []) ∧
    (∀ x, initCompression kw = some x → ∀ k, match kw.lookup (compressionKeyword k).toList with
      | some v => ∃ n, IsNumber v n ∧ compressionValue x k = .number n
      | none => compressionValue x k = .number 0) ∧
    (∀ x, initDimension kw = some x →
      (match kw.lookup "name".toList with
        | some v => v = .str x.name
        | none => x.name = []) ∧
      ∀ k, match kw.lookup (dimensionKeyword k).toList with
        | some v => ∃ n, IsNumber v n ∧ dimensionValue x k = .number n
        | none => dimensionValue x k = .number 0) := by
  refine ⟨fun x h k => ?_, fun x h k => ?_, fun x h => ⟨?_, fun k => ?_⟩⟩
  · obtain ⟨g1, g2, g3, g4⟩ := initS3_iff.1 h
    unfold Given at g1 g2 g3 g4
    cases k <;> unfold s3Keyword s3Value <;> dsimp only
    · cases e : kw.lookup "endpoint".toList with
      | none => rw [e] at g1; exact congrArg _ g1
      | some v => rw [e] at g1; exact ⟨_, asText_some g1, rfl⟩
    · cases e : kw.lookup "bucket_name".toList with
      | none => rw [e] at g2; exact congrArg _ g2
      | some v => rw [e] at g2; exact ⟨_, asText_some g2, rfl⟩
    · cases e : kw.lookup "access_key_id".toList with
      | none => rw [e] at g3; exact congrArg _ g3
      | some v => rw [e] at g3; exact ⟨_, asText_some g3, rfl⟩
    · cases e : kw.lookup "secret_access_key".toList with
      | none => rw [e] at g4; exact congrArg _ g4
      | some v => rw [e] at g4; exact ⟨_, asText_some g4, rfl⟩
  · obtain ⟨g1, g2, g3, g4⟩ := initCompression_iff.1 h
    unfold Given at g1 g2 g3 g4
    cases k <;> unfold compressionKeyword compressionValue <;> dsimp only
    · cases e : kw.lookup "compressor".toList with
      | none => rw [e] at g1; exact congrArg _ g1
      | some v => rw [e] at g1; exact ⟨_, .inr (.inl ⟨_, asEnum_some g1⟩), rfl⟩
    · cases e : kw.lookup "codec".toList with
      | none => rw [e] at g2; exact congrArg _ g2
      | some v => rw [e] at g2; exact ⟨_, .inr (.inl ⟨_, asEnum_some g2⟩), rfl⟩
    · cases e : kw.lookup "level".toList with
      | none => rw [e] at g3; exact congrArg _ g3
      | some v => rw [e] at g3; exact ⟨_, (asUnsigned_some g3).1, rfl⟩
    · cases e : kw.lookup "shuffle".toList with
      | none => rw [e] at g4; exact congrArg _ g4
      | some v => rw [e] at g4; exact ⟨_, (asUnsigned_some g4).1, rfl⟩
  · obtain ⟨g1, _⟩ := initDimension_iff.1 h
    unfold Given at g1
    cases e : kw.lookup "name".toList with
    | none => rw [e] at g1; exact g1
    | some v => rw [e] at g1; exact asText_some g1
  · obtain ⟨_, g1, g2, g3, g4⟩ := initDimension_iff.1 h
    unfold Given at g1 g2 g3 g4
    cases k <;> unfold dimensionKeyword dimensionValue <;> dsimp only
    · cases e : kw.lookup "kind".toList with
      | none => rw [e] at g1; exact congrArg _ g1
      | some v => rw [e] at g1; exact ⟨_, .inr (.inl ⟨_, asEnum_some g1⟩), rfl⟩
    · cases e : kw.lookup "array_size_px".toList with
      | none => rw [e] at g2; exact congrArg _ g2
      | some v => rw [e] at g2; exact ⟨_, (asUnsigned_some g2).1, rfl⟩
    · cases e : kw.lookup "chunk_size_px".toList with
      | none => rw [e] at g3; exact congrArg _ g3
      | some v => rw [e] at g3; exact ⟨_, (asUnsigned_some g3).1, rfl⟩
    · cases e : kw.lookup "shard_size_chunks".toList with
      | none => rw [e] at g4; exact congrArg _ g4
      | some v => rw [e] at g4; exact ⟨_, (asUnsigned_some g4).1, rfl⟩

/-- **C84, third part.** Arguments of the documented kinds are accepted. -/
theorem keywords_accepted (h : ∀ p ∈ kw, Documented p.1 p.2) (hd : (kw.map Prod.fst).Nodup) : ∃ s, initStream kw = some s := by
  rw [initStream_fold hd (List.Perm.refl kw)]
  generalize Settings.initial = s
  induction kw generalizing s with
  | nil => exact ⟨s, rfl⟩
  | cons p l ih =>
    rw [List.map_cons, List.nodup_cons] at hd
    have hp : ∃ t, setStream s p.1 p.2 = some t := by
      rcases h p (List.mem_cons_self) with ⟨e, t, e2⟩ | ⟨e, e2 | ⟨t, e2⟩⟩ | ⟨e, e2 | ⟨t, e2⟩⟩ | ⟨e, e2 | ⟨t, e2⟩⟩ | ⟨e, t, e2⟩ | ⟨e, t, e2⟩ |
        ⟨e, t, e2⟩ | ⟨e, t, e2⟩ <;> rw [e, e2]
      · exact ⟨_, setStream_storePath _ _⟩
      · exact ⟨_, setStream_customMetadata _ _⟩
      · exact ⟨_, setStream_customMetadata _ _⟩
      · exact ⟨_, setStream_s3 _ _⟩
      · exact ⟨_, setStream_s3 _ _⟩
      · exact ⟨_, setStream_compression _ _⟩
      · exact ⟨_, setStream_compression _ _⟩
      · exact ⟨_, setStream_dimensions _ _⟩
      · exact ⟨_, setStream_multiscale _ _⟩
      · exact ⟨_, setStream_dataType _ _⟩
      · exact ⟨_, setStream_version _ _⟩
    obtain ⟨t, ht⟩ := hp
    rw [List.foldlM_cons, ht]
    exact ih (fun q hq => h q (List.mem_cons_of_mem _ hq)) hd.2 t

/-- **C84, fourth part.** The members of the enumerations (`DataType.UINT16`, `DimensionType.TIME`, `CompressionCodec.BLOSC_ZSTD`; their
names are the model's `…Str`, `python/acquire-zarr-py.cpp:434-465`) stand for the C values with the meaning their names have: the kind
and the size of the numbers, the axis type and the codec that the documents will name. -/
theorem member_names : (∀ k < 10, readV3Type ((dataTypeStr k).map Char.toLower) = some (kindOf k, itemSize k)) ∧
    (∀ k < 4, (kindStr k).map Char.toLower = (axisType k).toList) ∧
    (∀ k, 0 < k → k < 3 → (codecStr k).map Char.toLower = ("blosc_" ++ codecNameOf k).toList) := by
  refine ⟨by decide, by decide, ?_⟩
  intro k h0 h3
  have : k = 1 ∨ k = 2 := by omega
  rcases this with rfl | rfl <;> decide

/-- **C84, violated.** The documentation gives `dimensions` the type `List[Dimension]`; with a `list` the constructor raises, whatever is
in the list. -/
theorem list_of_dimensions_violated (l : List Val) (hm : kw.lookup "dimensions".toList = some (.list l)) : initStream kw = none := by
  cases e : initStream kw with
  | none => rfl
  | some s =>
    obtain ⟨_, _, _, _, g, _⟩ := initStream_iff.1 e
    unfold Given at g
    rw [hm] at g
    cases g

theorem lookup_other {k key : Text} {v : Val} (h : key ≠ k) : ((k, v) :: kw).lookup key = kw.lookup key := by
  rw [List.lookup_cons]
  have : (key == k) = false := by simpa using h
  rw [this]

theorem given_other {α : Type} {f : Val → Option α} {d a : α} {k : Text} {v : Val} {key : String} (h : key.toList ≠ k) :
    Given ((k, v) :: kw) key f d a ↔ Given kw key f d a := by
  unfold Given
  rw [lookup_other h]

/-- **C85, violated.** A keyword that names no setting is accepted and has no effect, whatever its value: a misspelt keyword leaves the
setting at its initial value without a report. -/
theorem unknown_keyword_violated (k : Text) (v : Val) :
    (k ∉ namesStream → initStream ((k, v) :: kw) = initStream kw) ∧ (k ∉ namesS3 → initS3 ((k, v) :: kw) = initS3 kw) ∧
    (k ∉ namesCompression → initCompression ((k, v) :: kw) = initCompression kw) ∧
    (k ∉ namesDimension → initDimension ((k, v) :: kw) = initDimension kw) := by
  refine ⟨fun h => ?_, fun h => ?_, fun h => ?_, fun h => ?_⟩
  · unfold namesStream at h
    simp only [List.mem_cons, List.not_mem_nil, or_false, not_or] at h
    obtain ⟨h1, h2, h3, h4, h5, h6, h7, h8⟩ := h
    apply Option.ext
    intro s
    rw [initStream_iff, initStream_iff, given_other (Ne.symm h1), given_other (Ne.symm h2), given_other (Ne.symm h3),
      given_other (Ne.symm h4), given_other (Ne.symm h5), given_other (Ne.symm h6), given_other (Ne.symm h7), given_other (Ne.symm h8)]
  · unfold namesS3 at h
    simp only [List.mem_cons, List.not_mem_nil, or_false, not_or] at h
    obtain ⟨h1, h2, h3, h4⟩ := h
    apply Option.ext
    intro s
    rw [initS3_iff, initS3_iff, given_other (Ne.symm h1), given_other (Ne.symm h2), given_other (Ne.symm h3), given_other (Ne.symm h4)]
  · unfold namesCompression at h
    simp only [List.mem_cons, List.not_mem_nil, or_false, not_or] at h
    obtain ⟨h1, h2, h3, h4⟩ := h
    apply Option.ext
    intro s
    rw [initCompression_iff, initCompression_iff, given_other (Ne.symm h1), given_other (Ne.symm h2), given_other (Ne.symm h3),
      given_other (Ne.symm h4)]
  · unfold namesDimension at h
    simp only [List.mem_cons, List.not_mem_nil, or_false, not_or] at h
    obtain ⟨h1, h2, h3, h4, h5⟩ := h
    apply Option.ext
    intro s
    rw [initDimension_iff, initDimension_iff, given_other (Ne.symm h1), given_other (Ne.symm h2), given_other (Ne.symm h3),
      given_other (Ne.symm h4), given_other (Ne.symm h5)]

/-- **C85, the part that holds.** A known keyword whose value the setting cannot take raises an exception: then no object is made, so
nothing is stored in its place. -/
theorem bad_value_reported_partial :
    (∀ v, kw.lookup "store_path".toList = some v → (∀ t, v ≠ .str t) → initStream kw = none) ∧
    (∀ v, kw.lookup "data_type".toList = some v → (∀ n, v ≠ .enum .dataType n) → initStream kw = none) ∧
    (∀ v, kw.lookup "version".toList = some v → (∀ n, v ≠ .enum .zarrVersion n) → initStream kw = none) ∧
    (∀ i : Int, i < 0 ∨ 255 < i → (kw.lookup "level".toList = some (.int i) ∨ kw.lookup "shuffle".toList = some (.int i)) →
      initCompression kw = none) ∧
    (∀ i : Int, i < 0 ∨ 4294967295 < i → (kw.lookup "array_size_px".toList = some (.int i) ∨
      kw.lookup "chunk_size_px".toList = some (.int i) ∨ kw.lookup "shard_size_chunks".toList = some (.int i)) →
      initDimension kw = none) := by
  refine ⟨fun v hv hn => ?_, fun v hv hn => ?_, fun v hv hn => ?_, fun i hi hk => ?_, fun i hi hk => ?_⟩
  · cases e : initStream kw with
    | none => rfl
    | some s =>
      obtain ⟨g, _⟩ := initStream_iff.1 e
      unfold Given at g
      rw [hv] at g
      exact absurd (asText_some g) (hn _)
  · cases e : initStream kw with
    | none => rfl
    | some s =>
      obtain ⟨_, _, _, _, _, _, g, _⟩ := initStream_iff.1 e
      unfold Given at g
      rw [hv] at g
      exact absurd (asEnum_some g) (hn _)
  · cases e : initStream kw with
    | none => rfl
    | some s =>
      obtain ⟨_, _, _, _, _, _, _, g⟩ := initStream_iff.1 e
      unfold Given at g
      rw [hv] at g
      exact absurd (asEnum_some g) (hn _)
  · have none8 : asUnsigned 8 (.int i) = none := by
      simp only [asUnsigned]
      rw [if_neg]
      rintro ⟨h1, h2⟩
      have : (2 : Int) ^ 8 = 256 := by decide
      omega
    cases e : initCompression kw with
    | none => rfl
    | some s =>
      obtain ⟨_, _, g3, g4⟩ := initCompression_iff.1 e
      unfold Given at g3 g4
      rcases hk with hk | hk
      · rw [hk] at g3; dsimp only at g3; rw [none8] at g3; cases g3
      · rw [hk] at g4; dsimp only at g4; rw [none8] at g4; cases g4
  · have none32 : asUnsigned 32 (.int i) = none := by
      simp only [asUnsigned]
      rw [if_neg]
      rintro ⟨h1, h2⟩
      have : (2 : Int) ^ 32 = 4294967296 := by decide
      omega
    cases e : initDimension kw with
    | none => rfl
    | some s =>
      obtain ⟨_, _, g3, g4, g5⟩ := initDimension_iff.1 e
      unfold Given at g3 g4 g5
      rcases hk with hk | hk | hk
      · rw [hk] at g3; dsimp only at g3; rw [none32] at g3; cases g3
      · rw [hk] at g4; dsimp only at g4; rw [none32] at g4; cases g4
      · rw [hk] at g5; dsimp only at g5; rw [none32] at g5; cases g5

/-! ### An example -/

/-- `StreamSettings(version=ZarrVersion.V3, store_path="out.zarr", data_type=DataType.UINT16, s3=None, multiscale=True)`. -/
def Sample.kwargs : Kwargs := [("version".toList, .enum .zarrVersion 3), ("store_path".toList, .str "out.zarr".toList),
  ("data_type".toList, .enum .dataType 1), ("s3".toList, .none), ("multiscale".toList, .bool true)]

example : (Sample.kwargs.map Prod.fst).Nodup ∧ (∀ p ∈ Sample.kwargs, Documented p.1 p.2) ∧
    initStream Sample.kwargs = some ⟨"out.zarr".toList, none, none, none, [], true, 1, 3⟩ := by
  refine ⟨by decide, ?_, by decide +kernel⟩
  intro p hp
  unfold Sample.kwargs at hp
  simp only [List.mem_cons, List.not_mem_nil, or_false] at hp
  unfold Documented
  rcases hp with rfl | rfl | rfl | rfl | rfl
  · exact .inr (.inr (.inr (.inr (.inr (.inr (.inr ⟨rfl, _, rfl⟩))))))
  · exact .inl ⟨rfl, _, rfl⟩
  · exact .inr (.inr (.inr (.inr (.inr (.inr (.inl ⟨rfl, _, rfl⟩))))))
  · exact .inr (.inr (.inl ⟨rfl, .inl rfl⟩))
  · exact .inr (.inr (.inr (.inr (.inr (.inl ⟨rfl, _, rfl⟩)))))

/-- `Dimension(name="t", type=DimensionType.TIME)`: the keyword is `kind`; the dimension made is spatial. -/
example : initDimension [("name".toList, .str "t".toList), ("type".toList, .enum .dimensionType 2)] = some ⟨"t".toList, 0, 0, 0, 0⟩ := by
  decide +kernel

/-- `CompressionSettings(level=300)` raises. -/
example : initCompression [("level".toList, .int 300)] = none :=
  (bad_value_reported_partial (kw := [("level".toList, .int 300)])).2.2.2.1 300 (.inr (by decide)) (.inl (by simp))

end AZ.Py
