import Batteries.Data.List.Perm
import Verif.Spec.Keywords

/-! # Keyword constructors: lemmas -/
set_option linter.unusedSimpArgs false


namespace AZ.Py

/-! ### Commuting partial updates -/

section
variable {σ : Type} {f : σ → Text → Val → Option σ} {upd : Text → Val → Option (σ → σ)}

theorem commute (hf : ∀ x k v, f x k v = (upd k v).map fun u => u x)
    (hc : ∀ k l, k ≠ l → ∀ v w u t, upd k v = some u → upd l w = some t → ∀ x, u (t x) = t (u x))
    {k l : Text} (h : k ≠ l) (x : σ) (v w : Val) : ((f x k v).bind fun y => f y l w) = (f x l w).bind fun y => f y k v := by
  simp only [hf]
  cases hu : upd k v with
  | none => cases upd l w <;> rfl
  | some u =>
    cases ht : upd l w with
    | none => rfl
    | some t => simp [hc k l h v w u t hu ht x]

/-- The assignments of a list of distinct names may be made in any order. -/
theorem fold_perm (hf : ∀ x k v, f x k v = (upd k v).map fun u => u x)
    (hc : ∀ k l, k ≠ l → ∀ v w u t, upd k v = some u → upd l w = some t → ∀ x, u (t x) = t (u x))
    {kw kw' : Kwargs} (hp : kw.Perm kw') : (kw.map Prod.fst).Nodup → ∀ x,
      kw.foldlM (fun x p => f x p.1 p.2) x = kw'.foldlM (fun x p => f x p.1 p.2) x := by
  induction hp with
  | nil => intro _ _; rfl
  | cons p _ ih =>
    intro hd x
    rw [List.foldlM_cons, List.foldlM_cons]
    rw [List.map_cons, List.nodup_cons] at hd
    congr 1
    funext y
    exact ih hd.2 y
  | swap p q l =>
    intro hd x
    simp only [List.map_cons, List.nodup_cons, List.mem_cons, not_or] at hd
    simp only [List.foldlM_cons]
    have := commute hf hc hd.1.1 x q.2 p.2
    rw [← bind_assoc, ← bind_assoc]
    exact congrArg (· >>= _) this
  | trans h1 _ ih1 ih2 =>
    intro hd x
    rw [ih1 hd x, ih2 ((h1.map Prod.fst).nodup_iff.1 hd) x]

theorem lookup_of_not_mem {kw : Kwargs} {k : Text} (h : k ∉ kw.map Prod.fst) : kw.lookup k = none := by
  rw [List.lookup_eq_none_iff]
  intro p hp
  simp only [List.mem_map, not_exists, not_and] at h
  have := h p hp
  simpa using fun e => this e.symm

/-- Assigning the names of `names` that a dictionary has. -/
def pass (f : σ → Text → Val → Option σ) (kw : Kwargs) (x : σ) (k : Text) : Option σ :=
  match kw.lookup k with
  | some v => f x k v
  | none => some x

theorem pass_cons_ne {kw : Kwargs} {k n : Text} {v : Val} (h : n ≠ k) (x : σ) : pass f ((k, v) :: kw) x n = pass f kw x n := by
  unfold pass
  rw [List.lookup_cons]
  have : (n == k) = false := by simpa using h
  rw [this]

theorem fold_names_cons (hf : ∀ x k v, f x k v = (upd k v).map fun u => u x)
    (hc : ∀ k l, k ≠ l → ∀ v w u t, upd k v = some u → upd l w = some t → ∀ x, u (t x) = t (u x))
    {kw : Kwargs} {k : Text} {v : Val} (hk : k ∉ kw.map Prod.fst) : ∀ names : List Text, names.Nodup → ∀ x,
      names.foldlM (pass f ((k, v) :: kw)) x =
        if k ∈ names then (f x k v).bind fun y => names.foldlM (pass f kw) y else names.foldlM (pass f kw) x := by
  intro names
  induction names with
  | nil => intro _ x; rfl
  | cons n ns ih =>
    intro hn x
    rw [List.nodup_cons] at hn
    by_cases e : n = k
    · subst e
      have h1 : pass f ((n, v) :: kw) x n = f x n v := by simp [pass]
      have h2 : ∀ y, pass f kw y n = some y := fun y => by simp [pass, lookup_of_not_mem hk]
      rw [if_pos (List.mem_cons_self), List.foldlM_cons, h1]
      show ((f x n v).bind fun y => List.foldlM _ y ns) = _
      congr 1
      funext y
      rw [List.foldlM_cons, h2, ih hn.2 y, if_neg hn.1]
      rfl
    · rw [List.foldlM_cons, pass_cons_ne e]
      have hm : k ∈ n :: ns ↔ k ∈ ns := by simp [Ne.symm e]
      by_cases hk' : k ∈ ns
      · rw [if_pos (hm.2 hk')]
        simp only [ih hn.2, if_pos hk', List.foldlM_cons]
        have key : ((pass f kw x n).bind fun y => f y k v) = (f x k v).bind fun y => pass f kw y n := by
          unfold pass
          cases kw.lookup n with
          | none => simp
          | some w => exact commute hf hc e x w v
        show ((pass f kw x n).bind fun y => (f y k v).bind fun z => List.foldlM _ z ns) =
          (f x k v).bind fun y => (pass f kw y n).bind fun z => List.foldlM _ z ns
        rw [← Option.bind_assoc, key, Option.bind_assoc]
      · rw [if_neg (fun h => hk' (hm.1 h)), List.foldlM_cons]
        congr 1
        funext y
        rw [ih hn.2 y, if_neg hk']

/-- Assigning all the items of a dictionary is the same as going through the names and assigning those that the dictionary has. -/
theorem fold_names (hf : ∀ x k v, f x k v = (upd k v).map fun u => u x)
    (hc : ∀ k l, k ≠ l → ∀ v w u t, upd k v = some u → upd l w = some t → ∀ x, u (t x) = t (u x))
    {names : List Text} (hn : names.Nodup) (hid : ∀ x k v, k ∉ names → f x k v = some x) {kw : Kwargs} :
    (kw.map Prod.fst).Nodup → ∀ x, kw.foldlM (fun x p => f x p.1 p.2) x = names.foldlM (pass f kw) x := by
  induction kw with
  | nil =>
    intro _ x
    have : pass f [] = fun x _ => some x := rfl
    rw [this]
    clear hid hn
    induction names with
    | nil => rfl
    | cons n ns ih => rw [List.foldlM_cons]; exact ih
  | cons p kw ih =>
    intro hd x
    rw [List.map_cons, List.nodup_cons] at hd
    rw [List.foldlM_cons, fold_names_cons hf hc hd.1 names hn x]
    split
    · show ((f x p.1 p.2).bind fun y => List.foldlM _ y kw) = _
      congr 1
      funext y
      exact ih hd.2 y
    · rename_i h
      rw [hid x p.1 p.2 h]
      exact ih hd.2 x

end

/-- `a` is the value given for `key`, or the initial value `d` if none is given. -/
def Given {α : Type} (kw : Kwargs) (key : String) (f : Val → Option α) (d a : α) : Prop :=
  match kw.lookup key.toList with
  | some v => f v = some a
  | none => a = d

theorem ifGiven_iff {α σ : Type} {kw : Kwargs} {key : String} {f : Val → Option α} {set : σ → α → σ} {x y : σ} {d : α}
    (hd : set x d = x) :
    ifGiven kw key (fun x v => (f v).map fun a => set x a) x = some y ↔ ∃ a, Given kw key f d a ∧ y = set x a := by
  unfold ifGiven Given
  cases kw.lookup key.toList with
  | none =>
    constructor
    · intro h; cases h; exact ⟨d, rfl, hd.symm⟩
    · rintro ⟨a, rfl, rfl⟩; exact congrArg some hd.symm
  | some v =>
    show (f v).map _ = some y ↔ _
    rw [Option.map_eq_some_iff]
    constructor
    · rintro ⟨a, h1, h2⟩; exact ⟨a, h1, h2.symm⟩
    · rintro ⟨a, h1, h2⟩; exact ⟨a, h1, h2.symm⟩

theorem ifGivenNotNone_iff {α σ : Type} {kw : Kwargs} {key : String} {f : Val → Option α} {set : σ → Option α → σ} {x y : σ}
    (hd : set x none = x) :
    ifGivenNotNone kw key (fun x v => (f v).map fun a => set x (some a)) x = some y ↔
      ∃ o, Given kw key (asOptional f) none o ∧ y = set x o := by
  unfold ifGivenNotNone Given
  cases kw.lookup key.toList with
  | none =>
    constructor
    · intro h; cases h; exact ⟨none, rfl, hd.symm⟩
    · rintro ⟨a, rfl, rfl⟩; exact congrArg some hd.symm
  | some v =>
    have other : v ≠ .none → ((f v).map (fun a => set x (some a)) = some y ↔ ∃ o, asOptional f v = some o ∧ y = set x o) := by
      intro hv
      have : asOptional f v = (f v).map some := by cases v <;> first | exact absurd rfl hv | rfl
      rw [this]
      simp only [Option.map_eq_some_iff]
      constructor
      · rintro ⟨a, h1, h2⟩; exact ⟨some a, ⟨a, h1, rfl⟩, h2.symm⟩
      · rintro ⟨o, ⟨a, h1, rfl⟩, h2⟩; exact ⟨a, h1, h2.symm⟩
    cases v with
    | none =>
      constructor
      · intro h; cases h; exact ⟨none, rfl, hd.symm⟩
      · rintro ⟨a, h1, rfl⟩
        cases h1
        exact congrArg some hd.symm
    | _ => exact other (by simp)

/-- What `StreamSettings(**kw)` makes. -/
theorem initStream_iff {kw : Kwargs} {s : Settings} : initStream kw = some s ↔
    Given kw "store_path" asText [] s.storePath ∧ Given kw "custom_metadata" (asOptional asText) none s.customMetadata ∧
    Given kw "s3" (asOptional asS3) none s.s3 ∧ Given kw "compression" (asOptional asCompression) none s.compression ∧
    Given kw "dimensions" asVector [] s.dimensions ∧ Given kw "multiscale" asBool false s.multiscale ∧
    Given kw "data_type" (asEnum .dataType) 0 s.dataType ∧ Given kw "version" (asEnum .zarrVersion) 2 s.version := by
  unfold initStream Settings.initial
  constructor
  · intro h
    obtain ⟨x1, h1, h⟩ := Option.bind_eq_some_iff.1 h
    obtain ⟨a1, g1, rfl⟩ := (ifGiven_iff (d := []) rfl).1 h1
    obtain ⟨x2, h2, h⟩ := Option.bind_eq_some_iff.1 h
    obtain ⟨a2, g2, rfl⟩ := (ifGivenNotNone_iff (set := fun (x : Settings) a => { x with customMetadata := a }) rfl).1 h2
    obtain ⟨x3, h3, h⟩ := Option.bind_eq_some_iff.1 h
    obtain ⟨a3, g3, rfl⟩ := (ifGivenNotNone_iff (set := fun (x : Settings) a => { x with s3 := a }) rfl).1 h3
    obtain ⟨x4, h4, h⟩ := Option.bind_eq_some_iff.1 h
    obtain ⟨a4, g4, rfl⟩ := (ifGivenNotNone_iff (set := fun (x : Settings) a => { x with compression := a }) rfl).1 h4
    obtain ⟨x5, h5, h⟩ := Option.bind_eq_some_iff.1 h
    obtain ⟨a5, g5, rfl⟩ := (ifGiven_iff (d := []) rfl).1 h5
    obtain ⟨x6, h6, h⟩ := Option.bind_eq_some_iff.1 h
    obtain ⟨a6, g6, rfl⟩ := (ifGiven_iff (d := false) rfl).1 h6
    obtain ⟨x7, h7, h⟩ := Option.bind_eq_some_iff.1 h
    obtain ⟨a7, g7, rfl⟩ := (ifGiven_iff (d := 0) rfl).1 h7
    obtain ⟨a8, g8, rfl⟩ := (ifGiven_iff (d := 2) rfl).1 h
    exact ⟨g1, g2, g3, g4, g5, g6, g7, g8⟩
  · rintro ⟨g1, g2, g3, g4, g5, g6, g7, g8⟩
    refine Option.bind_eq_some_iff.2 ⟨_, (ifGiven_iff (d := []) rfl).2 ⟨_, g1, rfl⟩, ?_⟩
    refine Option.bind_eq_some_iff.2 ⟨_, (ifGivenNotNone_iff (set := fun (x : Settings) a => { x with customMetadata := a }) rfl).2 ⟨_, g2, rfl⟩, ?_⟩
    refine Option.bind_eq_some_iff.2 ⟨_, (ifGivenNotNone_iff (set := fun (x : Settings) a => { x with s3 := a }) rfl).2 ⟨_, g3, rfl⟩, ?_⟩
    refine Option.bind_eq_some_iff.2 ⟨_, (ifGivenNotNone_iff (set := fun (x : Settings) a => { x with compression := a }) rfl).2 ⟨_, g4, rfl⟩, ?_⟩
    refine Option.bind_eq_some_iff.2 ⟨_, (ifGiven_iff (d := []) rfl).2 ⟨_, g5, rfl⟩, ?_⟩
    refine Option.bind_eq_some_iff.2 ⟨_, (ifGiven_iff (d := false) rfl).2 ⟨_, g6, rfl⟩, ?_⟩
    refine Option.bind_eq_some_iff.2 ⟨_, (ifGiven_iff (d := 0) rfl).2 ⟨_, g7, rfl⟩, ?_⟩
    exact (ifGiven_iff (d := 2) rfl).2 ⟨_, g8, rfl⟩

/-- What `S3Settings(**kw)` makes. -/
theorem initS3_iff {kw : Kwargs} {x : S3} : initS3 kw = some x ↔
    Given kw "endpoint" asText [] x.endpoint ∧ Given kw "bucket_name" asText [] x.bucketName ∧
    Given kw "access_key_id" asText [] x.accessKeyId ∧ Given kw "secret_access_key" asText [] x.secretAccessKey := by
  unfold initS3
  constructor
  · intro h
    obtain ⟨x1, h1, h⟩ := Option.bind_eq_some_iff.1 h
    obtain ⟨a1, g1, rfl⟩ := (ifGiven_iff (d := []) rfl).1 h1
    obtain ⟨x2, h2, h⟩ := Option.bind_eq_some_iff.1 h
    obtain ⟨a2, g2, rfl⟩ := (ifGiven_iff (d := []) rfl).1 h2
    obtain ⟨x3, h3, h⟩ := Option.bind_eq_some_iff.1 h
    obtain ⟨a3, g3, rfl⟩ := (ifGiven_iff (d := []) rfl).1 h3
    obtain ⟨a4, g4, rfl⟩ := (ifGiven_iff (d := []) rfl).1 h
    exact ⟨g1, g2, g3, g4⟩
  · rintro ⟨g1, g2, g3, g4⟩
    refine Option.bind_eq_some_iff.2 ⟨_, (ifGiven_iff (d := []) rfl).2 ⟨_, g1, rfl⟩, ?_⟩
    refine Option.bind_eq_some_iff.2 ⟨_, (ifGiven_iff (d := []) rfl).2 ⟨_, g2, rfl⟩, ?_⟩
    refine Option.bind_eq_some_iff.2 ⟨_, (ifGiven_iff (d := []) rfl).2 ⟨_, g3, rfl⟩, ?_⟩
    exact (ifGiven_iff (d := []) rfl).2 ⟨_, g4, rfl⟩

/-- What `CompressionSettings(**kw)` makes. -/
theorem initCompression_iff {kw : Kwargs} {x : Compression} : initCompression kw = some x ↔
    Given kw "compressor" (asEnum .compressor) 0 x.compressor ∧ Given kw "codec" (asEnum .compressionCodec) 0 x.codec ∧
    Given kw "level" (asUnsigned 8) 0 x.level ∧ Given kw "shuffle" (asUnsigned 8) 0 x.shuffle := by
  unfold initCompression
  constructor
  · intro h
    obtain ⟨x1, h1, h⟩ := Option.bind_eq_some_iff.1 h
    obtain ⟨a1, g1, rfl⟩ := (ifGiven_iff (d := 0) rfl).1 h1
    obtain ⟨x2, h2, h⟩ := Option.bind_eq_some_iff.1 h
    obtain ⟨a2, g2, rfl⟩ := (ifGiven_iff (d := 0) rfl).1 h2
    obtain ⟨x3, h3, h⟩ := Option.bind_eq_some_iff.1 h
    obtain ⟨a3, g3, rfl⟩ := (ifGiven_iff (d := 0) rfl).1 h3
    obtain ⟨a4, g4, rfl⟩ := (ifGiven_iff (d := 0) rfl).1 h
    exact ⟨g1, g2, g3, g4⟩
  · rintro ⟨g1, g2, g3, g4⟩
    refine Option.bind_eq_some_iff.2 ⟨_, (ifGiven_iff (d := 0) rfl).2 ⟨_, g1, rfl⟩, ?_⟩
    refine Option.bind_eq_some_iff.2 ⟨_, (ifGiven_iff (d := 0) rfl).2 ⟨_, g2, rfl⟩, ?_⟩
    refine Option.bind_eq_some_iff.2 ⟨_, (ifGiven_iff (d := 0) rfl).2 ⟨_, g3, rfl⟩, ?_⟩
    exact (ifGiven_iff (d := 0) rfl).2 ⟨_, g4, rfl⟩

/-- What `Dimension(**kw)` makes. -/
theorem initDimension_iff {kw : Kwargs} {x : Dimension} : initDimension kw = some x ↔
    Given kw "name" asText [] x.name ∧ Given kw "kind" (asEnum .dimensionType) 0 x.kind ∧
    Given kw "array_size_px" (asUnsigned 32) 0 x.arraySize ∧ Given kw "chunk_size_px" (asUnsigned 32) 0 x.chunkSize ∧
    Given kw "shard_size_chunks" (asUnsigned 32) 0 x.shardSize := by
  unfold initDimension
  constructor
  · intro h
    obtain ⟨x1, h1, h⟩ := Option.bind_eq_some_iff.1 h
    obtain ⟨a1, g1, rfl⟩ := (ifGiven_iff (d := []) rfl).1 h1
    obtain ⟨x2, h2, h⟩ := Option.bind_eq_some_iff.1 h
    obtain ⟨a2, g2, rfl⟩ := (ifGiven_iff (d := 0) rfl).1 h2
    obtain ⟨x3, h3, h⟩ := Option.bind_eq_some_iff.1 h
    obtain ⟨a3, g3, rfl⟩ := (ifGiven_iff (d := 0) rfl).1 h3
    obtain ⟨x4, h4, h⟩ := Option.bind_eq_some_iff.1 h
    obtain ⟨a4, g4, rfl⟩ := (ifGiven_iff (d := 0) rfl).1 h4
    obtain ⟨a5, g5, rfl⟩ := (ifGiven_iff (d := 0) rfl).1 h
    exact ⟨g1, g2, g3, g4, g5⟩
  · rintro ⟨g1, g2, g3, g4, g5⟩
    refine Option.bind_eq_some_iff.2 ⟨_, (ifGiven_iff (d := []) rfl).2 ⟨_, g1, rfl⟩, ?_⟩
    refine Option.bind_eq_some_iff.2 ⟨_, (ifGiven_iff (d := 0) rfl).2 ⟨_, g2, rfl⟩, ?_⟩
    refine Option.bind_eq_some_iff.2 ⟨_, (ifGiven_iff (d := 0) rfl).2 ⟨_, g3, rfl⟩, ?_⟩
    refine Option.bind_eq_some_iff.2 ⟨_, (ifGiven_iff (d := 0) rfl).2 ⟨_, g4, rfl⟩, ?_⟩
    exact (ifGiven_iff (d := 0) rfl).2 ⟨_, g5, rfl⟩

/-! ### The attribute setters -/

/-- One step of `pass` for a name that `f` treats by storing a converted value. -/
theorem pass_iff {α σ : Type} {g : σ → Text → Val → Option σ} {kw : Kwargs} {key : String} {f : Val → Option α} {set : σ → α → σ} {x y : σ} {d : α}
    (hg : ∀ x v, g x key.toList v = (f v).map fun a => set x a) (hd : set x d = x) :
    pass g kw x key.toList = some y ↔ ∃ a, Given kw key f d a ∧ y = set x a := by
  rw [← ifGiven_iff hd]
  unfold pass ifGiven
  cases kw.lookup key.toList <;> simp [hg]

/-! ### `Settings` -/

/-- The attributes of the class. -/
def namesStream : List Text := ["store_path".toList, "custom_metadata".toList, "s3".toList, "compression".toList, "dimensions".toList, "multiscale".toList, "data_type".toList, "version".toList]

/-- What an assignment to `name` does to the object. -/
def updStream (name : Text) (v : Val) : Option (Settings → Settings) :=
  if name = "store_path".toList then (asText v).map fun a x => { x with storePath := a }
  else if name = "custom_metadata".toList then (asOptional asText v).map fun a x => { x with customMetadata := a }
  else if name = "s3".toList then (asOptional asS3 v).map fun a x => { x with s3 := a }
  else if name = "compression".toList then (asOptional asCompression v).map fun a x => { x with compression := a }
  else if name = "dimensions".toList then (asVector v).map fun a x => { x with dimensions := a }
  else if name = "multiscale".toList then (asBool v).map fun a x => { x with multiscale := a }
  else if name = "data_type".toList then (asEnum .dataType v).map fun a x => { x with dataType := a }
  else if name = "version".toList then (asEnum .zarrVersion v).map fun a x => { x with version := a }
  else some id

theorem updStream_spec (x : Settings) (name : Text) (v : Val) : setStream x name v = (updStream name v).map fun u => u x := by
  unfold setStream updStream
  iterate 8 (split; · rw [Option.map_map]; rfl)
  rfl

theorem setStream_storePath (x : Settings) (v : Val) : setStream x "store_path".toList v = (asText v).map fun a => { x with storePath := a } := by
  unfold setStream
  rw [if_pos rfl]

theorem updStream_storePath (v : Val) : updStream "store_path".toList v = (asText v).map fun a (x : Settings) => { x with storePath := a } := by
  unfold updStream
  rw [if_pos rfl]

theorem setStream_customMetadata (x : Settings) (v : Val) : setStream x "custom_metadata".toList v = (asOptional asText v).map fun a => { x with customMetadata := a } := by
  unfold setStream
  rw [if_neg (by decide)]
  rw [if_pos rfl]

theorem updStream_customMetadata (v : Val) : updStream "custom_metadata".toList v = (asOptional asText v).map fun a (x : Settings) => { x with customMetadata := a } := by
  unfold updStream
  rw [if_neg (by decide)]
  rw [if_pos rfl]

theorem setStream_s3 (x : Settings) (v : Val) : setStream x "s3".toList v = (asOptional asS3 v).map fun a => { x with s3 := a } := by
  unfold setStream
  rw [if_neg (by decide)]
  rw [if_neg (by decide)]
  rw [if_pos rfl]

theorem updStream_s3 (v : Val) : updStream "s3".toList v = (asOptional asS3 v).map fun a (x : Settings) => { x with s3 := a } := by
  unfold updStream
  rw [if_neg (by decide)]
  rw [if_neg (by decide)]
  rw [if_pos rfl]

theorem setStream_compression (x : Settings) (v : Val) : setStream x "compression".toList v = (asOptional asCompression v).map fun a => { x with compression := a } := by
  unfold setStream
  rw [if_neg (by decide)]
  rw [if_neg (by decide)]
  rw [if_neg (by decide)]
  rw [if_pos rfl]

theorem updStream_compression (v : Val) : updStream "compression".toList v = (asOptional asCompression v).map fun a (x : Settings) => { x with compression := a } := by
  unfold updStream
  rw [if_neg (by decide)]
  rw [if_neg (by decide)]
  rw [if_neg (by decide)]
  rw [if_pos rfl]

theorem setStream_dimensions (x : Settings) (v : Val) : setStream x "dimensions".toList v = (asVector v).map fun a => { x with dimensions := a } := by
  unfold setStream
  rw [if_neg (by decide)]
  rw [if_neg (by decide)]
  rw [if_neg (by decide)]
  rw [if_neg (by decide)]
  rw [if_pos rfl]

theorem updStream_dimensions (v : Val) : updStream "dimensions".toList v = (asVector v).map fun a (x : Settings) => { x with dimensions := a } := by
  unfold updStream
  rw [if_neg (by decide)]
  rw [if_neg (by decide)]
  rw [if_neg (by decide)]
  rw [if_neg (by decide)]
  rw [if_pos rfl]

theorem setStream_multiscale (x : Settings) (v : Val) : setStream x "multiscale".toList v = (asBool v).map fun a => { x with multiscale := a } := by
  unfold setStream
  rw [if_neg (by decide)]
  rw [if_neg (by decide)]
  rw [if_neg (by decide)]
  rw [if_neg (by decide)]
  rw [if_neg (by decide)]
  rw [if_pos rfl]

theorem updStream_multiscale (v : Val) : updStream "multiscale".toList v = (asBool v).map fun a (x : Settings) => { x with multiscale := a } := by
  unfold updStream
  rw [if_neg (by decide)]
  rw [if_neg (by decide)]
  rw [if_neg (by decide)]
  rw [if_neg (by decide)]
  rw [if_neg (by decide)]
  rw [if_pos rfl]

theorem setStream_dataType (x : Settings) (v : Val) : setStream x "data_type".toList v = (asEnum .dataType v).map fun a => { x with dataType := a } := by
  unfold setStream
  rw [if_neg (by decide)]
  rw [if_neg (by decide)]
  rw [if_neg (by decide)]
  rw [if_neg (by decide)]
  rw [if_neg (by decide)]
  rw [if_neg (by decide)]
  rw [if_pos rfl]

theorem updStream_dataType (v : Val) : updStream "data_type".toList v = (asEnum .dataType v).map fun a (x : Settings) => { x with dataType := a } := by
  unfold updStream
  rw [if_neg (by decide)]
  rw [if_neg (by decide)]
  rw [if_neg (by decide)]
  rw [if_neg (by decide)]
  rw [if_neg (by decide)]
  rw [if_neg (by decide)]
  rw [if_pos rfl]

theorem setStream_version (x : Settings) (v : Val) : setStream x "version".toList v = (asEnum .zarrVersion v).map fun a => { x with version := a } := by
  unfold setStream
  rw [if_neg (by decide)]
  rw [if_neg (by decide)]
  rw [if_neg (by decide)]
  rw [if_neg (by decide)]
  rw [if_neg (by decide)]
  rw [if_neg (by decide)]
  rw [if_neg (by decide)]
  rw [if_pos rfl]

theorem updStream_version (v : Val) : updStream "version".toList v = (asEnum .zarrVersion v).map fun a (x : Settings) => { x with version := a } := by
  unfold updStream
  rw [if_neg (by decide)]
  rw [if_neg (by decide)]
  rw [if_neg (by decide)]
  rw [if_neg (by decide)]
  rw [if_neg (by decide)]
  rw [if_neg (by decide)]
  rw [if_neg (by decide)]
  rw [if_pos rfl]

theorem updStream_other {name : Text} (h : name ∉ namesStream) (v : Val) : updStream name v = some id := by
  unfold namesStream at h
  simp only [List.mem_cons, List.not_mem_nil, or_false, not_or] at h
  obtain ⟨h0, h1, h2, h3, h4, h5, h6, h7⟩ := h
  unfold updStream
  rw [if_neg h0, if_neg h1, if_neg h2, if_neg h3, if_neg h4, if_neg h5, if_neg h6, if_neg h7]

theorem setStream_other {name : Text} (h : name ∉ namesStream) (x : Settings) (v : Val) : setStream x name v = some x := by
  rw [updStream_spec, updStream_other h]; rfl

theorem updStream_cases {k : Text} {v : Val} {u : Settings → Settings} (h : updStream k v = some u) :
    (k = "store_path".toList ∧ ∃ a, u = fun x => { x with storePath := a }) ∨ (k = "custom_metadata".toList ∧ ∃ a, u = fun x => { x with customMetadata := a }) ∨ (k = "s3".toList ∧ ∃ a, u = fun x => { x with s3 := a }) ∨ (k = "compression".toList ∧ ∃ a, u = fun x => { x with compression := a }) ∨ (k = "dimensions".toList ∧ ∃ a, u = fun x => { x with dimensions := a }) ∨ (k = "multiscale".toList ∧ ∃ a, u = fun x => { x with multiscale := a }) ∨ (k = "data_type".toList ∧ ∃ a, u = fun x => { x with dataType := a }) ∨ (k = "version".toList ∧ ∃ a, u = fun x => { x with version := a }) ∨ u = id := by
  unfold updStream at h
  repeat' split at h
  · obtain ⟨a, _, e⟩ := Option.map_eq_some_iff.1 h
    exact Or.inl ⟨by assumption, a, e.symm⟩
  · obtain ⟨a, _, e⟩ := Option.map_eq_some_iff.1 h
    exact Or.inr (Or.inl ⟨by assumption, a, e.symm⟩)
  · obtain ⟨a, _, e⟩ := Option.map_eq_some_iff.1 h
    exact Or.inr (Or.inr (Or.inl ⟨by assumption, a, e.symm⟩))
  · obtain ⟨a, _, e⟩ := Option.map_eq_some_iff.1 h
    exact Or.inr (Or.inr (Or.inr (Or.inl ⟨by assumption, a, e.symm⟩)))
  · obtain ⟨a, _, e⟩ := Option.map_eq_some_iff.1 h
    exact Or.inr (Or.inr (Or.inr (Or.inr (Or.inl ⟨by assumption, a, e.symm⟩))))
  · obtain ⟨a, _, e⟩ := Option.map_eq_some_iff.1 h
    exact Or.inr (Or.inr (Or.inr (Or.inr (Or.inr (Or.inl ⟨by assumption, a, e.symm⟩)))))
  · obtain ⟨a, _, e⟩ := Option.map_eq_some_iff.1 h
    exact Or.inr (Or.inr (Or.inr (Or.inr (Or.inr (Or.inr (Or.inl ⟨by assumption, a, e.symm⟩))))))
  · obtain ⟨a, _, e⟩ := Option.map_eq_some_iff.1 h
    exact Or.inr (Or.inr (Or.inr (Or.inr (Or.inr (Or.inr (Or.inr (Or.inl ⟨by assumption, a, e.symm⟩)))))))
  · exact Or.inr (Or.inr (Or.inr (Or.inr (Or.inr (Or.inr (Or.inr (Or.inr (Option.some.inj h).symm)))))))

theorem updStream_comm (k l : Text) (hkl : k ≠ l) (v w : Val) (u t : Settings → Settings) (hu : updStream k v = some u) (ht : updStream l w = some t)
    (x : Settings) : u (t x) = t (u x) := by
  rcases updStream_cases hu with ⟨e1, a, rfl⟩ | ⟨e1, a, rfl⟩ | ⟨e1, a, rfl⟩ | ⟨e1, a, rfl⟩ | ⟨e1, a, rfl⟩ | ⟨e1, a, rfl⟩ | ⟨e1, a, rfl⟩ | ⟨e1, a, rfl⟩ | rfl <;>
  rcases updStream_cases ht with ⟨e2, b, rfl⟩ | ⟨e2, b, rfl⟩ | ⟨e2, b, rfl⟩ | ⟨e2, b, rfl⟩ | ⟨e2, b, rfl⟩ | ⟨e2, b, rfl⟩ | ⟨e2, b, rfl⟩ | ⟨e2, b, rfl⟩ | rfl <;>
  first
    | rfl
    | exact absurd (e1.trans e2.symm) hkl

theorem passStream_iff {kw : Kwargs} {x : Settings} : namesStream.foldlM (pass setStream kw) Settings.initial = some x ↔
    Given kw "store_path" asText [] x.storePath ∧ Given kw "custom_metadata" (asOptional asText) none x.customMetadata ∧ Given kw "s3" (asOptional asS3) none x.s3 ∧ Given kw "compression" (asOptional asCompression) none x.compression ∧ Given kw "dimensions" asVector [] x.dimensions ∧ Given kw "multiscale" asBool false x.multiscale ∧ Given kw "data_type" (asEnum .dataType) 0 x.dataType ∧ Given kw "version" (asEnum .zarrVersion) 2 x.version := by
  unfold namesStream Settings.initial
  simp only [List.foldlM_cons, List.foldlM_nil, Option.bind_eq_bind, Option.pure_def, Option.bind_some]
  constructor
  · intro h
    obtain ⟨x0, h0, h⟩ := Option.bind_eq_some_iff.1 h
    obtain ⟨a0, g0, rfl⟩ := (pass_iff (d := []) setStream_storePath rfl).1 h0
    obtain ⟨x1, h1, h⟩ := Option.bind_eq_some_iff.1 h
    obtain ⟨a1, g1, rfl⟩ := (pass_iff (d := none) setStream_customMetadata rfl).1 h1
    obtain ⟨x2, h2, h⟩ := Option.bind_eq_some_iff.1 h
    obtain ⟨a2, g2, rfl⟩ := (pass_iff (d := none) setStream_s3 rfl).1 h2
    obtain ⟨x3, h3, h⟩ := Option.bind_eq_some_iff.1 h
    obtain ⟨a3, g3, rfl⟩ := (pass_iff (d := none) setStream_compression rfl).1 h3
    obtain ⟨x4, h4, h⟩ := Option.bind_eq_some_iff.1 h
    obtain ⟨a4, g4, rfl⟩ := (pass_iff (d := []) setStream_dimensions rfl).1 h4
    obtain ⟨x5, h5, h⟩ := Option.bind_eq_some_iff.1 h
    obtain ⟨a5, g5, rfl⟩ := (pass_iff (d := false) setStream_multiscale rfl).1 h5
    obtain ⟨x6, h6, h⟩ := Option.bind_eq_some_iff.1 h
    obtain ⟨a6, g6, rfl⟩ := (pass_iff (d := 0) setStream_dataType rfl).1 h6
    obtain ⟨x7, h7, h⟩ := Option.bind_eq_some_iff.1 h
    obtain ⟨a7, g7, rfl⟩ := (pass_iff (d := 2) setStream_version rfl).1 h7
    cases h
    exact ⟨g0, g1, g2, g3, g4, g5, g6, g7⟩
  · rintro ⟨g0, g1, g2, g3, g4, g5, g6, g7⟩
    refine Option.bind_eq_some_iff.2 ⟨_, (pass_iff (d := []) setStream_storePath rfl).2 ⟨_, g0, rfl⟩, ?_⟩
    refine Option.bind_eq_some_iff.2 ⟨_, (pass_iff (d := none) setStream_customMetadata rfl).2 ⟨_, g1, rfl⟩, ?_⟩
    refine Option.bind_eq_some_iff.2 ⟨_, (pass_iff (d := none) setStream_s3 rfl).2 ⟨_, g2, rfl⟩, ?_⟩
    refine Option.bind_eq_some_iff.2 ⟨_, (pass_iff (d := none) setStream_compression rfl).2 ⟨_, g3, rfl⟩, ?_⟩
    refine Option.bind_eq_some_iff.2 ⟨_, (pass_iff (d := []) setStream_dimensions rfl).2 ⟨_, g4, rfl⟩, ?_⟩
    refine Option.bind_eq_some_iff.2 ⟨_, (pass_iff (d := false) setStream_multiscale rfl).2 ⟨_, g5, rfl⟩, ?_⟩
    refine Option.bind_eq_some_iff.2 ⟨_, (pass_iff (d := 0) setStream_dataType rfl).2 ⟨_, g6, rfl⟩, ?_⟩
    refine Option.bind_eq_some_iff.2 ⟨_, (pass_iff (d := 2) setStream_version rfl).2 ⟨_, g7, rfl⟩, ?_⟩
    rfl

theorem initStream_fold {kw kw' : Kwargs} (hd : (kw.map Prod.fst).Nodup) (hp : kw.Perm kw') :
    initStream kw = kw'.foldlM (fun x p => setStream x p.1 p.2) Settings.initial := by
  rw [← fold_perm updStream_spec updStream_comm hp hd, fold_names updStream_spec updStream_comm (names := namesStream) (by decide)
    (fun x k v h => setStream_other h x v) hd]
  apply Option.ext
  intro s
  rw [initStream_iff, passStream_iff]

/-! ### `S3` -/

/-- The attributes of the class. -/
def namesS3 : List Text := ["endpoint".toList, "bucket_name".toList, "access_key_id".toList, "secret_access_key".toList]

/-- What an assignment to `name` does to the object. -/
def updS3 (name : Text) (v : Val) : Option (S3 → S3) :=
  if name = "endpoint".toList then (asText v).map fun a x => { x with endpoint := a }
  else if name = "bucket_name".toList then (asText v).map fun a x => { x with bucketName := a }
  else if name = "access_key_id".toList then (asText v).map fun a x => { x with accessKeyId := a }
  else if name = "secret_access_key".toList then (asText v).map fun a x => { x with secretAccessKey := a }
  else some id

theorem updS3_spec (x : S3) (name : Text) (v : Val) : setS3 x name v = (updS3 name v).map fun u => u x := by
  unfold setS3 updS3
  iterate 4 (split; · rw [Option.map_map]; rfl)
  rfl

theorem setS3_endpoint (x : S3) (v : Val) : setS3 x "endpoint".toList v = (asText v).map fun a => { x with endpoint := a } := by
  unfold setS3
  rw [if_pos rfl]

theorem updS3_endpoint (v : Val) : updS3 "endpoint".toList v = (asText v).map fun a (x : S3) => { x with endpoint := a } := by
  unfold updS3
  rw [if_pos rfl]

theorem setS3_bucketName (x : S3) (v : Val) : setS3 x "bucket_name".toList v = (asText v).map fun a => { x with bucketName := a } := by
  unfold setS3
  rw [if_neg (by decide)]
  rw [if_pos rfl]

theorem updS3_bucketName (v : Val) : updS3 "bucket_name".toList v = (asText v).map fun a (x : S3) => { x with bucketName := a } := by
  unfold updS3
  rw [if_neg (by decide)]
  rw [if_pos rfl]

theorem setS3_accessKeyId (x : S3) (v : Val) : setS3 x "access_key_id".toList v = (asText v).map fun a => { x with accessKeyId := a } := by
  unfold setS3
  rw [if_neg (by decide)]
  rw [if_neg (by decide)]
  rw [if_pos rfl]

theorem updS3_accessKeyId (v : Val) : updS3 "access_key_id".toList v = (asText v).map fun a (x : S3) => { x with accessKeyId := a } := by
  unfold updS3
  rw [if_neg (by decide)]
  rw [if_neg (by decide)]
  rw [if_pos rfl]

theorem setS3_secretAccessKey (x : S3) (v : Val) : setS3 x "secret_access_key".toList v = (asText v).map fun a => { x with secretAccessKey := a } := by
  unfold setS3
  rw [if_neg (by decide)]
  rw [if_neg (by decide)]
  rw [if_neg (by decide)]
  rw [if_pos rfl]

theorem updS3_secretAccessKey (v : Val) : updS3 "secret_access_key".toList v = (asText v).map fun a (x : S3) => { x with secretAccessKey := a } := by
  unfold updS3
  rw [if_neg (by decide)]
  rw [if_neg (by decide)]
  rw [if_neg (by decide)]
  rw [if_pos rfl]

theorem updS3_other {name : Text} (h : name ∉ namesS3) (v : Val) : updS3 name v = some id := by
  unfold namesS3 at h
  simp only [List.mem_cons, List.not_mem_nil, or_false, not_or] at h
  obtain ⟨h0, h1, h2, h3⟩ := h
  unfold updS3
  rw [if_neg h0, if_neg h1, if_neg h2, if_neg h3]

theorem setS3_other {name : Text} (h : name ∉ namesS3) (x : S3) (v : Val) : setS3 x name v = some x := by
  rw [updS3_spec, updS3_other h]; rfl

theorem updS3_cases {k : Text} {v : Val} {u : S3 → S3} (h : updS3 k v = some u) :
    (k = "endpoint".toList ∧ ∃ a, u = fun x => { x with endpoint := a }) ∨ (k = "bucket_name".toList ∧ ∃ a, u = fun x => { x with bucketName := a }) ∨ (k = "access_key_id".toList ∧ ∃ a, u = fun x => { x with accessKeyId := a }) ∨ (k = "secret_access_key".toList ∧ ∃ a, u = fun x => { x with secretAccessKey := a }) ∨ u = id := by
  unfold updS3 at h
  repeat' split at h
  · obtain ⟨a, _, e⟩ := Option.map_eq_some_iff.1 h
    exact Or.inl ⟨by assumption, a, e.symm⟩
  · obtain ⟨a, _, e⟩ := Option.map_eq_some_iff.1 h
    exact Or.inr (Or.inl ⟨by assumption, a, e.symm⟩)
  · obtain ⟨a, _, e⟩ := Option.map_eq_some_iff.1 h
    exact Or.inr (Or.inr (Or.inl ⟨by assumption, a, e.symm⟩))
  · obtain ⟨a, _, e⟩ := Option.map_eq_some_iff.1 h
    exact Or.inr (Or.inr (Or.inr (Or.inl ⟨by assumption, a, e.symm⟩)))
  · exact Or.inr (Or.inr (Or.inr (Or.inr (Option.some.inj h).symm)))

theorem updS3_comm (k l : Text) (hkl : k ≠ l) (v w : Val) (u t : S3 → S3) (hu : updS3 k v = some u) (ht : updS3 l w = some t)
    (x : S3) : u (t x) = t (u x) := by
  rcases updS3_cases hu with ⟨e1, a, rfl⟩ | ⟨e1, a, rfl⟩ | ⟨e1, a, rfl⟩ | ⟨e1, a, rfl⟩ | rfl <;>
  rcases updS3_cases ht with ⟨e2, b, rfl⟩ | ⟨e2, b, rfl⟩ | ⟨e2, b, rfl⟩ | ⟨e2, b, rfl⟩ | rfl <;>
  first
    | rfl
    | exact absurd (e1.trans e2.symm) hkl

theorem passS3_iff {kw : Kwargs} {x : S3} : namesS3.foldlM (pass setS3 kw) ⟨[], [], [], []⟩ = some x ↔
    Given kw "endpoint" asText [] x.endpoint ∧ Given kw "bucket_name" asText [] x.bucketName ∧ Given kw "access_key_id" asText [] x.accessKeyId ∧ Given kw "secret_access_key" asText [] x.secretAccessKey := by
  unfold namesS3
  simp only [List.foldlM_cons, List.foldlM_nil, Option.bind_eq_bind, Option.pure_def, Option.bind_some]
  constructor
  · intro h
    obtain ⟨x0, h0, h⟩ := Option.bind_eq_some_iff.1 h
    obtain ⟨a0, g0, rfl⟩ := (pass_iff (d := []) setS3_endpoint rfl).1 h0
    obtain ⟨x1, h1, h⟩ := Option.bind_eq_some_iff.1 h
    obtain ⟨a1, g1, rfl⟩ := (pass_iff (d := []) setS3_bucketName rfl).1 h1
    obtain ⟨x2, h2, h⟩ := Option.bind_eq_some_iff.1 h
    obtain ⟨a2, g2, rfl⟩ := (pass_iff (d := []) setS3_accessKeyId rfl).1 h2
    obtain ⟨x3, h3, h⟩ := Option.bind_eq_some_iff.1 h
    obtain ⟨a3, g3, rfl⟩ := (pass_iff (d := []) setS3_secretAccessKey rfl).1 h3
    cases h
    exact ⟨g0, g1, g2, g3⟩
  · rintro ⟨g0, g1, g2, g3⟩
    refine Option.bind_eq_some_iff.2 ⟨_, (pass_iff (d := []) setS3_endpoint rfl).2 ⟨_, g0, rfl⟩, ?_⟩
    refine Option.bind_eq_some_iff.2 ⟨_, (pass_iff (d := []) setS3_bucketName rfl).2 ⟨_, g1, rfl⟩, ?_⟩
    refine Option.bind_eq_some_iff.2 ⟨_, (pass_iff (d := []) setS3_accessKeyId rfl).2 ⟨_, g2, rfl⟩, ?_⟩
    refine Option.bind_eq_some_iff.2 ⟨_, (pass_iff (d := []) setS3_secretAccessKey rfl).2 ⟨_, g3, rfl⟩, ?_⟩
    rfl

theorem initS3_fold {kw kw' : Kwargs} (hd : (kw.map Prod.fst).Nodup) (hp : kw.Perm kw') :
    initS3 kw = kw'.foldlM (fun x p => setS3 x p.1 p.2) ⟨[], [], [], []⟩ := by
  rw [← fold_perm updS3_spec updS3_comm hp hd, fold_names updS3_spec updS3_comm (names := namesS3) (by decide)
    (fun x k v h => setS3_other h x v) hd]
  apply Option.ext
  intro s
  rw [initS3_iff, passS3_iff]

/-! ### `Compression` -/

/-- The attributes of the class. -/
def namesCompression : List Text := ["compressor".toList, "codec".toList, "level".toList, "shuffle".toList]

/-- What an assignment to `name` does to the object. -/
def updCompression (name : Text) (v : Val) : Option (Compression → Compression) :=
  if name = "compressor".toList then (asEnum .compressor v).map fun a x => { x with compressor := a }
  else if name = "codec".toList then (asEnum .compressionCodec v).map fun a x => { x with codec := a }
  else if name = "level".toList then (asUnsigned 8 v).map fun a x => { x with level := a }
  else if name = "shuffle".toList then (asUnsigned 8 v).map fun a x => { x with shuffle := a }
  else some id

theorem updCompression_spec (x : Compression) (name : Text) (v : Val) : setCompression x name v = (updCompression name v).map fun u => u x := by
  unfold setCompression updCompression
  iterate 4 (split; · rw [Option.map_map]; rfl)
  rfl

theorem setCompression_compressor (x : Compression) (v : Val) : setCompression x "compressor".toList v = (asEnum .compressor v).map fun a => { x with compressor := a } := by
  unfold setCompression
  rw [if_pos rfl]

theorem updCompression_compressor (v : Val) : updCompression "compressor".toList v = (asEnum .compressor v).map fun a (x : Compression) => { x with compressor := a } := by
  unfold updCompression
  rw [if_pos rfl]

theorem setCompression_codec (x : Compression) (v : Val) : setCompression x "codec".toList v = (asEnum .compressionCodec v).map fun a => { x with codec := a } := by
  unfold setCompression
  rw [if_neg (by decide)]
  rw [if_pos rfl]

theorem updCompression_codec (v : Val) : updCompression "codec".toList v = (asEnum .compressionCodec v).map fun a (x : Compression) => { x with codec := a } := by
  unfold updCompression
  rw [if_neg (by decide)]
  rw [if_pos rfl]

theorem setCompression_level (x : Compression) (v : Val) : setCompression x "level".toList v = (asUnsigned 8 v).map fun a => { x with level := a } := by
  unfold setCompression
  rw [if_neg (by decide)]
  rw [if_neg (by decide)]
  rw [if_pos rfl]

theorem updCompression_level (v : Val) : updCompression "level".toList v = (asUnsigned 8 v).map fun a (x : Compression) => { x with level := a } := by
  unfold updCompression
  rw [if_neg (by decide)]
  rw [if_neg (by decide)]
  rw [if_pos rfl]

theorem setCompression_shuffle (x : Compression) (v : Val) : setCompression x "shuffle".toList v = (asUnsigned 8 v).map fun a => { x with shuffle := a } := by
  unfold setCompression
  rw [if_neg (by decide)]
  rw [if_neg (by decide)]
  rw [if_neg (by decide)]
  rw [if_pos rfl]

theorem updCompression_shuffle (v : Val) : updCompression "shuffle".toList v = (asUnsigned 8 v).map fun a (x : Compression) => { x with shuffle := a } := by
  unfold updCompression
  rw [if_neg (by decide)]
  rw [if_neg (by decide)]
  rw [if_neg (by decide)]
  rw [if_pos rfl]

theorem updCompression_other {name : Text} (h : name ∉ namesCompression) (v : Val) : updCompression name v = some id := by
  unfold namesCompression at h
  simp only [List.mem_cons, List.not_mem_nil, or_false, not_or] at h
  obtain ⟨h0, h1, h2, h3⟩ := h
  unfold updCompression
  rw [if_neg h0, if_neg h1, if_neg h2, if_neg h3]

theorem setCompression_other {name : Text} (h : name ∉ namesCompression) (x : Compression) (v : Val) : setCompression x name v = some x := by
  rw [updCompression_spec, updCompression_other h]; rfl

theorem updCompression_cases {k : Text} {v : Val} {u : Compression → Compression} (h : updCompression k v = some u) :
    (k = "compressor".toList ∧ ∃ a, u = fun x => { x with compressor := a }) ∨ (k = "codec".toList ∧ ∃ a, u = fun x => { x with codec := a }) ∨ (k = "level".toList ∧ ∃ a, u = fun x => { x with level := a }) ∨ (k = "shuffle".toList ∧ ∃ a, u = fun x => { x with shuffle := a }) ∨ u = id := by
  unfold updCompression at h
  repeat' split at h
  · obtain ⟨a, _, e⟩ := Option.map_eq_some_iff.1 h
    exact Or.inl ⟨by assumption, a, e.symm⟩
  · obtain ⟨a, _, e⟩ := Option.map_eq_some_iff.1 h
    exact Or.inr (Or.inl ⟨by assumption, a, e.symm⟩)
  · obtain ⟨a, _, e⟩ := Option.map_eq_some_iff.1 h
    exact Or.inr (Or.inr (Or.inl ⟨by assumption, a, e.symm⟩))
  · obtain ⟨a, _, e⟩ := Option.map_eq_some_iff.1 h
    exact Or.inr (Or.inr (Or.inr (Or.inl ⟨by assumption, a, e.symm⟩)))
  · exact Or.inr (Or.inr (Or.inr (Or.inr (Option.some.inj h).symm)))

theorem updCompression_comm (k l : Text) (hkl : k ≠ l) (v w : Val) (u t : Compression → Compression) (hu : updCompression k v = some u) (ht : updCompression l w = some t)
    (x : Compression) : u (t x) = t (u x) := by
  rcases updCompression_cases hu with ⟨e1, a, rfl⟩ | ⟨e1, a, rfl⟩ | ⟨e1, a, rfl⟩ | ⟨e1, a, rfl⟩ | rfl <;>
  rcases updCompression_cases ht with ⟨e2, b, rfl⟩ | ⟨e2, b, rfl⟩ | ⟨e2, b, rfl⟩ | ⟨e2, b, rfl⟩ | rfl <;>
  first
    | rfl
    | exact absurd (e1.trans e2.symm) hkl

theorem passCompression_iff {kw : Kwargs} {x : Compression} : namesCompression.foldlM (pass setCompression kw) ⟨0, 0, 0, 0⟩ = some x ↔
    Given kw "compressor" (asEnum .compressor) 0 x.compressor ∧ Given kw "codec" (asEnum .compressionCodec) 0 x.codec ∧ Given kw "level" (asUnsigned 8) 0 x.level ∧ Given kw "shuffle" (asUnsigned 8) 0 x.shuffle := by
  unfold namesCompression
  simp only [List.foldlM_cons, List.foldlM_nil, Option.bind_eq_bind, Option.pure_def, Option.bind_some]
  constructor
  · intro h
    obtain ⟨x0, h0, h⟩ := Option.bind_eq_some_iff.1 h
    obtain ⟨a0, g0, rfl⟩ := (pass_iff (d := 0) setCompression_compressor rfl).1 h0
    obtain ⟨x1, h1, h⟩ := Option.bind_eq_some_iff.1 h
    obtain ⟨a1, g1, rfl⟩ := (pass_iff (d := 0) setCompression_codec rfl).1 h1
    obtain ⟨x2, h2, h⟩ := Option.bind_eq_some_iff.1 h
    obtain ⟨a2, g2, rfl⟩ := (pass_iff (d := 0) setCompression_level rfl).1 h2
    obtain ⟨x3, h3, h⟩ := Option.bind_eq_some_iff.1 h
    obtain ⟨a3, g3, rfl⟩ := (pass_iff (d := 0) setCompression_shuffle rfl).1 h3
    cases h
    exact ⟨g0, g1, g2, g3⟩
  · rintro ⟨g0, g1, g2, g3⟩
    refine Option.bind_eq_some_iff.2 ⟨_, (pass_iff (d := 0) setCompression_compressor rfl).2 ⟨_, g0, rfl⟩, ?_⟩
    refine Option.bind_eq_some_iff.2 ⟨_, (pass_iff (d := 0) setCompression_codec rfl).2 ⟨_, g1, rfl⟩, ?_⟩
    refine Option.bind_eq_some_iff.2 ⟨_, (pass_iff (d := 0) setCompression_level rfl).2 ⟨_, g2, rfl⟩, ?_⟩
    refine Option.bind_eq_some_iff.2 ⟨_, (pass_iff (d := 0) setCompression_shuffle rfl).2 ⟨_, g3, rfl⟩, ?_⟩
    rfl

theorem initCompression_fold {kw kw' : Kwargs} (hd : (kw.map Prod.fst).Nodup) (hp : kw.Perm kw') :
    initCompression kw = kw'.foldlM (fun x p => setCompression x p.1 p.2) ⟨0, 0, 0, 0⟩ := by
  rw [← fold_perm updCompression_spec updCompression_comm hp hd, fold_names updCompression_spec updCompression_comm (names := namesCompression) (by decide)
    (fun x k v h => setCompression_other h x v) hd]
  apply Option.ext
  intro s
  rw [initCompression_iff, passCompression_iff]

/-! ### `Dimension` -/

/-- The attributes of the class. -/
def namesDimension : List Text := ["name".toList, "kind".toList, "array_size_px".toList, "chunk_size_px".toList, "shard_size_chunks".toList]

/-- What an assignment to `name` does to the object. -/
def updDimension (name : Text) (v : Val) : Option (Dimension → Dimension) :=
  if name = "name".toList then (asText v).map fun a x => { x with name := a }
  else if name = "kind".toList then (asEnum .dimensionType v).map fun a x => { x with kind := a }
  else if name = "array_size_px".toList then (asUnsigned 32 v).map fun a x => { x with arraySize := a }
  else if name = "chunk_size_px".toList then (asUnsigned 32 v).map fun a x => { x with chunkSize := a }
  else if name = "shard_size_chunks".toList then (asUnsigned 32 v).map fun a x => { x with shardSize := a }
  else some id

theorem updDimension_spec (x : Dimension) (name : Text) (v : Val) : setDimension x name v = (updDimension name v).map fun u => u x := by
  unfold setDimension updDimension
  iterate 5 (split; · rw [Option.map_map]; rfl)
  rfl

theorem setDimension_name (x : Dimension) (v : Val) : setDimension x "name".toList v = (asText v).map fun a => { x with name := a } := by
  unfold setDimension
  rw [if_pos rfl]

theorem updDimension_name (v : Val) : updDimension "name".toList v = (asText v).map fun a (x : Dimension) => { x with name := a } := by
  unfold updDimension
  rw [if_pos rfl]

theorem setDimension_kind (x : Dimension) (v : Val) : setDimension x "kind".toList v = (asEnum .dimensionType v).map fun a => { x with kind := a } := by
  unfold setDimension
  rw [if_neg (by decide)]
  rw [if_pos rfl]

theorem updDimension_kind (v : Val) : updDimension "kind".toList v = (asEnum .dimensionType v).map fun a (x : Dimension) => { x with kind := a } := by
  unfold updDimension
  rw [if_neg (by decide)]
  rw [if_pos rfl]

theorem setDimension_arraySize (x : Dimension) (v : Val) : setDimension x "array_size_px".toList v = (asUnsigned 32 v).map fun a => { x with arraySize := a } := by
  unfold setDimension
  rw [if_neg (by decide)]
  rw [if_neg (by decide)]
  rw [if_pos rfl]

theorem updDimension_arraySize (v : Val) : updDimension "array_size_px".toList v = (asUnsigned 32 v).map fun a (x : Dimension) => { x with arraySize := a } := by
  unfold updDimension
  rw [if_neg (by decide)]
  rw [if_neg (by decide)]
  rw [if_pos rfl]

theorem setDimension_chunkSize (x : Dimension) (v : Val) : setDimension x "chunk_size_px".toList v = (asUnsigned 32 v).map fun a => { x with chunkSize := a } := by
  unfold setDimension
  rw [if_neg (by decide)]
  rw [if_neg (by decide)]
  rw [if_neg (by decide)]
  rw [if_pos rfl]

theorem updDimension_chunkSize (v : Val) : updDimension "chunk_size_px".toList v = (asUnsigned 32 v).map fun a (x : Dimension) => { x with chunkSize := a } := by
  unfold updDimension
  rw [if_neg (by decide)]
  rw [if_neg (by decide)]
  rw [if_neg (by decide)]
  rw [if_pos rfl]

theorem setDimension_shardSize (x : Dimension) (v : Val) : setDimension x "shard_size_chunks".toList v = (asUnsigned 32 v).map fun a => { x with shardSize := a } := by
  unfold setDimension
  rw [if_neg (by decide)]
  rw [if_neg (by decide)]
  rw [if_neg (by decide)]
  rw [if_neg (by decide)]
  rw [if_pos rfl]

theorem updDimension_shardSize (v : Val) : updDimension "shard_size_chunks".toList v = (asUnsigned 32 v).map fun a (x : Dimension) => { x with shardSize := a } := by
  unfold updDimension
  rw [if_neg (by decide)]
  rw [if_neg (by decide)]
  rw [if_neg (by decide)]
  rw [if_neg (by decide)]
  rw [if_pos rfl]

theorem updDimension_other {name : Text} (h : name ∉ namesDimension) (v : Val) : updDimension name v = some id := by
  unfold namesDimension at h
  simp only [List.mem_cons, List.not_mem_nil, or_false, not_or] at h
  obtain ⟨h0, h1, h2, h3, h4⟩ := h
  unfold updDimension
  rw [if_neg h0, if_neg h1, if_neg h2, if_neg h3, if_neg h4]

theorem setDimension_other {name : Text} (h : name ∉ namesDimension) (x : Dimension) (v : Val) : setDimension x name v = some x := by
  rw [updDimension_spec, updDimension_other h]; rfl

theorem updDimension_cases {k : Text} {v : Val} {u : Dimension → Dimension} (h : updDimension k v = some u) :
    (k = "name".toList ∧ ∃ a, u = fun x => { x with name := a }) ∨ (k = "kind".toList ∧ ∃ a, u = fun x => { x with kind := a }) ∨ (k = "array_size_px".toList ∧ ∃ a, u = fun x => { x with arraySize := a }) ∨ (k = "chunk_size_px".toList ∧ ∃ a, u = fun x => { x with chunkSize := a }) ∨ (k = "shard_size_chunks".toList ∧ ∃ a, u = fun x => { x with shardSize := a }) ∨ u = id := by
  unfold updDimension at h
  repeat' split at h
  · obtain ⟨a, _, e⟩ := Option.map_eq_some_iff.1 h
    exact Or.inl ⟨by assumption, a, e.symm⟩
  · obtain ⟨a, _, e⟩ := Option.map_eq_some_iff.1 h
    exact Or.inr (Or.inl ⟨by assumption, a, e.symm⟩)
  · obtain ⟨a, _, e⟩ := Option.map_eq_some_iff.1 h
    exact Or.inr (Or.inr (Or.inl ⟨by assumption, a, e.symm⟩))
  · obtain ⟨a, _, e⟩ := Option.map_eq_some_iff.1 h
    exact Or.inr (Or.inr (Or.inr (Or.inl ⟨by assumption, a, e.symm⟩)))
  · obtain ⟨a, _, e⟩ := Option.map_eq_some_iff.1 h
    exact Or.inr (Or.inr (Or.inr (Or.inr (Or.inl ⟨by assumption, a, e.symm⟩))))
  · exact Or.inr (Or.inr (Or.inr (Or.inr (Or.inr (Option.some.inj h).symm))))

theorem updDimension_comm (k l : Text) (hkl : k ≠ l) (v w : Val) (u t : Dimension → Dimension) (hu : updDimension k v = some u) (ht : updDimension l w = some t)
    (x : Dimension) : u (t x) = t (u x) := by
  rcases updDimension_cases hu with ⟨e1, a, rfl⟩ | ⟨e1, a, rfl⟩ | ⟨e1, a, rfl⟩ | ⟨e1, a, rfl⟩ | ⟨e1, a, rfl⟩ | rfl <;>
  rcases updDimension_cases ht with ⟨e2, b, rfl⟩ | ⟨e2, b, rfl⟩ | ⟨e2, b, rfl⟩ | ⟨e2, b, rfl⟩ | ⟨e2, b, rfl⟩ | rfl <;>
  first
    | rfl
    | exact absurd (e1.trans e2.symm) hkl

theorem passDimension_iff {kw : Kwargs} {x : Dimension} : namesDimension.foldlM (pass setDimension kw) ⟨[], 0, 0, 0, 0⟩ = some x ↔
    Given kw "name" asText [] x.name ∧ Given kw "kind" (asEnum .dimensionType) 0 x.kind ∧ Given kw "array_size_px" (asUnsigned 32) 0 x.arraySize ∧ Given kw "chunk_size_px" (asUnsigned 32) 0 x.chunkSize ∧ Given kw "shard_size_chunks" (asUnsigned 32) 0 x.shardSize := by
  unfold namesDimension
  simp only [List.foldlM_cons, List.foldlM_nil, Option.bind_eq_bind, Option.pure_def, Option.bind_some]
  constructor
  · intro h
    obtain ⟨x0, h0, h⟩ := Option.bind_eq_some_iff.1 h
    obtain ⟨a0, g0, rfl⟩ := (pass_iff (d := []) setDimension_name rfl).1 h0
    obtain ⟨x1, h1, h⟩ := Option.bind_eq_some_iff.1 h
    obtain ⟨a1, g1, rfl⟩ := (pass_iff (d := 0) setDimension_kind rfl).1 h1
    obtain ⟨x2, h2, h⟩ := Option.bind_eq_some_iff.1 h
    obtain ⟨a2, g2, rfl⟩ := (pass_iff (d := 0) setDimension_arraySize rfl).1 h2
    obtain ⟨x3, h3, h⟩ := Option.bind_eq_some_iff.1 h
    obtain ⟨a3, g3, rfl⟩ := (pass_iff (d := 0) setDimension_chunkSize rfl).1 h3
    obtain ⟨x4, h4, h⟩ := Option.bind_eq_some_iff.1 h
    obtain ⟨a4, g4, rfl⟩ := (pass_iff (d := 0) setDimension_shardSize rfl).1 h4
    cases h
    exact ⟨g0, g1, g2, g3, g4⟩
  · rintro ⟨g0, g1, g2, g3, g4⟩
    refine Option.bind_eq_some_iff.2 ⟨_, (pass_iff (d := []) setDimension_name rfl).2 ⟨_, g0, rfl⟩, ?_⟩
    refine Option.bind_eq_some_iff.2 ⟨_, (pass_iff (d := 0) setDimension_kind rfl).2 ⟨_, g1, rfl⟩, ?_⟩
    refine Option.bind_eq_some_iff.2 ⟨_, (pass_iff (d := 0) setDimension_arraySize rfl).2 ⟨_, g2, rfl⟩, ?_⟩
    refine Option.bind_eq_some_iff.2 ⟨_, (pass_iff (d := 0) setDimension_chunkSize rfl).2 ⟨_, g3, rfl⟩, ?_⟩
    refine Option.bind_eq_some_iff.2 ⟨_, (pass_iff (d := 0) setDimension_shardSize rfl).2 ⟨_, g4, rfl⟩, ?_⟩
    rfl

theorem initDimension_fold {kw kw' : Kwargs} (hd : (kw.map Prod.fst).Nodup) (hp : kw.Perm kw') :
    initDimension kw = kw'.foldlM (fun x p => setDimension x p.1 p.2) ⟨[], 0, 0, 0, 0⟩ := by
  rw [← fold_perm updDimension_spec updDimension_comm hp hd, fold_names updDimension_spec updDimension_comm (names := namesDimension) (by decide)
    (fun x k v h => setDimension_other h x v) hd]
  apply Option.ext
  intro s
  rw [initDimension_iff, passDimension_iff]

end AZ.Py
