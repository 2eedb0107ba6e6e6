import Verif.Props.Pyramid

set_option linter.unusedSimpArgs false

/-!
# C39, C40, C50: the stream-level files of a finished dataset
-/

namespace AZ
open Spec

section
variable {w : World} {env : Env} {fuel : Nat} {s : Settings} {cfg : WConfig} {cfgs : List WConfig}
  {a y x : DimProps} {inner : List DimProps} {root : Text} {calls : List (List Bytes)}
  {st : SState} {ns : List Nat} {tr : List Ev}

theorem lastDocument_docs (p : Text) (ds : List Bytes) :
    lastDocument p (.opened p :: ds.map (Ev.wrote p 0) ++ [.finalized p]) = some (ds.getLast?.getD []) := by
  have h : ∀ (ds : List Bytes) (cur : Bytes),
      (ds.map (Ev.wrote p 0) ++ [Ev.finalized p]).foldl (stepDoc p) (some cur) = some (ds.getLast?.getD cur) := by
    intro ds
    induction ds with
    | nil => intro cur; simp [stepDoc]
    | cons d ds ih =>
      intro cur
      rw [List.map_cons, List.cons_append, List.foldl_cons]
      have : stepDoc p (some cur) (.wrote p 0 d) = some d := if_pos rfl
      rw [this, ih, List.getLast?_cons]
      rfl
  unfold lastDocument
  rw [List.cons_append, List.foldl_cons]
  have : stepDoc p none (.opened p) = some [] := if_pos rfl
  rw [this, h]

/-- The documents of a session with working storage: all of them are kept. -/
theorem kept_all (hE : StorageOk env s) (p : Text) (ds : List Bytes) : kept env p ds = ds := by
  unfold kept
  rw [List.filter_eq_self]
  intro d _
  simp [hE.write]

/-- The user gave metadata text that is not blank, or none at all. -/
def HasCustomText (s : Settings) : Prop := ∀ m, s.customMetadata = some m → trim m ≠ []

theorem external_some (hm : HasCustomText s) : ∃ b, externalDoc w s = some b := by
  unfold externalDoc customMetadata
  cases hcm : s.customMetadata with
  | none =>
    dsimp only
    rw [if_neg (by decide)]
    exact ⟨_, rfl⟩
  | some m =>
    dsimp only
    rw [if_neg (by rw [List.isEmpty_iff]; exact hm m hcm)]
    exact ⟨_, rfl⟩

theorem docs_nonempty (h : Setup w fuel s cfg cfgs) {name : String}
    (hm : name.toList = externalKey cfg.version → HasCustomText s) (hname : name ∈ streamDocNames s.version) (hne : name ≠ "0/.zattrs") (n : Nat) :
    docsFor w s cfg n name.toList ≠ [] := by
  have hver := (commit_fields h.commit).2.2.2.2
  have hb : name.toList = externalKey cfg.version → ∃ b, externalDoc w s = some b := fun e => external_some (hm e)
  clear hm
  unfold docsFor
  have hk : name.toList = (baseDoc cfg n).1 ∨ name.toList = (groupDoc cfg n).1 ∨ name.toList = externalKey cfg.version := by
    unfold baseDoc groupDoc externalKey
    unfold streamDocNames at hname
    rw [hver]
    by_cases hv : s.version = 2
    · rw [if_pos hv] at hname ⊢
      dsimp only
      simp only [List.mem_cons, List.not_mem_nil, or_false] at hname
      rcases hname with rfl | rfl | rfl | rfl
      · exact .inl rfl
      · exact .inr (.inl rfl)
      · exact absurd rfl hne
      · exact .inr (.inr rfl)
    · rw [if_neg hv] at hname ⊢
      dsimp only
      simp only [List.mem_cons, List.not_mem_nil, or_false] at hname
      rcases hname with rfl | rfl | rfl
      · exact .inl rfl
      · exact .inr (.inl rfl)
      · exact .inr (.inr rfl)
  generalize name.toList = key at *
  generalize utf8 ((baseDoc cfg n).2.dump 0) = db at *
  generalize utf8 ((groupDoc cfg n).2.dump 0) = dg at *
  generalize (baseDoc cfg n).1 = kb at *
  generalize (groupDoc cfg n).1 = kg at *
  generalize externalKey cfg.version = ke at *
  rcases hk with e | e | e
  · rw [if_pos e.symm]; simp
  · rw [if_pos e.symm]; simp
  · obtain ⟨b, hb⟩ := hb e
    rw [if_pos e.symm, hb]; simp

theorem docs_attrs (h : Setup w fuel s cfg cfgs) (hv : s.version = 2) (n : Nat) :
    docsFor w s cfg n "0/.zattrs".toList = [] := by
  have hver := (commit_fields h.commit).2.2.2.2
  rw [if_pos hv] at hver
  unfold docsFor
  have k1 : (baseDoc cfg n).1 ≠ "0/.zattrs".toList := by unfold baseDoc; rw [hver]; dsimp only; decide
  have k2 : (groupDoc cfg n).1 ≠ "0/.zattrs".toList := by unfold groupDoc; rw [hver]; dsimp only; decide
  have k3 : externalKey cfg.version ≠ "0/.zattrs".toList := by unfold externalKey; rw [hver]; dsimp only; decide
  generalize "0/.zattrs".toList = key at *
  rw [if_neg k1, if_neg k2, if_neg k3]
  rfl

theorem stream_file (h : Setup w fuel s cfg cfgs) (hE : StorageOk env s)
    (hd : s.dimensions = some (a :: (inner ++ [y, x]))) (hl : StoredAt s root) (hfr : Fresh w s root)
    (hn : calls.flatten.length < 2 ^ 32)
    (hf : ∀ c ∈ calls, ∀ f ∈ c, f.length = y.arraySize * x.arraySize * itemSize s.dataType)
    (hrun : runStream w env fuel s (calls.map List.flatten) = some (.ok (st, ns, tr)))
    {name : String} (hname : name ∈ streamDocNames s.version) :
    fileInStore w cfg (root ++ '/' :: name.toList) tr =
      some ((docsFor w s cfg cfgs.length name.toList).getLast?.getD []) := by
  have hL : LocatedAt s root := .inl hl
  have h10 := (metadata_never_stale h hd hL hn hf hrun (List.prefix_refl tr)).2 name hname
  obtain ⟨hF, hF0⟩ := frame_size h hd
  rw [← hF] at hf
  have hk : name.toList ∈ metaKeys cfg.version := by
    rw [metaKeys_eq h.commit]; exact List.mem_map_of_mem hname
  have hs := session_docs h.commit h.levels hF0 hf hrun hk
  rw [fileInStore_fresh h.commit hfr, h10, lastDocument_filter]
  rw [hL.streamDoc h.commit, kept_all hE] at hs
  show lastDocument (root ++ '/' :: name.toList) (about (root ++ '/' :: name.toList) tr) = _
  rw [hs]
  exact lastDocument_docs _ _

/-- `stream_files`, for a document that is not the user's metadata without assumptions on the metadata. -/
theorem stream_files_of (h : Setup w fuel s cfg cfgs) (hE : StorageOk env s)
    (hd : s.dimensions = some (a :: (inner ++ [y, x]))) (hl : StoredAt s root) (hfr : Fresh w s root)
    (hn : calls.flatten.length < 2 ^ 32)
    (hf : ∀ c ∈ calls, ∀ f ∈ c, f.length = y.arraySize * x.arraySize * itemSize s.dataType)
    (hrun : runStream w env fuel s (calls.map List.flatten) = some (.ok (st, ns, tr)))
    {name : String} (hname : name ∈ streamDocNames s.version) (hne : name ≠ "0/.zattrs")
    (hj : name.toList = externalKey cfg.version → JsonLib w ∧ HasCustomText s) :
    ∃ b, fileInStore w cfg (root ++ '/' :: name.toList) tr = some b ∧
      StreamDoc w s (a :: (inner ++ [y, x])) inner cfgs.length name b := by
  refine ⟨_, stream_file h hE hd hl hfr hn hf hrun hname, ?_⟩
  have hne' := docs_nonempty (w := w) h (fun e => (hj e).2) hname hne cfgs.length
  have hmem : (docsFor w s cfg cfgs.length name.toList).getLast?.getD [] ∈ docsFor w s cfg cfgs.length name.toList := by
    rw [List.getLast?_eq_some_getLast hne', Option.getD_some]
    exact List.getLast_mem hne'
  have hL : LocatedAt s root := .inl hl
  refine (stream_documents_of h hd hL hf hrun hname (fun e => (hj e).1) (off := 0) ?_).2
  obtain ⟨hF, hF0⟩ := frame_size h hd
  rw [← hF] at hf
  have hk : name.toList ∈ metaKeys cfg.version := by
    rw [metaKeys_eq h.commit]; exact List.mem_map_of_mem hname
  have hs := session_docs h.commit h.levels hF0 hf hrun hk
  rw [← hL.streamDoc h.commit, writesTo_about, hs, writesTo_docs _ _ _ (.inr rfl), kept_all hE]
  exact List.mem_map_of_mem hmem

/-- **C39, the files.** With working storage, after the session every stream-level file (except the group attributes
of level 0, see `level_attributes_violated`) holds one complete document with the values of the settings. -/
theorem stream_files (hj : JsonLib w) (hm : HasCustomText s) (h : Setup w fuel s cfg cfgs) (hE : StorageOk env s)
    (hd : s.dimensions = some (a :: (inner ++ [y, x]))) (hl : StoredAt s root) (hfr : Fresh w s root)
    (hn : calls.flatten.length < 2 ^ 32)
    (hf : ∀ c ∈ calls, ∀ f ∈ c, f.length = y.arraySize * x.arraySize * itemSize s.dataType)
    (hrun : runStream w env fuel s (calls.map List.flatten) = some (.ok (st, ns, tr)))
    {name : String} (hname : name ∈ streamDocNames s.version) (hne : name ≠ "0/.zattrs") :
    ∃ b, fileInStore w cfg (root ++ '/' :: name.toList) tr = some b ∧
      StreamDoc w s (a :: (inner ++ [y, x])) inner cfgs.length name b :=
  stream_files_of h hE hd hl hfr hn hf hrun hname hne fun _ => ⟨hj, hm⟩

/-- The empty file is not a JSON document. -/
theorem empty_not_json (v : JVal) : ¬ JsonFile [] v := by
  rintro ⟨t, h1, h2⟩
  cases t with
  | nil => cases h2
  | cons c cs =>
    rw [List.flatMap_cons] at h1
    have := (List.append_eq_nil_iff.1 h1).1
    exact String.utf8EncodeChar_ne_nil this

/-- **C50 is violated** by every V2 session: the group attributes of level 0 are created and never written, so a finished
dataset contains a metadata file that is not JSON. -/
theorem level_attributes_violated (h : Setup w fuel s cfg cfgs) (hE : StorageOk env s) (hV : s.version = 2)
    (hd : s.dimensions = some (a :: (inner ++ [y, x]))) (hl : StoredAt s root) (hfr : Fresh w s root)
    (hn : calls.flatten.length < 2 ^ 32)
    (hf : ∀ c ∈ calls, ∀ f ∈ c, f.length = y.arraySize * x.arraySize * itemSize s.dataType)
    (hrun : runStream w env fuel s (calls.map List.flatten) = some (.ok (st, ns, tr))) :
    ∃ b, fileInStore w cfg (root ++ "/0/.zattrs".toList) tr = some b ∧ ∀ v, ¬ JsonFile b v := by
  have := stream_file h hE hd hl hfr hn hf hrun (name := "0/.zattrs") (by
    unfold streamDocNames; rw [if_pos hV]; simp)
  rw [docs_attrs h hV] at this
  exact ⟨_, this, empty_not_json⟩

theorem levelSize_zero (c : Bool) (n : Nat) : levelSize c n 0 = n := by
  cases c <;> simp [levelSize, ceilDiv]

theorem levelSize_same_iff (c : Bool) (n i : Nat) : levelSize c n i = n ↔ i = 0 ∨ c = true ∨ n ≤ 1 := by
  cases c with
  | true => simp [levelSize]
  | false =>
    have hp : i ≠ 0 → 2 ≤ 2 ^ i := fun h => by
      obtain ⟨k, rfl⟩ : ∃ k, i = k + 1 := ⟨i - 1, by omega⟩
      have := Nat.two_pow_pos k
      rw [Nat.pow_succ]; omega
    simp only [levelSize, Bool.false_eq_true, if_false, false_or, ceilDiv]
    constructor
    · intro h
      by_cases hi : i = 0
      · exact .inl hi
      · refine .inr ?_
        by_cases hn : n ≤ 1
        · exact hn
        · exfalso
          have h2 := hp hi
          generalize 2 ^ i = p at *
          obtain ⟨k, rfl⟩ : ∃ k, n = k + 2 := ⟨n - 2, by omega⟩
          have : (k + 2 + p - 1) / p < k + 2 := by
            apply Nat.div_lt_of_lt_mul
            have h3 : 2 * (k + 1) ≤ p * (k + 1) := Nat.mul_le_mul_right _ h2
            rw [show p * (k + 2) = p * (k + 1) + p by rw [← Nat.mul_succ]]
            omega
          omega
    · rintro (rfl | h)
      · simp
      · have := Nat.two_pow_pos i
        rcases (by omega : n = 0 ∨ n = 1) with rfl | rfl
        · exact Nat.div_eq_of_lt (by omega)
        · rw [Nat.add_sub_cancel_left, Nat.div_self this]

theorem sizesAt_append (k : Nat) (l l' : List DimProps) : sizesAt k (l ++ l') = sizesAt k l ++ sizesAt k l' := by
  simp [sizesAt]

/-- The scale factors the group document declares for the inner dimensions, height and width fit the sizes of level `i` exactly
when nothing but height and width shrinks. -/
theorem inner_scale_iff (inner : List DimProps) (hy : y.isChannel = false) (hx : x.isChannel = false) (i : Nat) :
    sizesAt i (inner ++ [y, x]) =
        List.zipWith ceilDiv (sizesAt 0 (inner ++ [y, x])) (List.replicate inner.length 1 ++ [2 ^ i, 2 ^ i]) ↔
      i = 0 ∨ ∀ d ∈ inner, d.isChannel = true ∨ d.arraySize ≤ 1 := by
  rw [sizesAt_append, sizesAt_append, List.zipWith_append (by simp [sizesAt])]
  have hyx : sizesAt i [y, x] = List.zipWith ceilDiv (sizesAt 0 [y, x]) [2 ^ i, 2 ^ i] := by
    simp [sizesAt, hy, hx, levelSize_zero]
    simp [levelSize]
  rw [← hyx, List.append_left_inj]
  clear hyx hy hx
  induction inner with
  | nil => simp [sizesAt]
  | cons d l ih =>
    rw [List.length_cons, List.replicate_succ]
    show levelSize _ _ i :: sizesAt i l = ceilDiv (levelSize _ _ 0) 1 ::
      List.zipWith ceilDiv (sizesAt 0 l) (List.replicate l.length 1) ↔ _
    rw [List.cons.injEq]
    refine (and_congr Iff.rfl ih).trans ?_
    rw [levelSize_zero, show ceilDiv d.arraySize 1 = d.arraySize by simp [ceilDiv],
      levelSize_same_iff]
    simp only [List.mem_cons, forall_eq_or_imp]
    constructor
    · rintro ⟨h1 | h1, h2 | h2⟩
      · exact .inl h1
      · exact .inl h1
      · exact .inl h2
      · exact .inr ⟨h1, h2⟩
    · rintro (h | ⟨h1, h2⟩)
      · exact ⟨.inl h, .inl h⟩
      · exact ⟨.inr h1, .inr h2⟩

theorem yx_spatial (h : Setup w fuel s cfg cfgs) (hd : s.dimensions = some (a :: (inner ++ [y, x]))) :
    y.isChannel = false ∧ x.isChannel = false := by
  obtain ⟨ds, hds, hda⟩ := (validateSettings_ok h.valid).dims
  rw [hd] at hds
  cases hds
  have hyx : ∀ d ∈ [y, x], d.isChannel = false := by
    intro d hdm
    have := hda.yx d (by
      rw [show (a :: (inner ++ [y, x])).length - 2 = (a :: inner).length by simp,
        show a :: (inner ++ [y, x]) = (a :: inner) ++ [y, x] by simp, List.drop_left]
      exact hdm)
    simp [DimProps.isChannel, this]
  exact ⟨hyx y (by simp), hyx x (by simp)⟩

/-- **C40, exactly,** for every group document any session writes, both versions: the `multiscales` value lists the levels `0, 1, ..`,
one per array; the scale factor along the append dimension is `2 ^ i`; and the factors along the other dimensions are the
ratios of the sizes of level 0 and level `i` (rounded up) if and only if every inner dimension is a channel or has size 1 (or `i`
is 0). Otherwise the document of every session is wrong. -/
theorem multiscale_exact_partial (hj : JsonLib w) (h : Setup w fuel s cfg cfgs)
    (hd : s.dimensions = some (a :: (inner ++ [y, x]))) (hl : LocatedAt s root)
    (hf : ∀ c ∈ calls, ∀ f ∈ c, f.length = y.arraySize * x.arraySize * itemSize s.dataType)
    (hrun : runStream w env fuel s (calls.map List.flatten) = some (.ok (st, ns, tr)))
    {off : Nat} {b : Bytes}
    (hw : (off, b) ∈ writesTo (root ++ (if s.version = 2 then "/.zattrs" else "/meta/root.group.json").toList) tr) :
    ∃ v m axes levels, JsonFile b v ∧
      (if s.version = 2 then v.get? "multiscales" else (v.get? "attributes").bind (·.get? "multiscales")) = some m ∧
      MultiscalesDoc m axes levels ∧ levels.length = cfgs.length ∧
      ∀ i, i < cfgs.length → ∃ scale, levels[i]? = some (String.ofList (decimal i), 2 ^ i :: scale) ∧
        (sizesAt i (inner ++ [y, x]) = List.zipWith ceilDiv (sizesAt 0 (inner ++ [y, x])) scale ↔
          i = 0 ∨ ∀ d ∈ inner, d.isChannel = true ∨ d.arraySize ≤ 1) := by
  obtain ⟨hy, hx⟩ := yx_spatial h hd
  have hscale : ∀ i, i < cfgs.length → ∃ scale, ((List.range cfgs.length).map (declaredLevel inner))[i]? =
      some (String.ofList (decimal i), 2 ^ i :: scale) ∧
      (sizesAt i (inner ++ [y, x]) = List.zipWith ceilDiv (sizesAt 0 (inner ++ [y, x])) scale ↔
          i = 0 ∨ ∀ d ∈ inner, d.isChannel = true ∨ d.arraySize ≤ 1) := by
    intro i hlt
    refine ⟨List.replicate inner.length 1 ++ [2 ^ i, 2 ^ i], ?_, inner_scale_iff inner hy hx i⟩
    rw [List.getElem?_map, List.getElem?_range hlt]; rfl
  by_cases hv : s.version = 2
  · rw [if_pos hv] at hw
    obtain ⟨_, v, m, v1, v2, v3⟩ := stream_documents hj h hd hl hf hrun (name := ".zattrs") (by
      unfold streamDocNames; rw [if_pos hv]; simp) hw
    exact ⟨v, m, _, _, v1, by rw [if_pos hv]; exact v2, v3, by simp, hscale⟩
  · rw [if_neg hv] at hw
    obtain ⟨_, v, t, m, v1, v2, v2', v3⟩ := stream_documents hj h hd hl hf hrun (name := "meta/root.group.json") (by
      unfold streamDocNames; rw [if_neg hv]; simp) hw
    exact ⟨v, m, _, _, v1, by rw [if_neg hv, v2]; exact v2', v3, by simp, hscale⟩

/-- **C40, partial.** If the append dimension is not a channel and all inner dimensions are channels or have size 1, the
`multiscales` value of the group document lists the levels `0, 1, ..`, one per array, and along every dimension the size of level
`i` is the size of level 0 divided by the declared scale factor, rounded up.
Missing: other inner dimensions (`multiscale_exact_partial`, `multiscale_scale_violated`). -/
theorem multiscale_matches_partial (hj : JsonLib w) (h : Setup w fuel s cfg cfgs)
    (hd : s.dimensions = some (a :: (inner ++ [y, x]))) (hl : LocatedAt s root)
    (ha : a.isChannel = false) (hi : ∀ d ∈ inner, d.isChannel = true ∨ d.arraySize ≤ 1)
    (hf : ∀ c ∈ calls, ∀ f ∈ c, f.length = y.arraySize * x.arraySize * itemSize s.dataType)
    (hrun : runStream w env fuel s (calls.map List.flatten) = some (.ok (st, ns, tr)))
    {off : Nat} {b : Bytes}
    (hw : (off, b) ∈ writesTo (root ++ (if s.version = 2 then "/.zattrs" else "/meta/root.group.json").toList) tr) :
    ∃ v m axes levels, JsonFile b v ∧
      (if s.version = 2 then v.get? "multiscales" else (v.get? "attributes").bind (·.get? "multiscales")) = some m ∧
      MultiscalesDoc m axes levels ∧ levels.length = cfgs.length ∧
      ∀ i, i < cfgs.length → ∃ scale, levels[i]? = some (String.ofList (decimal i), scale) ∧
        sizesAt i (a :: (inner ++ [y, x])) = List.zipWith ceilDiv (sizesAt 0 (a :: (inner ++ [y, x]))) scale := by
  obtain ⟨v, m, axes, levels, h1, h2, h3, h4, h5⟩ := multiscale_exact_partial hj h hd hl hf hrun hw
  refine ⟨v, m, axes, levels, h1, h2, h3, h4, fun i hlt => ?_⟩
  obtain ⟨scale, e1, e2⟩ := h5 i hlt
  refine ⟨_, e1, ?_⟩
  show levelSize _ _ i :: sizesAt i (inner ++ [y, x]) = ceilDiv (levelSize _ _ 0) (2 ^ i) ::
        List.zipWith ceilDiv (sizesAt 0 (inner ++ [y, x])) _
  rw [← e2.2 (.inr hi), levelSize_zero, ha]
  rfl

/-- The number of steps along the append dimension of level `i`, where every step has `P` frames. -/
theorem rows_within_one (F P i : Nat) (hP : 0 < P) :
    ceilDiv (F / 2 ^ i) P ≤ ceilDiv (ceilDiv F P) (2 ^ i) ∧ ceilDiv (ceilDiv F P) (2 ^ i) ≤ ceilDiv (F / 2 ^ i) P + 1 := by
  have h2 := Nat.two_pow_pos i
  generalize 2 ^ i = q at *
  have up : ∀ {n d m : Nat}, 0 < d → (ceilDiv n d ≤ m ↔ n ≤ m * d) := by
    intro n d m hd
    unfold ceilDiv
    rw [← Nat.lt_succ_iff, Nat.div_lt_iff_lt_mul hd, Nat.succ_mul]
    omega
  constructor
  · rw [up hP]
    have h1 := (up h2 (n := ceilDiv F P)).1 (Nat.le_refl _)
    rw [up hP] at h1
    generalize ceilDiv (ceilDiv F P) q = c at *
    have : F / q ≤ c * P * q / q := Nat.div_le_div_right (by rw [Nat.mul_right_comm]; exact h1)
    rwa [Nat.mul_div_cancel _ h2] at this
  · rw [up h2, up hP]
    have h1 := (up hP (n := F / q)).1 (Nat.le_refl _)
    generalize ceilDiv (F / q) P = c at *
    have h3 : F < (F / q + 1) * q := by
      have := Nat.div_add_mod F q
      have := Nat.mod_lt F h2
      rw [Nat.add_mul, Nat.mul_comm]; omega
    have h4 : (F / q + 1) * q ≤ (c + 1) * P * q := by
      apply Nat.mul_le_mul_right
      rw [Nat.add_mul]; omega
    rw [Nat.mul_right_comm]
    omega

/-- **C40, on the finished dataset** (V2): if all inner dimensions are channels or have size 1, then for every level with a frame the
shape in its array document is the shape in level 0's array document divided by the scale factors of the group document, rounded
up; along the append dimension it may be one less (the frames that are still unpaired when the stream ends are dropped). -/
theorem multiscale_shapes_partial (hj : JsonLib w) (hm : HasCustomText s) (h : Setup w fuel s cfg cfgs) (hz : SizesInRange s)
    (hr : RealCodec s) (hE : StorageOk env s) (hV : s.version = 2)
    (hd : s.dimensions = some (a :: (inner ++ [y, x]))) (hl : StoredAt s root) (hfr : Fresh w s root)
    (hi : ∀ d ∈ inner, d.isChannel = true ∨ d.arraySize ≤ 1)
    (hn : calls.flatten.length < 2 ^ 32)
    (hf : ∀ c ∈ calls, ∀ f ∈ c, f.length = y.arraySize * x.arraySize * itemSize s.dataType) :
    ∃ st tr, runStream w env fuel s (calls.map List.flatten) =
        some (.ok (st, calls.map (fun c => c.flatten.length), tr)) ∧
      ∃ b v m axes levels, fileInStore w cfg (root ++ "/.zattrs".toList) tr = some b ∧ JsonFile b v ∧
        v.get? "multiscales" = some m ∧ MultiscalesDoc m axes levels ∧ levels.length = cfgs.length ∧
        ∀ i, i < cfgs.length → 0 < calls.flatten.length / 2 ^ i →
          ∃ scale b0 v0 rows0 sizes0 bi vi rows sizes, levels[i]? = some (String.ofList (decimal i), 2 ^ i :: scale) ∧
            fileInStore w cfg (root ++ '/' :: arrayDocName 2 0) tr = some b0 ∧ JsonFile b0 v0 ∧
            fileInStore w cfg (root ++ '/' :: arrayDocName 2 i) tr = some bi ∧ JsonFile bi vi ∧
            (∃ chunks, ArrayDocV2 v0 (rows0 :: sizes0) chunks (typeNameV2 s.dataType) (codecSetting s)) ∧
            (∃ chunks, ArrayDocV2 vi (rows :: sizes) chunks (typeNameV2 s.dataType) (codecSetting s)) ∧
            sizes = List.zipWith ceilDiv sizes0 scale ∧
            rows ≤ ceilDiv rows0 (2 ^ i) ∧ ceilDiv rows0 (2 ^ i) ≤ rows + 1 := by
  obtain ⟨hy, hx⟩ := yx_spatial h hd
  obtain ⟨st, tr, h1, h2⟩ := v2_final_document (calls := calls) h hz hr hE hV hd hl hfr hn hf
  obtain ⟨b, b1, v, m, v1, v2, v3⟩ := stream_files (name := ".zattrs") hj hm h hE hd hl hfr hn hf h1 (by
    unfold streamDocNames; rw [if_pos hV]; simp) (by decide)
  refine ⟨st, tr, h1, b, v, m, _, _, b1, v1, v2, v3, by simp, fun i hlt hpos => ?_⟩
  have hpos0 : calls.flatten.length / 2 ^ 0 ≠ 0 := by
    have := Nat.div_le_self calls.flatten.length (2 ^ i)
    rw [Nat.pow_zero, Nat.div_one]
    omega
  obtain ⟨b0, v0, e1, e2, e3⟩ := (h2 0 (by omega)).2 hpos0
  obtain ⟨bi, vi, f1, f2, f3⟩ := (h2 i hlt).2 (by omega)
  unfold LevelDoc at e3 f3
  rw [if_pos hV] at e3 f3
  refine ⟨List.replicate inner.length 1 ++ [2 ^ i, 2 ^ i], b0, v0, _, _, bi, vi, _, _, ?_, e1, e2, f1, f2, ⟨_, e3⟩, ⟨_, f3⟩,
    (inner_scale_iff inner hy hx i).2 (.inr hi), ?_⟩
  · rw [List.getElem?_map, List.getElem?_range hlt]; rfl
  · have hsame : sizesAt i inner = sizesAt 0 inner := by
      unfold sizesAt
      apply List.map_congr_left
      intro d hdm
      rw [levelSize_zero]
      exact (levelSize_same_iff _ _ _).2 (.inr (hi d hdm))
    rw [hsame, Nat.pow_zero, Nat.div_one]
    apply rows_within_one
    apply prod_pos
    intro n hnm
    obtain ⟨d, hdm, rfl⟩ := List.mem_map.1 hnm
    rw [levelSize_zero]
    obtain ⟨ds, hds, hda⟩ := (validateSettings_ok h.valid).dims
    rw [hd] at hds
    cases hds
    exact hda.tail d (by simp [hdm])

end

theorem Sample.jsonLib : JsonLib Sample.world := ⟨rfl, fun _ _ h => h⟩

theorem Sample.hasCustomText : HasCustomText Sample.settings := by intro m hm; cases hm

/-- The sample session leaves a `.zattrs` that declares three levels. -/
example : ∃ st ns tr, runStream Sample.world Sample.env 9 Sample.settings (Sample.calls.map List.flatten) =
        some (.ok (st, ns, tr)) ∧ ∃ b v m, fileInStore Sample.world Sample.cfg "/tmp/a.zarr/.zattrs".toList tr = some b ∧
          JsonFile b v ∧ v.get? "multiscales" = some m ∧
          MultiscalesDoc m [(['t'], "time"), (['c'], "channel"), (['y'], "space"), (['x'], "space")]
            [("0", [1, 1, 1, 1]), ("1", [2, 1, 2, 2]), ("2", [4, 1, 4, 4])] := by
  obtain ⟨cfgs, h, hl⟩ := Sample.setup
  obtain ⟨st, tr, h1, _⟩ := v2_pixel_reads_back (calls := Sample.calls) h Sample.storageOk rfl rfl
    (a := Sample.dimT) (inner := [Sample.dimC]) (y := Sample.dimY) (x := Sample.dimX) rfl Sample.storedAt Sample.fresh
    (by decide) Sample.calls_sized
  obtain ⟨b, b1, v, m, v1, v2, v3⟩ := stream_files (name := ".zattrs") Sample.jsonLib Sample.hasCustomText h
    Sample.storageOk (a := Sample.dimT) (inner := [Sample.dimC]) (y := Sample.dimY) (x := Sample.dimX) rfl
    Sample.storedAt Sample.fresh (by decide) Sample.calls_sized h1 (by decide) (by decide)
  rw [hl] at v3
  exact ⟨st, _, tr, h1, b, v, m, b1, v1, v2, v3⟩

/-- `multiscale_shapes_partial` applies to the sample session, which has three levels. -/
example : ∃ st tr, runStream Sample.world Sample.env 9 Sample.settings (Sample.calls.map List.flatten) =
        some (.ok (st, Sample.calls.map (fun c => c.flatten.length), tr)) ∧
      ∃ b v m axes levels, fileInStore Sample.world Sample.cfg "/tmp/a.zarr/.zattrs".toList tr = some b ∧ JsonFile b v ∧
        v.get? "multiscales" = some m ∧ MultiscalesDoc m axes levels ∧ levels.length = 3 := by
  obtain ⟨cfgs, h, hl⟩ := Sample.setup
  obtain ⟨st, tr, h1, b, v, m, axes, levels, e1, e2, e3, e4, e5, _⟩ := multiscale_shapes_partial (calls := Sample.calls)
    Sample.jsonLib Sample.hasCustomText h (sizes_in_range_of rfl (by decide)) (by intro c hc; cases hc)
    Sample.storageOk rfl (a := Sample.dimT) (inner := [Sample.dimC]) (y := Sample.dimY) (x := Sample.dimX) rfl
    Sample.storedAt Sample.fresh (by decide) (by decide) Sample.calls_sized
  exact ⟨st, tr, h1, b, v, m, axes, levels, e1, e2, e3, e4, e5.trans hl⟩

/-- The sample with the channel dimension turned into a depth dimension. -/
def Sample.settingsDepth : Settings := { Sample.settings with
  dimensions := some [Sample.dimT, ⟨some "z".toList, 0, 3, 2, 2⟩, Sample.dimY, Sample.dimX] }

theorem Sample.setupDepth : ∃ cfg cfgs, Setup Sample.world 9 Sample.settingsDepth cfg cfgs ∧ 2 ≤ cfgs.length :=
  ⟨_, _, ⟨rfl, rfl, rfl, rfl, by decide, fun _ => by decide⟩, by decide⟩

/-- **C40 is violated** when an inner dimension is not a channel: in a V2 dataset with time, depth, height and width,
level 1 is declared with scale 1 along the depth, but its array has 2 planes where level 0 has 3. -/
theorem multiscale_scale_violated : ∃ cfg st ns tr, commitSettings Sample.settingsDepth = .ok cfg ∧
    runStream Sample.world Sample.env 9 Sample.settingsDepth (Sample.calls.map List.flatten) = some (.ok (st, ns, tr)) ∧
    (∃ b v m axes d0 rest, fileInStore Sample.world cfg "/tmp/a.zarr/.zattrs".toList tr = some b ∧ JsonFile b v ∧
      v.get? "multiscales" = some m ∧ MultiscalesDoc m axes (d0 :: ("1", [2, 1, 2, 2]) :: rest)) ∧
    (∃ b v, fileInStore Sample.world cfg "/tmp/a.zarr/0/.zarray".toList tr = some b ∧ JsonFile b v ∧
      ArrayDocV2 v [4, 3, 5, 7] [2, 2, 2, 3] "<u2" none) ∧
    (∃ b v, fileInStore Sample.world cfg "/tmp/a.zarr/1/.zarray".toList tr = some b ∧ JsonFile b v ∧
      ArrayDocV2 v [3, 2, 3, 4] [2, 2, 2, 3] "<u2" none) := by
  obtain ⟨cfg, cfgs, h, hl⟩ := Sample.setupDepth
  have hz : SizesInRange Sample.settingsDepth := sizes_in_range_of rfl (by decide)
  have hst : StoredAt Sample.settingsDepth "/tmp/a.zarr".toList := Sample.storedAt
  have hfr : Fresh Sample.world Sample.settingsDepth "/tmp/a.zarr".toList := Sample.fresh
  obtain ⟨st, tr, h1, h2⟩ := v2_final_document (calls := Sample.calls) h hz (by intro c hc; cases hc)
    Sample.storageOk rfl (a := Sample.dimT) (inner := [⟨some "z".toList, 0, 3, 2, 2⟩]) (y := Sample.dimY)
    (x := Sample.dimX) rfl hst hfr (by decide) Sample.calls_sized
  obtain ⟨b, b1, v, m, v1, v2, v3⟩ := stream_files (name := ".zattrs") (s := Sample.settingsDepth) Sample.jsonLib
    Sample.hasCustomText h Sample.storageOk (a := Sample.dimT) (inner := [⟨some "z".toList, 0, 3, 2, 2⟩]) (y := Sample.dimY)
    (x := Sample.dimX) rfl hst hfr (by decide) Sample.calls_sized h1 (by decide) (by decide)
  refine ⟨cfg, st, _, tr, h.commit, h1, ?_, ?_, ?_⟩
  · obtain ⟨n, hn⟩ : ∃ n, cfgs.length = n + 2 := ⟨cfgs.length - 2, by omega⟩
    rw [hn, show n + 2 = (n + 1) + 1 from rfl, List.range_succ_eq_map, List.range_succ_eq_map] at v3
    simp only [List.map_cons] at v3
    exact ⟨b, v, m, _, _, _, b1, v1, v2, v3⟩
  · obtain ⟨b, v, e1, e2, e3⟩ := (h2 0 (by omega)).2 (by decide)
    refine ⟨b, v, e1, e2, ?_⟩
    unfold LevelDoc at e3
    rw [if_pos (show Sample.settingsDepth.version = 2 from rfl)] at e3
    exact e3
  · obtain ⟨b, v, e1, e2, e3⟩ := (h2 1 (by omega)).2 (by decide)
    refine ⟨b, v, e1, e2, ?_⟩
    unfold LevelDoc at e3
    rw [if_pos (show Sample.settingsDepth.version = 2 from rfl)] at e3
    exact e3

end AZ
