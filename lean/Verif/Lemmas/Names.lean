import Verif.Lemmas.Owned
import Verif.Lemmas.StoreAt
import Verif.Model.GroupMeta

set_option linter.unusedSimpArgs false

/-! # Object names of one stream are pairwise different -/

namespace AZ
open Spec

/-- Two levels of one stream: same store, same bucket, same version. -/
structure SameStore (a b : WConfig) : Prop where
  bucket : a.bucket = b.bucket
  store : a.storePath = b.storePath
  version : a.version = b.version

theorem SameStore.refl (a : WConfig) : SameStore a a := ⟨rfl, rfl, rfl⟩
theorem SameStore.symm {a b : WConfig} (h : SameStore a b) : SameStore b a :=
  ⟨h.bucket.symm, h.store.symm, h.version.symm⟩
theorem SameStore.trans {a b c : WConfig} (h : SameStore a b) (h' : SameStore b c) : SameStore a c :=
  ⟨h.bucket.trans h'.bucket, h.store.trans h'.store, h.version.trans h'.version⟩

theorem lit_zarray : "/.zarray".toList = ['/', '.', 'z', 'a', 'r', 'r', 'a', 'y'] := by decide
theorem lit_data : "data/root/".toList = ['d', 'a', 't', 'a', '/', 'r', 'o', 'o', 't', '/'] := by decide
theorem lit_c : "/c".toList = ['/', 'c'] := by decide
theorem lit_metaroot : "meta/root/".toList = ['m', 'e', 't', 'a', '/', 'r', 'o', 'o', 't', '/'] := by decide
theorem lit_zattrs : ".zattrs".toList = ['.', 'z', 'a', 't', 't', 'r', 's'] := by decide
theorem lit_zgroup : ".zgroup".toList = ['.', 'z', 'g', 'r', 'o', 'u', 'p'] := by decide
theorem lit_0zattrs : "0/.zattrs".toList = ['0'] ++ ['/', '.', 'z', 'a', 't', 't', 'r', 's'] := by decide
theorem lit_acquire : "acquire.json".toList = ['a', 'c', 'q', 'u', 'i', 'r', 'e', '.', 'j', 's', 'o', 'n'] := by decide
theorem lit_zarrjson : "zarr.json".toList = ['z', 'a', 'r', 'r', '.', 'j', 's', 'o', 'n'] := by decide
theorem lit_rootgroup : "meta/root.group.json".toList =
    ['m', 'e', 't', 'a', '/', 'r', 'o', 'o', 't', '.', 'g', 'r', 'o', 'u', 'p', '.', 'j', 's', 'o', 'n'] := by decide
theorem lit_metaacquire : "meta/acquire.json".toList =
    ['m', 'e', 't', 'a', '/', 'a', 'c', 'q', 'u', 'i', 'r', 'e', '.', 'j', 's', 'o', 'n'] := by decide
theorem lit_file : "file://".toList = ['f', 'i', 'l', 'e', ':', '/', '/'] := by decide
theorem lit_file1 : "file:/".toList = ['f', 'i', 'l', 'e', ':', '/'] := by decide

theorem dataMid_v3 (i : Nat) : dataMid .v3 i =
    'd' :: (['a', 't', 'a', '/', 'r', 'o', 'o', 't', '/'] ++ (decimal i ++ ['/', 'c'])) := by
  show "data/root/".toList ++ decimal i ++ "/c".toList = _
  rw [lit_data, lit_c]; rfl
theorem metaMid_v3 (i : Nat) : metaMid .v3 i =
    'm' :: (['e', 't', 'a', '/', 'r', 'o', 'o', 't', '/'] ++ (decimal i ++ ".array.json".toList)) := by
  show "meta/root/".toList ++ decimal i ++ ".array.json".toList = _
  rw [lit_metaroot, List.append_assoc]; rfl
theorem metaMid_v2 (i : Nat) : metaMid .v2 i =
    decimal i ++ ['/', '.', 'z', 'a', 'r', 'r', 'a', 'y'] := by
  show decimal i ++ "/.zarray".toList = _
  rw [lit_zarray]

theorem decimal_head_digit (n : Nat) : ∃ c cs, decimal n = c :: cs ∧ c.isDigit = true := by
  cases h : decimal n with
  | nil => exact absurd h (decimal_ne_nil n)
  | cons c cs => exact ⟨c, cs, rfl, decimal_isDigit (n := n) (by rw [h]; simp)⟩

theorem decimal_append_ne {n : Nat} {t s : Text} {c : Char} (hc : c.isDigit = false) :
    decimal n ++ t ≠ c :: s := by
  obtain ⟨d, ds, h, hd⟩ := decimal_head_digit n
  rw [h]
  intro he
  simp only [List.cons_append, List.cons.injEq] at he
  rw [he.1, hc] at hd
  exact absurd hd (by decide)

theorem objectPath_rel2 {cfg : WConfig} (hV : cfg.version = .v2) (g : Nat) (l : List Nat) :
    dataMid cfg.version cfg.level ++ (decimal g ++ suffix l) = decimal cfg.level ++ suffix (g :: l) := by
  rw [hV, suffix_cons]
  show (decimal cfg.level ++ ['/']) ++ _ = _
  rw [List.append_assoc]; rfl

theorem objectPath_inj_level {a b : WConfig} (hs : SameStore a b) {g g' : Nat} {l l' : List Nat}
    (h : objectPath a g l = objectPath b g' l') : a.level = b.level ∧ g = g' ∧ l = l' := by
  unfold objectPath at h
  rw [hs.bucket, hs.store] at h
  have h := List.append_cancel_left h
  cases hv : b.version with
  | v2 =>
    rw [objectPath_rel2 (hs.version.trans hv), objectPath_rel2 hv] at h
    obtain ⟨h1, h2⟩ := decimal_suffix_inj h
    simp only [List.cons.injEq] at h2
    exact ⟨h1, h2⟩
  | v3 =>
    have hva := hs.version.trans hv
    rw [hva, hv, dataMid_v3, dataMid_v3] at h
    simp only [List.cons_append, List.append_assoc, List.nil_append, List.cons.injEq, true_and] at h
    obtain ⟨e1, e2⟩ := head_split (decimal_no_slash _) (decimal_no_slash _) (.inr ⟨_, rfl⟩) (.inr ⟨_, rfl⟩) h
    have e2 := (List.cons.inj (List.cons.inj e2).2).2
    exact ⟨decimal_inj e1, decimal_suffix_inj e2⟩

theorem objectPath_ne_metaPath {a b : WConfig} (hs : SameStore a b) (g : Nat) (l : List Nat) :
    objectPath a g l ≠ arrayMetaPath b := by
  rw [arrayMetaPath_eq]
  unfold objectPath
  rw [hs.bucket, hs.store]
  intro h
  have h := List.append_cancel_left h
  cases hv : b.version with
  | v2 =>
    rw [objectPath_rel2 (hs.version.trans hv), hv, suffix_cons] at h
    unfold metaMid at h
    simp only [lit_zarray] at h
    obtain ⟨_, e2⟩ := head_split (decimal_no_slash _) (decimal_no_slash _) (.inr ⟨_, rfl⟩) (.inr ⟨_, rfl⟩) h
    exact decimal_append_ne (by decide) (List.cons.inj e2).2
  | v3 =>
    rw [hs.version, hv, dataMid_v3, metaMid_v3] at h
    exact absurd (List.cons.inj h).1 (by decide)

theorem arrayMetaPath_inj {a b : WConfig} (hs : SameStore a b) (h : arrayMetaPath a = arrayMetaPath b) :
    a.level = b.level := by
  rw [arrayMetaPath_eq, arrayMetaPath_eq, hs.bucket, hs.store] at h
  have h := List.append_cancel_left h
  rw [hs.version] at h
  unfold metaMid at h
  cases hv : b.version with
  | v2 =>
    rw [hv] at h
    exact decimal_inj (List.append_cancel_right h)
  | v3 =>
    have h : metaMid .v3 a.level = metaMid .v3 b.level := by rw [hv] at h; exact h
    rw [metaMid_v3, metaMid_v3] at h
    exact decimal_inj (List.append_cancel_right (List.append_cancel_left (List.cons.inj h).2))

/-- Stream-level metadata objects lie next to the arrays, except for the store path `file:/`. -/
theorem metaSinkPath_eq {cfg : WConfig} (h : cfg.bucket.isSome = true ∨ cfg.storePath ≠ "file:/".toList) (key : Text) :
    metaSinkPath cfg key = baseOf cfg.bucket.isSome cfg.storePath ++ key := by
  unfold metaSinkPath baseOf
  cases hb : cfg.bucket.isSome with
  | true => simp
  | false =>
    rw [hb] at h
    have h : cfg.storePath ≠ "file:/".toList := by
      rcases h with h | h
      · exact absurd h (by decide)
      · exact h
    simp only [Bool.false_eq_true, if_false, Bool.not_false, Bool.true_and]
    unfold stripFile
    by_cases hp : "file://".toList.isPrefixOf cfg.storePath = true
    · rw [if_pos hp, if_pos ((prefix_append_cases _ _ _).2 (.inl hp))]
      have hl : 7 ≤ cfg.storePath.length := by
        have := (List.isPrefixOf_iff_prefix.1 hp).length_le
        simpa using this
      rw [List.drop_append_of_le_length hl]
      simp
    · rw [if_neg hp, if_neg]
      · simp
      · intro hp2
        rcases (prefix_append_cases _ _ _).1 hp2 with hp2 | ⟨q, hq, e, hq2⟩
        · exact hp hp2
        · have : q = ['/'] := by
            rw [List.isPrefixOf_iff_prefix] at hq2
            obtain ⟨r, hr⟩ := hq2
            cases q with
            | nil => exact absurd rfl hq
            | cons a q =>
              simp only [List.cons_append, List.cons.injEq] at hr
              have := List.append_eq_nil_iff.1 hr.2
              rw [this.1, hr.1]
          subst this
          apply h
          have := congrArg List.dropLast e
          rw [List.dropLast_concat] at this
          rw [← this]
          decide

/-- The names relative to the store. -/
theorem key_ne_object {v : Version} {key : Text} (hk : key ∈ metaKeys v) (i g : Nat) (l : List Nat) :
    dataMid v i ++ (decimal g ++ suffix l) ≠ key := by
  cases v with
  | v2 =>
    have hrel : dataMid .v2 i ++ (decimal g ++ suffix l) = decimal i ++ suffix (g :: l) := by
      rw [suffix_cons]
      show (decimal i ++ ['/']) ++ _ = _
      rw [List.append_assoc]; rfl
    rw [hrel]
    simp only [metaKeys, List.mem_cons, List.not_mem_nil, or_false] at hk
    rcases hk with rfl | rfl | rfl | rfl
    · rw [lit_zattrs]; exact decimal_append_ne (by decide)
    · rw [lit_zgroup]; exact decimal_append_ne (by decide)
    · intro h
      rw [lit_0zattrs, suffix_cons] at h
      obtain ⟨_, e2⟩ := head_split (decimal_no_slash _) (by decide) (.inr ⟨_, rfl⟩) (.inr ⟨_, rfl⟩) h
      exact decimal_append_ne (by decide) (List.cons.inj e2).2
    · rw [lit_acquire]; exact decimal_append_ne (by decide)
  | v3 =>
    unfold metaKeys at hk
    rw [lit_zarrjson, lit_rootgroup, lit_metaacquire, List.mem_cons, List.mem_cons, List.mem_singleton] at hk
    intro h
    rw [dataMid_v3] at h
    rcases hk with rfl | rfl | rfl <;> exact absurd (List.cons.inj h).1 (by decide)

theorem key_ne_meta {v : Version} {key : Text} (hk : key ∈ metaKeys v) (i : Nat) : metaMid v i ≠ key := by
  cases v with
  | v2 =>
    simp only [metaKeys, List.mem_cons, List.not_mem_nil, or_false] at hk
    unfold metaMid
    simp only [lit_zarray]
    rcases hk with rfl | rfl | rfl | rfl
    · rw [lit_zattrs]; exact decimal_append_ne (by decide)
    · rw [lit_zgroup]; exact decimal_append_ne (by decide)
    · intro h
      rw [lit_0zattrs] at h
      obtain ⟨_, e2⟩ := head_split (decimal_no_slash _) (by decide) (.inr ⟨_, rfl⟩) (.inr ⟨_, rfl⟩) h
      exact absurd e2 (by decide)
    · rw [lit_acquire]; exact decimal_append_ne (by decide)
  | v3 =>
    unfold metaKeys at hk
    rw [lit_zarrjson, lit_rootgroup, lit_metaacquire, List.mem_cons, List.mem_cons, List.mem_singleton] at hk
    intro h
    rw [metaMid_v3] at h
    generalize decimal i ++ ".array.json".toList = t at h
    rcases hk with rfl | rfl | rfl
    · exact absurd (List.cons.inj h).1 (by decide)
    · simp only [List.cons_append, List.cons.injEq, true_and] at h
      exact absurd h.1 (by decide)
    · simp only [List.cons_append, List.cons.injEq, true_and] at h
      exact absurd h.1 (by decide)

theorem dataMid_head (v : Version) (i : Nat) : (dataMid v i).head? ≠ some 'f' := by
  cases v with
  | v2 =>
    show (decimal i ++ ['/']).head? ≠ _
    obtain ⟨d, ds, h, hd⟩ := decimal_head_digit i
    rw [h, List.cons_append, List.head?_cons]
    intro he
    cases he
    exact absurd hd (by decide)
  | v3 =>
    rw [dataMid_v3, List.head?_cons]
    decide

theorem metaMid_head (v : Version) (i : Nat) : (metaMid v i).head? ≠ some 'f' := by
  cases v with
  | v2 =>
    rw [metaMid_v2]
    obtain ⟨d, ds, h, hd⟩ := decimal_head_digit i
    rw [h, List.cons_append, List.head?_cons]
    intro he
    cases he
    exact absurd hd (by decide)
  | v3 =>
    rw [metaMid_v3, List.head?_cons]
    decide

theorem dataMid_ne_nil (v : Version) (i : Nat) : dataMid v i ≠ [] := by
  cases v with
  | v2 =>
    show decimal i ++ ['/'] ≠ _
    simp
  | v3 => rw [dataMid_v3]; exact List.cons_ne_nil _ _

theorem rel_head {v : Version} (i g : Nat) (l : List Nat) (s : Text) :
    'f' :: s ≠ dataMid v i ++ (decimal g ++ suffix l) := by
  intro h
  have h1 := dataMid_head v i
  have h2 := dataMid_ne_nil v i
  generalize dataMid v i = t at *
  cases t with
  | nil => exact h2 rfl
  | cons a t =>
    rw [List.cons_append] at h
    exact h1 (by rw [List.head?_cons, (List.cons.inj h).1])

theorem relMeta_head {v : Version} (i : Nat) (s : Text) : 'f' :: s ≠ metaMid v i := by
  intro h
  have h1 := metaMid_head v i
  rw [← h] at h1
  exact h1 rfl

theorem metaSinkPath_special {cfg : WConfig} (h : ¬ (cfg.bucket.isSome = true ∨ cfg.storePath ≠ "file:/".toList))
    (key : Text) : metaSinkPath cfg key = ['f', 'i', 'l', 'e', ':', '/', '/'] ++ key ∧
      baseOf cfg.bucket.isSome cfg.storePath = [] := by
  rw [not_or] at h
  obtain ⟨h1, h2⟩ := h
  rw [Bool.not_eq_true] at h1
  simp only [ne_eq, not_not] at h2
  unfold metaSinkPath baseOf
  rw [h1, h2]
  constructor
  · simp only [Bool.false_eq_true, if_false]
    have : stripFile "file:/".toList = "file:/".toList := by decide
    rw [this, lit_file1]
    rfl
  · decide

theorem metaSinkPath_ne_object {a b : WConfig} (hs : SameStore a b) {key : Text} (hk : key ∈ metaKeys a.version)
    (g : Nat) (l : List Nat) : metaSinkPath a key ≠ objectPath b g l := by
  unfold objectPath
  rw [← hs.bucket, ← hs.store, ← hs.version]
  intro h
  by_cases hsp : a.bucket.isSome = true ∨ a.storePath ≠ "file:/".toList
  · rw [metaSinkPath_eq hsp] at h
    exact key_ne_object hk _ _ _ (List.append_cancel_left h).symm
  · obtain ⟨h1, h2⟩ := metaSinkPath_special hsp key
    rw [h1, h2, List.nil_append, List.cons_append] at h
    exact rel_head _ _ _ _ h

theorem metaSinkPath_ne_meta {a b : WConfig} (hs : SameStore a b) {key : Text} (hk : key ∈ metaKeys a.version) :
    metaSinkPath a key ≠ arrayMetaPath b := by
  rw [arrayMetaPath_eq, ← hs.bucket, ← hs.store, ← hs.version]
  intro h
  by_cases hsp : a.bucket.isSome = true ∨ a.storePath ≠ "file:/".toList
  · rw [metaSinkPath_eq hsp] at h
    exact key_ne_meta hk _ (List.append_cancel_left h).symm
  · obtain ⟨h1, h2⟩ := metaSinkPath_special hsp key
    rw [h1, h2, List.nil_append, List.cons_append] at h
    exact relMeta_head _ _ h

theorem metaSinkPath_inj {a : WConfig} {k k' : Text} (h : metaSinkPath a k = metaSinkPath a k') : k = k' := by
  unfold metaSinkPath at h
  have := List.append_cancel_left h
  simpa using this

/-- Objects of different levels are different. -/
theorem owned_level {a b : WConfig} (hs : SameStore a b) {p : Text} (h1 : Owned a p) (h2 : Owned b p) :
    a.level = b.level := by
  rcases h1 with rfl | ⟨g, l, rfl⟩
  · rcases h2 with h2 | ⟨g', l', h2⟩
    · exact arrayMetaPath_inj hs h2
    · exact absurd h2.symm (objectPath_ne_metaPath hs.symm _ _)
  · rcases h2 with h2 | ⟨g', l', h2⟩
    · exact absurd h2 (objectPath_ne_metaPath hs _ _)
    · exact (objectPath_inj_level hs h2).1

theorem owned_ne_sink {a b : WConfig} (hs : SameStore a b) {p key : Text} (hk : key ∈ metaKeys a.version)
    (h : Owned b p) : metaSinkPath a key ≠ p := by
  rcases h with rfl | ⟨g, l, rfl⟩
  · exact metaSinkPath_ne_meta hs hk
  · exact metaSinkPath_ne_object hs hk g l

end AZ
