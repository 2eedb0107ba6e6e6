import Verif.Spec.Constraints

set_option linter.unusedSimpArgs false

/-! # C44: strings are trimmed exactly -/

namespace AZ
open Spec

theorem isSpace_iff (c : Char) : isSpace c = true ↔ Whitespace c := by
  have key : ∀ d : Char, c.toNat = d.toNat ↔ c = d := by
    intro d
    constructor
    · intro h; exact Char.ext (UInt32.toNat_inj.1 h)
    · intro h; rw [h]
  unfold isSpace Whitespace
  simp only [Bool.or_eq_true, decide_eq_true_eq, List.mem_cons, List.not_mem_nil, or_false]
  have e9 := key '\t'
  have e10 := key '\n'
  have e11 := key '\x0b'
  have e12 := key '\x0c'
  have e13 := key '\r'
  have n9 : '\t'.toNat = 9 := rfl
  have n10 : '\n'.toNat = 10 := rfl
  have n11 : '\x0b'.toNat = 11 := rfl
  have n12 : '\x0c'.toNat = 12 := rfl
  have n13 : '\r'.toNat = 13 := rfl
  rw [n9] at e9
  rw [n10] at e10
  rw [n11] at e11
  rw [n12] at e12
  rw [n13] at e13
  rw [e9, e10, e11, e12, e13]
  simp only [or_assoc]

theorem dropWhile_split {p : Char → Bool} (l : Text) :
    ∃ a, l = a ++ l.dropWhile p ∧ ∀ c ∈ a, p c = true := by
  refine ⟨l.takeWhile p, (List.takeWhile_append_dropWhile).symm, ?_⟩
  intro c hc
  induction l with
  | nil => simp at hc
  | cons x l ih =>
    rw [List.takeWhile_cons] at hc
    split at hc
    · rename_i hx
      rcases List.mem_cons.1 hc with rfl | hc
      · exact hx
      · exact ih hc
    · simp at hc

theorem dropWhile_head {p : Char → Bool} (l : Text) : ∀ c, (l.dropWhile p).head? = some c → p c = false := by
  induction l with
  | nil => simp
  | cons x l ih =>
    intro c
    rw [List.dropWhile_cons]
    split
    · exact ih c
    · rename_i hx
      intro h
      simp at h
      rw [← h]
      simpa using hx

/-- **C44.** `trim` removes exactly the leading and trailing white space. -/
theorem trim_spec (s : Text) : Trimmed s (trim s) := by
  obtain ⟨a, h1, h2⟩ := dropWhile_split (p := isSpace) s
  obtain ⟨b, h3, h4⟩ := dropWhile_split (p := isSpace) (s.dropWhile isSpace).reverse
  have h5 : s.dropWhile isSpace = trim s ++ b.reverse := by
    have := congrArg List.reverse h3
    simpa [trim] using this
  refine ⟨⟨a, b.reverse, ?_, ?_, ?_⟩, ?_, ?_⟩
  · rw [List.append_assoc, ← h5]; exact h1
  · intro c hc; exact (isSpace_iff c).1 (h2 c hc)
  · intro c hc; exact (isSpace_iff c).1 (h4 c (by simpa using hc))
  · intro c hc hw
    have := dropWhile_head (p := isSpace) s c (by
      rw [h5]
      cases ht : trim s with
      | nil => rw [ht] at hc; simp at hc
      | cons x xs => rw [ht] at hc; simpa using hc)
    rw [(isSpace_iff c).2 hw] at this
    simp at this
  · intro c hc hw
    have := dropWhile_head (p := isSpace) (s.dropWhile isSpace).reverse c (by
      rw [← List.getLast?_reverse]
      exact hc)
    rw [(isSpace_iff c).2 hw] at this
    simp at this

theorem blank_append_inj {t t' b b' : Text} (h : t ++ b = t' ++ b') (hb : Blank b) (hb' : Blank b')
    (hl : ∀ c, t.getLast? = some c → ¬ Whitespace c) (hl' : ∀ c, t'.getLast? = some c → ¬ Whitespace c) : t = t' := by
  rcases List.append_eq_append_iff.1 h with ⟨x, h1, h2⟩ | ⟨x, h1, h2⟩
  · cases hx : x.getLast? with
    | none => rw [List.getLast?_eq_none_iff] at hx; subst hx; simpa using h1.symm
    | some c =>
      exact absurd (hb c (by rw [h2]; exact List.mem_append_left _ (List.mem_of_getLast? hx)))
        (hl' c (by rw [h1, List.getLast?_append, hx]; rfl))
  · cases hx : x.getLast? with
    | none => rw [List.getLast?_eq_none_iff] at hx; subst hx; simpa using h1
    | some c =>
      exact absurd (hb' c (by rw [h2]; exact List.mem_append_left _ (List.mem_of_getLast? hx)))
        (hl c (by rw [h1, List.getLast?_append, hx]; rfl))

theorem append_blank_inj {a a' t t' : Text} (h : a ++ t = a' ++ t') (ha : Blank a) (ha' : Blank a')
    (hf : ∀ c, t.head? = some c → ¬ Whitespace c) (hf' : ∀ c, t'.head? = some c → ¬ Whitespace c) : t = t' := by
  rcases List.append_eq_append_iff.1 h with ⟨x, h1, h2⟩ | ⟨x, h1, h2⟩
  · cases x with
    | nil => simpa using h2
    | cons c x => exact absurd (ha' c (by rw [h1]; simp)) (hf c (by rw [h2]; rfl))
  · cases x with
    | nil => simpa using h2.symm
    | cons c x => exact absurd (ha c (by rw [h1]; simp)) (hf' c (by rw [h2]; rfl))

/-- Only one string is `s` without surrounding white space. -/
theorem trimmed_unique {s t t' : Text} (h : Trimmed s t) (h' : Trimmed s t') : t = t' := by
  obtain ⟨⟨a, b, e, ha, hb⟩, hf, hl⟩ := h
  obtain ⟨⟨a', b', e', ha', hb'⟩, hf', hl'⟩ := h'
  rw [e] at e'
  -- empty results
  have blankOf : ∀ {x y z : Text}, Blank x → Blank z → ∀ {a t b : Text}, x ++ y ++ z = a ++ t ++ b → y = [] →
      (∀ c, t.head? = some c → ¬ Whitespace c) → t = [] := by
    intro x y z hx hz a t b hxyz hy ht
    subst hy
    cases t with
    | nil => rfl
    | cons c t =>
      exfalso
      have hc : c ∈ x ++ [] ++ z := by rw [hxyz]; simp
      rw [List.append_nil] at hc
      rcases List.mem_append.1 hc with hc | hc
      · exact ht c rfl (hx c hc)
      · exact ht c rfl (hz c hc)
  by_cases h0 : t = []
  · rw [h0, blankOf ha hb e' h0 hf']
  · by_cases h0' : t' = []
    · exact absurd (blankOf ha' hb' e'.symm h0' hf) h0
    · have hh : ∀ c, (t ++ b).head? = some c → ¬ Whitespace c := by
        intro c hc
        cases t with
        | nil => exact absurd rfl h0
        | cons x xs => exact hf c (by simpa using hc)
      have hh' : ∀ c, (t' ++ b').head? = some c → ¬ Whitespace c := by
        intro c hc
        cases t' with
        | nil => exact absurd rfl h0'
        | cons x xs => exact hf' c (by simpa using hc)
      rw [List.append_assoc, List.append_assoc] at e'
      exact blank_append_inj (append_blank_inj e' ha ha' hh hh') hb hb' hl hl'

/-- `trim` is idempotent. -/
theorem trim_idempotent (s : Text) : trim (trim s) = trim s := by
  have h := trim_spec s
  refine (trimmed_unique (trim_spec (trim s)) (t' := trim s) ⟨⟨[], [], by simp, ?_, ?_⟩, h.first, h.last⟩)
  · intro c hc; simp at hc
  · intro c hc; simp at hc

/-- The result is empty exactly for blank strings. -/
theorem trim_eq_nil_iff (s : Text) : trim s = [] ↔ Blank s := by
  constructor
  · intro h
    obtain ⟨a, b, e, ha, hb⟩ := (trim_spec s).parts
    rw [h, List.append_nil] at e
    rw [e]
    intro c hc
    rcases List.mem_append.1 hc with hc | hc
    · exact ha c hc
    · exact hb c hc
  · intro h
    refine (trimmed_unique (trim_spec s) (t' := []) ⟨⟨s, [], by simp, h, ?_⟩, ?_, ?_⟩)
    · intro c hc; simp at hc
    · intro c hc; simp at hc
    · intro c hc; simp at hc

/-- The result is a contiguous part of the input. -/
theorem trim_infix (s : Text) : trim s <:+: s := by
  obtain ⟨a, b, e, _, _⟩ := (trim_spec s).parts
  exact ⟨a, b, e.symm⟩

example : trim " \t a b\n ".toList = "a b".toList := by decide

end AZ
