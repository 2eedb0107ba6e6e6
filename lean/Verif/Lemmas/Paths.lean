import Verif.Model.Paths
import Verif.Lemmas.Dimension

set_option linter.unusedSimpArgs false

namespace AZ
open Spec

/-! ### Decimal rendering -/

theorem decimal_isDigit {n : Nat} {c : Char} (h : c ∈ decimal n) : c.isDigit = true :=
  Nat.isDigit_of_mem_toDigits (by omega) (by omega) h

theorem decimal_no_slash (n : Nat) : '/' ∉ decimal n := by
  intro h
  exact absurd (decimal_isDigit h) (by decide)

theorem decimal_ne_nil (n : Nat) : decimal n ≠ [] := Nat.toDigits_ne_nil

/-- Value of a digit string. -/
def digitsVal : Text → Nat → Nat
  | [], acc => acc
  | c :: cs, acc => digitsVal cs (acc * 10 + (c.toNat - 48))

theorem digitsVal_append (a b : Text) (acc : Nat) :
    digitsVal (a ++ b) acc = digitsVal b (digitsVal a acc) := by
  induction a generalizing acc with
  | nil => rfl
  | cons c cs ih => exact ih _

theorem digitsVal_decimal (n : Nat) : digitsVal (decimal n) 0 = n := by
  induction n using Nat.strong_induction_on with
  | _ n ih =>
    by_cases h : n < 10
    · rw [decimal, Nat.toDigits_of_lt_base h]
      simp only [digitsVal]
      rw [Nat.toNat_digitChar_sub_48_of_lt_ten h]
      omega
    · have hb : 10 ≤ n := by omega
      rw [decimal, Nat.toDigits_of_base_le (by omega) hb, digitsVal_append]
      have := ih (n / 10) (by omega)
      rw [decimal] at this
      rw [this]
      simp only [digitsVal]
      rw [Nat.toNat_digitChar_sub_48_of_lt_ten (Nat.mod_lt _ (by omega))]
      omega

theorem decimal_inj {m n : Nat} (h : decimal m = decimal n) : m = n := by
  rw [← digitsVal_decimal m, h, digitsVal_decimal]

theorem decimal_length_mono {m n : Nat} (h : m ≤ n) : (decimal m).length ≤ (decimal n).length := by
  have h1 : 0 < (decimal n).length := List.length_pos_iff.2 (decimal_ne_nil n)
  unfold decimal at *
  rw [Nat.length_toDigits_le_iff (by omega) h1]
  have := (Nat.length_toDigits_le_iff (b := 10) (n := n) (by omega) h1).1 (Nat.le_refl _)
  omega

/-! ### Path suffixes -/

/-- `/l1/l2/../lk`. -/
def suffix (l : List Nat) : Text := l.flatMap fun k => '/' :: decimal k

@[simp] theorem suffix_nil : suffix [] = [] := rfl
@[simp] theorem suffix_cons (k : Nat) (l) : suffix (k :: l) = '/' :: (decimal k ++ suffix l) := by
  simp [suffix]

/-- A slash-free head followed by a rest that is empty or starts with a slash is determined. -/
theorem head_split {a a' r r' : Text} (ha : '/' ∉ a) (ha' : '/' ∉ a')
    (hr : r = [] ∨ ∃ t, r = '/' :: t) (hr' : r' = [] ∨ ∃ t, r' = '/' :: t)
    (h : a ++ r = a' ++ r') : a = a' ∧ r = r' := by
  induction a generalizing a' with
  | nil =>
    cases a' with
    | nil => exact ⟨rfl, by simpa using h⟩
    | cons c cs =>
      exfalso
      simp only [List.nil_append] at h
      rcases hr with rfl | ⟨t, rfl⟩
      · simp at h
      · simp only [List.cons_append, List.cons.injEq] at h
        exact ha' (by simp [← h.1])
  | cons c cs ih =>
    cases a' with
    | nil =>
      exfalso
      simp only [List.nil_append] at h
      rcases hr' with rfl | ⟨t, rfl⟩
      · simp at h
      · simp only [List.cons_append, List.cons.injEq] at h
        exact ha (by simp [h.1])
    | cons d ds =>
      simp only [List.cons_append, List.cons.injEq] at h
      obtain ⟨e1, e2⟩ := ih (fun x => ha (by simp [x])) (fun x => ha' (by simp [x])) h.2
      exact ⟨by rw [h.1, e1], e2⟩

theorem suffix_start (l : List Nat) : suffix l = [] ∨ ∃ t, suffix l = '/' :: t := by
  cases l with
  | nil => exact .inl rfl
  | cons k l => exact .inr ⟨_, suffix_cons k l⟩

theorem suffix_inj {l l' : List Nat} (h : suffix l = suffix l') : l = l' := by
  induction l generalizing l' with
  | nil => cases l' <;> simp_all
  | cons k l ih => cases l' with
    | nil => simp at h
    | cons k' l' =>
      simp only [suffix_cons, List.cons.injEq, true_and] at h
      obtain ⟨e1, e2⟩ := head_split (decimal_no_slash k) (decimal_no_slash k')
        (suffix_start l) (suffix_start l') h
      rw [decimal_inj e1, ih e2]

theorem decimal_suffix_inj {g g' : Nat} {l l' : List Nat}
    (h : decimal g ++ suffix l = decimal g' ++ suffix l') : g = g' ∧ l = l' := by
  obtain ⟨e1, e2⟩ := head_split (decimal_no_slash g) (decimal_no_slash g')
        (suffix_start l) (suffix_start l') h
  exact ⟨decimal_inj e1, suffix_inj e2⟩

/-! ### Enumeration of the paths -/

theorem flatMap_congr' {α β : Type} {l : List α} {f g : α → List β} (h : ∀ a ∈ l, f a = g a) :
    l.flatMap f = l.flatMap g := by
  rw [List.flatMap_def, List.flatMap_def, List.map_congr_left h]

theorem flatMap_range_map {α : Type} (n P : Nat) (f : Nat → Nat → α) (hP : 0 < P) :
    ((List.range n).flatMap fun k => (List.range P).map fun c => f k c) =
      (List.range (n * P)).map fun c => f (c / P) (c % P) := by
  induction n with
  | zero => simp
  | succ n ih =>
    rw [List.range_succ, List.flatMap_append, ih, Nat.succ_mul, List.range_add, List.map_append]
    congr 1
    simp only [List.flatMap_cons, List.flatMap_nil, List.append_nil, List.map_map]
    apply List.map_congr_left
    intro c hc
    have hc := List.mem_range.1 hc
    simp only [Function.comp]
    rw [Nat.mul_comm n P, Nat.mul_add_div hP, Nat.div_eq_of_lt hc, Nat.mul_add_mod, Nat.mod_eq_of_lt hc,
      Nat.add_zero]

theorem dataPathsFrom_eq (v : Version) (ds : List Dim) (paths : List Text)
    (h : ∀ d ∈ ds, 0 < partsAlong v d) :
    dataPathsFrom v ds paths = some (paths.flatMap fun p =>
      (List.range (prod (ds.map (partsAlong v)))).map fun c =>
        p ++ suffix (unravel (ds.map (partsAlong v)) c)) := by
  induction ds generalizing paths with
  | nil => simp [dataPathsFrom, unravel]
  | cons d ds ih =>
    have hd := h d (by simp)
    have hds := fun x hx => h x (List.mem_cons_of_mem _ hx)
    have hP : 0 < prod (ds.map (partsAlong v)) := prod_pos (by
      intro x hx
      obtain ⟨y, hy, rfl⟩ := List.mem_map.1 hx
      exact hds y hy)
    rw [dataPathsFrom, if_neg (by omega), ih _ hds]
    congr 1
    unfold extendPaths
    rw [List.flatMap_assoc]
    apply flatMap_congr'
    intro p _
    rw [List.flatMap_map]
    simp only [List.map_cons, prod_cons, unravel, suffix_cons]
    rw [← flatMap_range_map (partsAlong v d) _
      (fun k c => p ++ '/' :: (decimal k ++ suffix (unravel (ds.map (partsAlong v)) c))) hP]
    apply flatMap_congr'
    intro k _
    apply List.map_congr_left
    intro c _
    simp

/-! ### `file://` removal -/

/-- What remains of `store ++ "/"` after the optional removal of `file://`. -/
def baseOf (s3 : Bool) (store : Text) : Text :=
  if !s3 && "file://".toList.isPrefixOf (store ++ ['/']) then (store ++ ['/']).drop 7 else store ++ ['/']

theorem prefix_append_cases (p a b : Text) :
    p.isPrefixOf (a ++ b) = true ↔ p.isPrefixOf a = true ∨ ∃ q, q ≠ [] ∧ p = a ++ q ∧ q.isPrefixOf b = true := by
  induction p generalizing a with
  | nil => simp
  | cons x xs ih =>
    cases a with
    | nil => simp
    | cons y ys =>
      simp only [List.cons_append, List.isPrefixOf_cons_cons, Bool.and_eq_true, ih, beq_iff_eq,
        List.cons.injEq]
      constructor
      · rintro ⟨rfl, h | ⟨q, h1, h2, h3⟩⟩
        · exact .inl ⟨rfl, h⟩
        · exact .inr ⟨q, h1, ⟨rfl, h2⟩, h3⟩
      · rintro (⟨rfl, h⟩ | ⟨q, h1, ⟨rfl, h2⟩, h3⟩)
        · exact ⟨rfl, .inl h⟩
        · exact ⟨rfl, .inr ⟨q, h1, h2, h3⟩⟩

theorem stripFile_eq (store : Text) {r : Text} (hr : r.head? ≠ some '/') :
    stripFile (store ++ '/' :: r) = baseOf false store ++ r := by
  have e : store ++ '/' :: r = (store ++ ['/']) ++ r := by simp
  unfold stripFile baseOf
  rw [e]
  have hiff : "file://".toList.isPrefixOf ((store ++ ['/']) ++ r) = true ↔
      "file://".toList.isPrefixOf (store ++ ['/']) = true := by
    rw [prefix_append_cases]
    constructor
    · rintro (h | ⟨q, h1, h2, h3⟩)
      · exact h
      · exfalso
        -- q is a proper non-empty suffix of "file://" after a slash, so it starts with a slash
        have hq : q = ['/'] := by
          have h2' : ['f', 'i', 'l', 'e', ':', '/', '/'] = store ++ '/' :: q := by
            have : "file://".toList = ['f', 'i', 'l', 'e', ':', '/', '/'] := by decide
            rw [this] at h2
            simpa using h2
          match store, h2' with
          | [], h => simp at h
          | [_], h => simp at h
          | [_, _], h => simp at h
          | [_, _, _], h => simp at h
          | [_, _, _, _], h => simp at h
          | [_, _, _, _, _], h => simp at h; exact h.2.2.2.2.2.symm
          | [_, _, _, _, _, _], h => simp at h; exact absurd h.2.2.2.2.2.2 h1
          | _ :: _ :: _ :: _ :: _ :: _ :: _ :: _, h => simp at h
        subst hq
        cases r with
        | nil => simp at h3
        | cons a as =>
          simp [List.isPrefixOf] at h3
          exact hr (by simp [← h3])
    · exact .inl
  by_cases h : "file://".toList.isPrefixOf (store ++ ['/']) = true
  · rw [if_pos (hiff.2 h), if_pos (by rw [h]; rfl)]
    have hl : 7 ≤ (store ++ ['/']).length := by
      have := (List.isPrefixOf_iff_prefix.1 h).length_le
      simpa using this
    rw [List.drop_append_of_le_length hl]
  · rw [if_neg (fun x => h (hiff.1 x)), if_neg (by rw [Bool.not_eq_true] at h; rw [h]; decide)]

/-- Middle part of the data paths: after the store, before the append index. -/
def dataMid (v : Version) (level : Nat) : Text :=
  match v with
  | .v2 => decimal level ++ ['/']
  | .v3 => "data/root/".toList ++ decimal level ++ "/c".toList

theorem head?_decimal_append (n : Nat) (t : Text) : (decimal n ++ t).head? ≠ some '/' := by
  intro h
  have hne := decimal_ne_nil n
  cases hd : decimal n with
  | nil => exact hne hd
  | cons c cs =>
    rw [hd] at h
    simp at h
    exact decimal_no_slash n (by rw [hd, h]; simp)

/-- The path of the object of append index `g` and grid position `l`. -/
def objectPath (cfg : WConfig) (g : Nat) (l : List Nat) : Text :=
  baseOf cfg.bucket.isSome cfg.storePath ++ (dataMid cfg.version cfg.level ++ (decimal g ++ suffix l))

theorem dataRoot_eq (cfg : WConfig) (g : Nat) :
    (if cfg.bucket.isSome then dataRoot cfg g else stripFile (dataRoot cfg g)) =
      baseOf cfg.bucket.isSome cfg.storePath ++ (dataMid cfg.version cfg.level ++ decimal g) := by
  have hd : dataRoot cfg g = cfg.storePath ++ '/' :: (dataMid cfg.version cfg.level ++ decimal g) := by
    unfold dataRoot dataMid
    cases cfg.version <;> simp
  have hh : (dataMid cfg.version cfg.level ++ decimal g).head? ≠ some '/' := by
    unfold dataMid
    cases cfg.version
    · simp only [List.append_assoc]
      exact head?_decimal_append _ _
    · simp
  rw [hd]
  cases hb : cfg.bucket.isSome
  · simp only [Bool.false_eq_true, if_false]
    exact stripFile_eq _ hh
  · simp [baseOf]

theorem dataPaths_eq (cfg : WConfig) (g : Nat)
    (h : ∀ d ∈ cfg.dims.tailDims, 0 < partsAlong cfg.version d) :
    dataPaths cfg g = some ((List.range (prod (cfg.dims.tailDims.map (partsAlong cfg.version)))).map
      fun c => objectPath cfg g (unravel (cfg.dims.tailDims.map (partsAlong cfg.version)) c)) := by
  unfold dataPaths
  simp only []
  rw [dataRoot_eq, dataPathsFrom_eq _ _ _ h]
  simp [objectPath]

theorem objectPath_inj {cfg : WConfig} {g g' : Nat} {l l' : List Nat}
    (h : objectPath cfg g l = objectPath cfg g' l') : g = g' ∧ l = l' := by
  unfold objectPath at h
  exact decimal_suffix_inj (List.append_cancel_left (List.append_cancel_left h))

end AZ
