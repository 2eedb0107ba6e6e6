import Verif.Spec.JsonText
import Verif.Lemmas.Paths
import Mathlib.Algebra.Order.Field.Rat
import Mathlib.Tactic.NormNum

set_option linter.unusedSimpArgs false

/-! # The serializer's output parses back -/

namespace AZ
open Spec

/-- Characters that may follow a number. -/
def Stop (t : Text) : Prop :=
  ∀ c r, t = c :: r → c.isDigit = false ∧ c ≠ '.' ∧ c ≠ 'e' ∧ c ≠ 'E'

theorem takeWhile_append_stop {p : Char → Bool} {a r : Text} (ha : ∀ c ∈ a, p c = true)
    (hr : ∀ c t, r = c :: t → p c = false) :
    (a ++ r).takeWhile p = a ∧ (a ++ r).dropWhile p = r := by
  induction a with
  | nil =>
    cases r with
    | nil => simp
    | cons c t => simp [hr c t rfl]
  | cons c cs ih =>
    have h1 := ha c (by simp)
    have := ih fun x hx => ha x (by simp [hx])
    simp [h1, this]

theorem digitsValue_eq (ds : Text) (acc : Nat) :
    ds.foldl (fun a c => a * 10 + (c.toNat - 48)) acc = digitsVal ds acc := by
  induction ds generalizing acc with
  | nil => rfl
  | cons c cs ih => exact ih _

theorem digitsValue_decimal (n : Nat) : digitsValue (decimal n) = n := by
  unfold digitsValue
  rw [digitsValue_eq, digitsVal_decimal]

theorem digits_decimal (n : Nat) {r : Text} (hr : ∀ c t, r = c :: t → c.isDigit = false) :
    digits (decimal n ++ r) = some (decimal n, r) := by
  obtain ⟨h1, h2⟩ := takeWhile_append_stop (p := Char.isDigit) (fun c hc => decimal_isDigit (n := n) hc) hr
  unfold digits
  rw [h1, h2]
  have := decimal_ne_nil n
  simp [this]

/-- No superfluous leading zero. -/
theorem decimal_no_leading_zero (n : Nat) : ((decimal n).head? = some '0' && decide ((decimal n).length > 1)) = false := by
  induction n using Nat.strong_induction_on with
  | _ n ih =>
    by_cases h : n < 10
    · rw [decimal, Nat.toDigits_of_lt_base h]
      simp
    · have hb : 10 ≤ n := by omega
      have hq := ih (n / 10) (by omega)
      rw [decimal, Nat.toDigits_of_base_le (by omega) hb]
      have hne : Nat.toDigits 10 (n / 10) ≠ [] := Nat.toDigits_ne_nil
      by_cases h10 : n / 10 < 10
      · have : n / 10 ≠ 0 := by omega
        rw [Nat.toDigits_of_lt_base h10]
        simp only [List.cons_append, List.head?_cons]
        have hc : Nat.digitChar (n / 10) ≠ '0' := by
          revert h10 this
          generalize n / 10 = k
          intro h10 h0
          match k, h10, h0 with
          | 1, _, _ => decide
          | 2, _, _ => decide
          | 3, _, _ => decide
          | 4, _, _ => decide
          | 5, _, _ => decide
          | 6, _, _ => decide
          | 7, _, _ => decide
          | 8, _, _ => decide
          | 9, _, _ => decide
        simp [hc]
      · have hlen : (decimal (n / 10)).length > 1 := by
          have hb2 : 10 ≤ n / 10 := by omega
          rw [decimal, Nat.toDigits_of_base_le (by omega) hb2]
          have hne : Nat.toDigits 10 (n / 10 / 10) ≠ [] := Nat.toDigits_ne_nil
          have := List.length_pos_iff.2 hne
          simp
          exact this
        have hh : (decimal (n / 10)).head? ≠ some '0' := by
          intro he
          rw [he] at hq
          simp at hq
          omega
        unfold decimal at hh
        cases hq' : Nat.toDigits 10 (n / 10) with
        | nil => exact absurd hq' hne
        | cons c cs =>
          rw [hq'] at hh
          simp at hh
          simp [hh]

theorem intPart_decimal (n : Nat) {r : Text} (hr : ∀ c t, r = c :: t → c.isDigit = false) :
    intPart (decimal n ++ r) = some ((n : Rat), r) := by
  unfold intPart
  rw [digits_decimal n hr]
  dsimp only
  rw [decimal_no_leading_zero, digitsValue_decimal]
  simp

theorem expPart_stop {r : Text} (hr : Stop r) : expPart r = some (1, r) := by
  unfold expPart
  cases r with
  | nil => rfl
  | cons c t =>
    obtain ⟨_, _, h3, h4⟩ := hr c t rfl
    simp [h3, h4]

theorem fracPart_stop {r : Text} (hr : Stop r) : fracPart r = some (0, r) := by
  unfold fracPart
  split
  · rename_i t
    exact absurd rfl (hr '.' t rfl).2.1
  · rfl

theorem Stop.digit {r : Text} (hr : Stop r) : ∀ c t, r = c :: t → c.isDigit = false :=
  fun c t h => (hr c t h).1

theorem number_of_unsigned {t : Text} (h : ∀ r, t ≠ '-' :: r) : number t = unsignedNumber t := by
  unfold number
  split
  · rename_i r
    exact absurd rfl (h r)
  · rfl

theorem decimal_head (n : Nat) : ∃ c cs, decimal n = c :: cs ∧ c.isDigit = true := by
  cases h : decimal n with
  | nil => exact absurd h (decimal_ne_nil n)
  | cons c cs => exact ⟨c, cs, rfl, decimal_isDigit (n := n) (by rw [h]; simp)⟩

theorem decimal_no_minus (n : Nat) (x : Text) : ∀ r, decimal n ++ x ≠ '-' :: r := by
  intro r he
  obtain ⟨c, cs, h1, h2⟩ := decimal_head n
  rw [h1] at he
  simp only [List.cons_append, List.cons.injEq] at he
  rw [he.1] at h2
  exact absurd h2 (by decide)

theorem number_nat (n : Nat) {r : Text} (hr : Stop r) : number (decimal n ++ r) = some ((n : Rat), r) := by
  rw [number_of_unsigned (decimal_no_minus n r)]
  unfold unsignedNumber
  rw [intPart_decimal n hr.digit]
  simp only [Option.bind_eq_bind, Option.bind_some, fracPart_stop hr, expPart_stop hr]
  simp

theorem number_float (n : Nat) {r : Text} (hr : Stop r) :
    number (decimal n ++ ['.', '0'] ++ r) = some ((n : Rat), r) := by
  rw [List.append_assoc, number_of_unsigned (decimal_no_minus n _)]
  unfold unsignedNumber
  rw [intPart_decimal n (by
    intro c t h
    simp at h
    rw [← h.1]; decide)]
  have hz : fracPart ('.' :: '0' :: r) = some (0, r) := by
    have hd : digits ('0' :: r) = some (['0'], r) := by
      have := digits_decimal 0 (r := r) hr.digit
      exact this
    unfold fracPart
    simp only [hd]
    have : digitsValue ['0'] = 0 := by decide
    simp [this]
  simp only [Option.bind_eq_bind, Option.bind_some, List.cons_append, List.nil_append, hz, expPart_stop hr]
  simp

/-! ### Strings -/

theorem hexVal_digitChar {k : Nat} (h : k < 16) : hexVal (Json.hexDigit k) = some k := by
  match k, h with
  | 0, _ => decide | 1, _ => decide | 2, _ => decide | 3, _ => decide
  | 4, _ => decide | 5, _ => decide | 6, _ => decide | 7, _ => decide
  | 8, _ => decide | 9, _ => decide | 10, _ => decide | 11, _ => decide
  | 12, _ => decide | 13, _ => decide | 14, _ => decide | 15, _ => decide
  | k + 16, h => omega

theorem stringBody_short {e x : Char} (h : shortEscape e = some x) (r : Text) :
    stringBody ('\\' :: e :: r) = (stringBody r).map fun (s, r') => (x :: s, r') := by
  rw [stringBody.eq_def]
  simp [h]

theorem char_ofNat {c : Char} {n : Nat} (h : c.toNat = n) : Char.ofNat n = c := by
  rw [← h, Char.ofNat_toNat]

theorem stringBody_escape (c : Char) (r : Text) :
    stringBody (Json.escapeChar c ++ r) = (stringBody r).map fun (s, r') => (c :: s, r') := by
  unfold Json.escapeChar
  split
  · rename_i h; subst h; exact stringBody_short rfl r
  split
  · rename_i h; subst h; exact stringBody_short rfl r
  split
  · rename_i h; rw [← char_ofNat h]; exact stringBody_short rfl r
  split
  · rename_i h; rw [← char_ofNat h]; exact stringBody_short rfl r
  split
  · rename_i h; rw [← char_ofNat h]; exact stringBody_short rfl r
  split
  · rename_i h; rw [← char_ofNat h]; exact stringBody_short rfl r
  split
  · rename_i h; rw [← char_ofNat h]; exact stringBody_short rfl r
  split
  · rename_i h
    simp only [List.cons_append, List.nil_append]
    rw [stringBody.eq_def]
    have hs : shortEscape 'u' = none := by decide
    have hx : hex4 '0' '0' (Json.hexDigit (c.toNat / 16)) (Json.hexDigit (c.toNat % 16)) = some c.toNat := by
      unfold hex4
      rw [hexVal_digitChar (k := c.toNat / 16) (by omega), hexVal_digitChar (k := c.toNat % 16) (by omega)]
      have h0 : hexVal '0' = some 0 := by decide
      rw [h0]
      simp
      omega
    have h1 : c.toNat < 0xD800 := by omega
    simp [hs, hx, h1]
  · rename_i h1 h2 _ _ _ _ _ h3
    simp only [List.cons_append, List.nil_append]
    rw [stringBody.eq_def]
    dsimp only
    rw [if_neg h1, if_neg h2, if_neg h3]

theorem stringBody_chars (s r : Text) : stringBody (s.flatMap Json.escapeChar ++ '"' :: r) = some (s, r) := by
  induction s with
  | nil =>
    rw [stringBody.eq_def]
    simp
  | cons c cs ih =>
    rw [List.flatMap_cons, List.append_assoc, stringBody_escape, ih]
    rfl

/-! ### White space -/

theorem skipWs_newline (ind : Nat) (t : Text) : skipWs (Json.newline ind ++ t) = skipWs t := by
  unfold skipWs Json.newline
  rw [List.cons_append, List.dropWhile_cons_of_pos (by decide)]
  induction ind with
  | zero => rfl
  | succ n ih =>
    rw [List.replicate_succ, List.cons_append, List.dropWhile_cons_of_pos (by decide)]
    exact ih

theorem skipWs_space (t : Text) : skipWs (' ' :: t) = skipWs t := by
  unfold skipWs
  rw [List.dropWhile_cons_of_pos (by decide)]

theorem skipWs_cons {c : Char} (h : isWs c = false) (t : Text) : skipWs (c :: t) = c :: t := by
  unfold skipWs
  rw [List.dropWhile_cons_of_neg (by simp [h])]

/-! ### Values -/

mutual
/-- The value a document stands for. -/
def Json.val : Json → JVal
  | .null => .null
  | .num n => .num n
  | .flt n => .num n
  | .str s => .str s
  | .arr xs => .arr (Json.vals xs)
  | .obj ms => .obj (Json.memberVals ms)
def Json.vals : List Json → List JVal
  | [] => []
  | x :: xs => x.val :: Json.vals xs
def Json.memberVals : List (Text × Json) → List (Text × JVal)
  | [] => []
  | (k, v) :: ms => (k, v.val) :: Json.memberVals ms
end

theorem Json.vals_eq (xs : List Json) : Json.vals xs = xs.map Json.val := by
  induction xs with
  | nil => rw [Json.vals]; rfl
  | cons x xs ih => rw [Json.vals, ih]; rfl

theorem Json.memberVals_eq (ms : List (Text × Json)) : Json.memberVals ms = ms.map fun m => (m.1, m.2.val) := by
  induction ms with
  | nil => rw [Json.memberVals]; rfl
  | cons x xs ih => obtain ⟨k, v⟩ := x; rw [Json.memberVals, ih]; rfl

theorem value_skip {n : Nat} {t t' : Text} (h : skipWs t = skipWs t') : value n t = value n t' := by
  cases n with
  | zero => rfl
  | succ n => rw [value, value, h]

/-- First character of a serialized value. -/
theorem dump_head (ind : Nat) (j : Json) : ∃ c r, j.dump ind = c :: r ∧ isWs c = false ∧ c ≠ ']' := by
  cases j with
  | null => exact ⟨_, _, by rw [Json.dump], by decide, by decide⟩
  | num n =>
    obtain ⟨c, cs, h1, h2⟩ := decimal_head n
    refine ⟨c, cs, by rw [Json.dump, h1], ?_, ?_⟩
    · cases hw : isWs c with
      | false => rfl
      | true =>
        unfold isWs at hw
        simp at hw
        rcases hw with ((rfl | rfl) | rfl) | rfl <;> exact absurd h2 (by decide)
    · rintro rfl; exact absurd h2 (by decide)
  | flt n =>
    obtain ⟨c, cs, h1, h2⟩ := decimal_head n
    refine ⟨c, cs ++ ['.', '0'], by rw [Json.dump, h1]; rfl, ?_, ?_⟩
    · cases hw : isWs c with
      | false => rfl
      | true =>
        unfold isWs at hw
        simp at hw
        rcases hw with ((rfl | rfl) | rfl) | rfl <;> exact absurd h2 (by decide)
    · rintro rfl; exact absurd h2 (by decide)
  | str s => exact ⟨_, _, by rw [Json.dump]; rfl, by decide, by decide⟩
  | arr xs =>
    cases xs with
    | nil => exact ⟨_, _, by rw [Json.dump], by decide, by decide⟩
    | cons x xs => exact ⟨_, _, by rw [Json.dump], by decide, by decide⟩
  | obj ms =>
    cases ms with
    | nil => exact ⟨_, _, by rw [Json.dump], by decide, by decide⟩
    | cons m ms =>
      obtain ⟨k, v⟩ := m
      exact ⟨_, _, by rw [Json.dump], by decide, by decide⟩

theorem value_number {c : Char} {cs r : Text} {q : Rat} {n : Nat} (hc : c.isDigit = true)
    (h : number (c :: cs) = some (q, r)) : value (n + 1) (c :: cs) = some (.num q, r) := by
  have hne : ∀ d : Char, d.isDigit = false → c ≠ d := by
    rintro d hd rfl
    rw [hd] at hc
    exact absurd hc (by decide)
  have hws : isWs c = false := by
    unfold isWs
    simp [hne ' ' (by decide), hne '\t' (by decide), hne '\n' (by decide), hne '\r' (by decide)]
  rw [value, skipWs_cons hws]
  simp [hne '"' (by decide), hne '[' (by decide), hne '{' (by decide), (hne 'n' (by decide)).symm,
    (hne 't' (by decide)).symm, (hne 'f' (by decide)).symm, h, List.isPrefixOf]

theorem stop_comma (r : Text) : Stop (',' :: r) := by
  intro c t h
  cases h
  decide

theorem stop_newline (n : Nat) (r : Text) : Stop (Json.newline n ++ r) := by
  intro c t h
  unfold Json.newline at h
  cases h
  decide

theorem stop_items (ind : Nat) (xs : List Json) (n : Nat) (r : Text) :
    Stop (Json.dumpItems ind xs ++ (Json.newline n ++ r)) := by
  cases xs with
  | nil => rw [Json.dumpItems]; exact stop_newline n r
  | cons x xs => rw [Json.dumpItems]; exact stop_comma _

theorem stop_members (ind : Nat) (ms : List (Text × Json)) (n : Nat) (r : Text) :
    Stop (Json.dumpMembers ind ms ++ (Json.newline n ++ r)) := by
  cases ms with
  | nil => rw [Json.dumpMembers]; exact stop_newline n r
  | cons x xs =>
    obtain ⟨k, v⟩ := x
    rw [Json.dumpMembers]; exact stop_comma _

mutual
theorem value_dump (ind : Nat) (j : Json) (n : Nat) (r : Text) (hn : (j.dump ind).length ≤ n) (hr : Stop r) :
    value n (j.dump ind ++ r) = some (j.val, r) := by
  cases n with
  | zero =>
    obtain ⟨c, t, h, _⟩ := dump_head ind j
    rw [h] at hn
    simp at hn
  | succ n =>
    match j with
    | .null =>
      rw [Json.dump, Json.val]
      simp only [List.cons_append, List.nil_append]
      rw [value, skipWs_cons (by decide)]
      simp
    | .num k =>
      rw [Json.dump, Json.val]
      obtain ⟨c, cs, h1, h2⟩ := decimal_head k
      have := number_nat k hr
      rw [h1] at this ⊢
      exact value_number h2 this
    | .flt k =>
      rw [Json.dump, Json.val]
      obtain ⟨c, cs, h1, h2⟩ := decimal_head k
      have := number_float k hr
      rw [h1] at this ⊢
      exact value_number h2 this
    | .str s =>
      rw [Json.dump, Json.val]
      unfold Json.quote
      simp only [List.cons_append, List.append_assoc, List.nil_append]
      rw [value, skipWs_cons (by decide)]
      simp [stringBody_chars]
    | .arr [] =>
      rw [Json.dump, Json.val, Json.vals_eq]
      simp only [List.cons_append, List.nil_append, List.map_nil]
      rw [value, skipWs_cons (by decide)]
      simp [skipWs_cons (c := ']') (by decide)]
    | .arr (x :: xs) =>
      rw [Json.dump] at hn ⊢
      rw [Json.val, Json.vals_eq]
      simp only [List.cons_append, List.append_assoc, List.nil_append] at hn ⊢
      rw [value, skipWs_cons (by decide)]
      simp only [List.length_cons, List.length_append] at hn
      have hi := items_dump (ind + 4) x xs n ind r (by simp only [List.length_append]; omega)
      obtain ⟨c, t, h1, h2, h3⟩ := dump_head (ind + 4) x
      have hne : ∀ r', skipWs (Json.newline (ind + 4) ++ (Json.dump (ind + 4) x ++ (Json.dumpItems (ind + 4) xs ++
          (Json.newline ind ++ ']' :: r)))) ≠ ']' :: r' := by
        intro r' he
        rw [skipWs_newline, h1, List.cons_append, skipWs_cons h2] at he
        exact h3 (List.cons.inj he).1
      have hbr : (match skipWs (Json.newline (ind + 4) ++ (Json.dump (ind + 4) x ++ (Json.dumpItems (ind + 4) xs ++
          (Json.newline ind ++ ']' :: r)))) with
        | ']' :: r' => some (JVal.arr [], r')
        | _ => (items n (Json.newline (ind + 4) ++ (Json.dump (ind + 4) x ++ (Json.dumpItems (ind + 4) xs ++
          (Json.newline ind ++ ']' :: r))))).map fun (xs, r') => (JVal.arr xs, r')) =
          some (JVal.arr ((x :: xs).map Json.val), r) := by
        split
        · rename_i r' he
          exact absurd he (hne r')
        · rw [hi]; rfl
      dsimp only
      rw [if_neg (by decide), if_pos rfl]
      exact hbr
    | .obj [] =>
      rw [Json.dump, Json.val, Json.memberVals_eq]
      simp only [List.cons_append, List.nil_append, List.map_nil]
      rw [value, skipWs_cons (by decide)]
      simp [skipWs_cons (c := '}') (by decide)]
    | .obj ((k, v) :: ms) =>
      rw [Json.dump] at hn ⊢
      rw [Json.val, Json.memberVals_eq]
      simp only [List.cons_append, List.append_assoc, List.nil_append] at hn ⊢
      rw [value, skipWs_cons (by decide)]
      simp only [List.length_cons, List.length_append] at hn
      have hi := members_dump (ind + 4) k v ms n ind r (by simp only [List.length_append]; omega)
      have hne : ∀ r', skipWs (Json.newline (ind + 4) ++ (Json.quote k ++ ':' :: ' ' :: (Json.dump (ind + 4) v ++
          (Json.dumpMembers (ind + 4) ms ++ (Json.newline ind ++ '}' :: r))))) ≠ '}' :: r' := by
        intro r' he
        rw [skipWs_newline] at he
        unfold Json.quote at he
        simp only [List.cons_append, List.append_assoc, List.nil_append] at he
        rw [skipWs_cons (by decide)] at he
        exact absurd (List.cons.inj he).1 (by decide)
      have hbr : (match skipWs (Json.newline (ind + 4) ++ (Json.quote k ++ ':' :: ' ' :: (Json.dump (ind + 4) v ++
          (Json.dumpMembers (ind + 4) ms ++ (Json.newline ind ++ '}' :: r))))) with
        | '}' :: r' => some (JVal.obj [], r')
        | _ => (members n (Json.newline (ind + 4) ++ (Json.quote k ++ ':' :: ' ' :: (Json.dump (ind + 4) v ++
          (Json.dumpMembers (ind + 4) ms ++ (Json.newline ind ++ '}' :: r)))))).map fun (ms, r') => (JVal.obj ms, r')) =
          some (JVal.obj (((k, v) :: ms).map fun m => (m.1, m.2.val)), r) := by
        split
        · rename_i r' he
          exact absurd he (hne r')
        · rw [hi]; rfl
      dsimp only
      rw [if_neg (by decide), if_neg (by decide), if_pos rfl]
      exact hbr
termination_by n

theorem items_dump (ind : Nat) (x : Json) (xs : List Json) (n ind' : Nat) (r : Text)
    (hn : (Json.dump ind x ++ Json.dumpItems ind xs).length + 1 ≤ n) :
    items n (Json.newline ind ++ (Json.dump ind x ++ (Json.dumpItems ind xs ++ (Json.newline ind' ++ ']' :: r)))) =
      some ((x :: xs).map Json.val, r) := by
  cases n with
  | zero => omega
  | succ n =>
    simp only [List.length_append] at hn
    have hv := value_dump ind x n (Json.dumpItems ind xs ++ (Json.newline ind' ++ ']' :: r)) (by omega)
      (stop_items _ _ _ _)
    rw [items, value_skip (skipWs_newline _ _), hv]
    dsimp only
    match xs with
    | [] =>
      rw [Json.dumpItems, List.nil_append, skipWs_newline, skipWs_cons (by decide)]
      rfl
    | y :: ys =>
      rw [Json.dumpItems] at hn ⊢
      simp only [List.cons_append, List.append_assoc, List.length_cons, List.length_append] at hn ⊢
      rw [skipWs_cons (by decide)]
      have := items_dump ind y ys n ind' r (by simp only [List.length_append]; omega)
      show Option.map _ (items n _) = _
      rw [this]
      rfl
termination_by n

theorem members_dump (ind : Nat) (k : Text) (v : Json) (ms : List (Text × Json)) (n ind' : Nat) (r : Text)
    (hn : (Json.quote k ++ Json.dump ind v ++ Json.dumpMembers ind ms).length + 1 ≤ n) :
    members n (Json.newline ind ++ (Json.quote k ++ ':' :: ' ' :: (Json.dump ind v ++
      (Json.dumpMembers ind ms ++ (Json.newline ind' ++ '}' :: r))))) =
      some (((k, v) :: ms).map fun m => (m.1, m.2.val), r) := by
  cases n with
  | zero => omega
  | succ n =>
    simp only [List.length_append] at hn
    have hv := value_dump ind v n (Json.dumpMembers ind ms ++ (Json.newline ind' ++ '}' :: r)) (by omega)
      (stop_members _ _ _ _)
    have hs := stringBody_chars k (':' :: ' ' :: (Json.dump ind v ++
      (Json.dumpMembers ind ms ++ (Json.newline ind' ++ '}' :: r))))
    have hq : Json.quote k ++ ':' :: ' ' :: (Json.dump ind v ++
      (Json.dumpMembers ind ms ++ (Json.newline ind' ++ '}' :: r))) = '"' :: (k.flatMap Json.escapeChar ++ '"' :: (':' :: ' ' :: (Json.dump ind v ++
      (Json.dumpMembers ind ms ++ (Json.newline ind' ++ '}' :: r))))) := by
      unfold Json.quote
      simp only [List.cons_append, List.append_assoc, List.nil_append]
    rw [members, skipWs_newline, hq, skipWs_cons (by decide)]
    simp only [hs]
    rw [skipWs_cons (by decide)]
    simp only
    rw [value_skip (skipWs_space _), hv]
    dsimp only
    match ms with
    | [] =>
      rw [Json.dumpMembers, List.nil_append, skipWs_newline, skipWs_cons (by decide)]
      rfl
    | (k', v') :: ms' =>
      rw [Json.dumpMembers] at hn ⊢
      simp only [List.cons_append, List.append_assoc, List.length_cons, List.length_append, List.nil_append] at hn ⊢
      rw [skipWs_cons (by decide)]
      have := members_dump ind k' v' ms' n ind' r (by simp only [List.length_append]; omega)
      show Option.map _ (members n _) = _
      rw [this]
      rfl
termination_by n
end

/-- Serialized documents parse back to the value they stand for. -/
theorem parseJson_dump (j : Json) : parseJson (j.dump 0) = some j.val := by
  unfold parseJson
  have h := value_dump 0 j ((j.dump 0).length + 1) [] (by omega) (by intro c r h; cases h)
  rw [List.append_nil] at h
  rw [h]
  rfl

end AZ
