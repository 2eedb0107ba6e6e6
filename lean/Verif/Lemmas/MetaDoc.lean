import Verif.Lemmas.Paths

set_option linter.unusedSimpArgs false

namespace AZ
open Spec

def ulen (t : Text) : Nat := (utf8 t).length

theorem ulen_append (a b : Text) : ulen (a ++ b) = ulen a + ulen b := by
  simp [ulen, utf8, List.flatMap_append]

theorem ulen_cons (c : Char) (b : Text) : ulen (c :: b) = ulen [c] + ulen b := by
  rw [← ulen_append]; rfl

theorem ulen_decimal (n : Nat) : ulen (decimal n) = (decimal n).length := by
  have : ∀ t : Text, (∀ c ∈ t, c.isDigit = true) → ulen t = t.length := by
    intro t
    induction t with
    | nil => intro _; rfl
    | cons c cs ih =>
      intro h
      rw [ulen_cons, ih (fun x hx => h x (by simp [hx])), List.length_cons]
      have hd := h c (by simp)
      have : ulen [c] = 1 := by
        unfold ulen utf8
        simp only [List.flatMap_cons, List.flatMap_nil, List.append_nil]
        rw [String.length_utf8EncodeChar]
        unfold Char.utf8Size
        simp only [Char.isDigit, Bool.and_eq_true, decide_eq_true_eq] at hd
        have h2 := hd.2
        have : c.val ≤ UInt32.ofNatLT 0x7F (by decide) := Nat.le_trans h2 (by decide)
        rw [if_pos this]
      omega
  exact this _ (fun c hc => decimal_isDigit hc)

/-- The document only gets longer when the append size grows. -/
theorem metaDoc_length_mono (cfg : WConfig) {a b : Nat} (h : a ≤ b) :
    (metaDoc cfg a).length ≤ (metaDoc cfg b).length := by
  have hd := decimal_length_mono h
  rw [← ulen_decimal, ← ulen_decimal] at hd
  show ulen _ ≤ ulen _
  unfold metaJson
  cases cfg.version
  · simp only [metaJsonV2, Json.dump, Json.dumpMembers, Json.dumpItems, ulen_append, ulen_cons _ (_ ++ _)]
    omega
  · simp only [metaJsonV3, Json.dump, Json.dumpMembers, Json.dumpItems, ulen_append, ulen_cons _ (_ ++ _)]
    omega

theorem metaDoc_ne_nil (cfg : WConfig) (a : Nat) : metaDoc cfg a ≠ [] := by
  intro h
  have : ulen ((metaJson cfg a).dump 0) = 0 := by
    show (metaDoc cfg a).length = 0
    rw [h]; rfl
  unfold metaJson at this
  cases hc : cfg.version <;> rw [hc] at this
  · simp only [metaJsonV2, Json.dump, Json.dumpMembers, Json.dumpItems, ulen_append, ulen_cons _ (_ ++ _)] at this
    have h2 : ulen ['{'] = 1 := by decide
    omega
  · simp only [metaJsonV3, Json.dump, Json.dumpMembers, Json.dumpItems, ulen_append, ulen_cons _ (_ ++ _)] at this
    have h2 : ulen ['{'] = 1 := by decide
    omega

/-! ### Metadata path -/

/-- The metadata path after the store prefix. -/
def metaMid (v : Version) (level : Nat) : Text :=
  match v with
  | .v2 => decimal level ++ "/.zarray".toList
  | .v3 => "meta/root/".toList ++ decimal level ++ ".array.json".toList

theorem arrayMetaPath_eq (cfg : WConfig) :
    arrayMetaPath cfg = baseOf cfg.bucket.isSome cfg.storePath ++ metaMid cfg.version cfg.level := by
  have hh : (metaMid cfg.version cfg.level).head? ≠ some '/' := by
    unfold metaMid
    cases cfg.version
    · exact head?_decimal_append _ _
    · simp
  have key : arrayMetaPath cfg = if cfg.bucket.isSome then cfg.storePath ++ '/' :: metaMid cfg.version cfg.level
      else stripFile (cfg.storePath ++ '/' :: metaMid cfg.version cfg.level) := by
    have e2 : cfg.storePath ++ ['/'] ++ decimal cfg.level ++ "/.zarray".toList =
        cfg.storePath ++ '/' :: (decimal cfg.level ++ "/.zarray".toList) := by
      rw [List.append_assoc, List.append_assoc]; rfl
    have e3 : cfg.storePath ++ "/meta/root/".toList ++ decimal cfg.level ++ ".array.json".toList =
        cfg.storePath ++ '/' :: ("meta/root/".toList ++ decimal cfg.level ++ ".array.json".toList) := by
      have : "/meta/root/".toList = '/' :: "meta/root/".toList := by decide
      rw [this, List.append_assoc, List.append_assoc]; rfl
    unfold arrayMetaPath metaMid
    cases cfg.version
    · simp only [e2]
    · simp only [e3]
  rw [key]
  cases hb : cfg.bucket.isSome
  · simp only [Bool.false_eq_true, if_false]
    exact stripFile_eq _ hh
  · simp [baseOf]

theorem objectPath_ne_meta (cfg : WConfig) (g : Nat) (l : List Nat) :
    objectPath cfg g l ≠ arrayMetaPath cfg := by
  rw [arrayMetaPath_eq]
  unfold objectPath
  intro h
  have h := List.append_cancel_left h
  unfold dataMid metaMid at h
  cases hv : cfg.version <;> rw [hv] at h
  · simp only [List.append_assoc] at h
    have h := List.append_cancel_left h
    have e : "/.zarray".toList = ['/'] ++ ['.', 'z', 'a', 'r', 'r', 'a', 'y'] := by decide
    rw [e] at h
    have h := List.append_cancel_left h
    have hne := decimal_ne_nil g
    cases hd : decimal g with
    | nil => exact hne hd
    | cons c cs =>
      rw [hd] at h
      have hc : c = '.' := by simpa using (List.cons.inj h).1
      have := decimal_isDigit (n := g) (c := c) (by rw [hd]; simp)
      rw [hc] at this
      exact absurd this (by decide)
  · simp at h

end AZ
