import Verif.Spec.Documents

/-!
# Specification: the same JSON value

RFC 8259 leaves the precision of numbers and the treatment of repeated names to implementations: here numbers are the same if they are the same after rounding (to double
precision, say), the order of members does not matter, and the last member of a name counts.
-/

namespace Spec

/-- The last member of that name. -/
def lastMember (ms : List (List Char × JVal)) (k : List Char) : Option JVal := (ms.reverse.find? fun m => m.1 == k).map (·.2)

/-- The same JSON value to a reader that rounds numbers by `round`. -/
inductive SameJson (round : Rat → Option Rat) : JVal → JVal → Prop where
  | null : SameJson round .null .null
  | bool (b : Bool) : SameJson round (.bool b) (.bool b)
  | num {p q : Rat} : round p = round q → SameJson round (.num p) (.num q)
  | str (s : List Char) : SameJson round (.str s) (.str s)
  | arr {xs ys : List JVal} : xs.length = ys.length → (∀ (i : Nat) (x y : JVal), xs[i]? = some x → ys[i]? = some y → SameJson round x y) → SameJson round (.arr xs) (.arr ys)
  | obj {ms ns : List (List Char × JVal)} : (∀ k, (lastMember ms k).isSome = (lastMember ns k).isSome) →
      (∀ k v v', lastMember ms k = some v → lastMember ns k = some v' → SameJson round v v') → SameJson round (.obj ms) (.obj ns)

/-- A JSON library that, given a JSON text it accepts, prints the value it has read. `print` is parsing followed by printing, `none` if the text is not accepted. -/
def PrintsWhatItReads (round : Rat → Option Rat) (print : List Char → Option (List UInt8)) : Prop :=
  ∀ t v b, parseJson t = some v → print t = some b → ∃ v', JsonFile b v' ∧ SameJson round v v'

end Spec
