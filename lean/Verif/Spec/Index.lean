/-!
# Specification: row-major (C order) indexing

Independent of the model: shapes and indices are lists of naturals.
-/

namespace Spec

/-- Product of a shape. -/
def prod : List Nat → Nat
  | [] => 1
  | x :: xs => x * prod xs

/-- Row-major rank of a multi-index. -/
def ravel : List Nat → List Nat → Nat
  | _ :: ss, i :: is => i * prod ss + ravel ss is
  | _, _ => 0

/-- The multi-index has the rank of the shape and each component is below its extent. -/
def InBounds : List Nat → List Nat → Prop
  | [], [] => True
  | s :: ss, i :: is => i < s ∧ InBounds ss is
  | _, _ => False

instance decInBounds : (s i : List Nat) → Decidable (InBounds s i)
  | [], [] => .isTrue trivial
  | [], _ :: _ => .isFalse id
  | _ :: _, [] => .isFalse id
  | s :: ss, i :: is =>
    match Nat.decLt i s, decInBounds ss is with
    | .isTrue h, .isTrue h' => .isTrue ⟨h, h'⟩
    | .isFalse h, _ => .isFalse fun x => h x.1
    | _, .isFalse h => .isFalse fun x => h x.2

/-- The multi-index of a rank (inverse of `ravel`). -/
def unravel : List Nat → Nat → List Nat
  | [], _ => []
  | _ :: ss, r => r / prod ss :: unravel ss (r % prod ss)

/-- Number of pieces of size `b` needed to cover `a`. -/
def ceilDiv (a b : Nat) : Nat := (a + b - 1) / b

/-- Global coordinate of in-chunk index `o` of the chunk at grid position `l`. -/
def globalCoord : (chunk l o : List Nat) → List Nat
  | c :: cs, l :: ls, o :: os => (l * c + o) :: globalCoord cs ls os
  | _, _, _ => []

/-- Grid position of the chunk that holds a coordinate. -/
def gridOf : (chunk x : List Nat) → List Nat
  | c :: cs, x :: xs => x / c :: gridOf cs xs
  | _, _ => []

/-- Position of a coordinate inside its chunk. -/
def withinOf : (chunk x : List Nat) → List Nat
  | c :: cs, x :: xs => x % c :: withinOf cs xs
  | _, _ => []

end Spec
