/-! # Interleavings of the steps of parallel jobs -/

namespace Spec

/-- `Interleaving parts whole`: `whole` consists of the steps of the jobs `parts`, each job's steps in their order. -/
inductive Interleaving {α : Type} : List (List α) → List α → Prop where
  | done {parts : List (List α)} (h : ∀ l ∈ parts, l = []) : Interleaving parts []
  | step {parts : List (List α)} {i : Nat} {x : α} {l whole : List α} (h : parts[i]? = some (x :: l))
      (rest : Interleaving (parts.set i l) whole) : Interleaving parts (x :: whole)

end Spec
