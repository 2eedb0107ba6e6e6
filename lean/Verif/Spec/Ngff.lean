import Verif.Spec.Reader

/-!
# Specification: OME-NGFF 0.4 image metadata

From <https://ngff.openmicroscopy.org/0.4>, sections "axes" and "multiscales" (the parts with MUST). Nothing here
refers to the project.
-/

namespace Spec

/-- An axis as its metadata describe it: the name, and the value of the member `type` if there is one. -/
abbrev NgffAxis := List Char × Option JVal

/-- The place of an axis in the order that the standard prescribes: time first, then a channel or custom axis, then space. -/
def NgffAxis.rank : NgffAxis → Nat
  | (_, some (.str t)) => if t = "time".toList then 0 else if t = "space".toList then 2 else 1
  | _ => 1

/-- "The axes MUST contain 2 or 3 entries of type space and MAY contain one additional entry of type time and MAY contain one
additional entry of type channel or a null / custom type"; "the entries MUST be ordered by type"; names MUST be unique. -/
structure NgffAxes (axes : List NgffAxis) : Prop where
  unique : (axes.map (·.1)).Nodup
  ordered : (axes.map NgffAxis.rank).Pairwise (· ≤ ·)
  space : (axes.map NgffAxis.rank).count 2 = 2 ∨ (axes.map NgffAxis.rank).count 2 = 3
  time : (axes.map NgffAxis.rank).count 0 ≤ 1
  other : (axes.map NgffAxis.rank).count 1 ≤ 1

/-- One image of the `multiscales` list: its axes, and datasets, each with a path and with one scale (a positive factor for every axis),
which a translation may follow. -/
def NgffImage (m : JVal) : Prop :=
  ∃ (as : List JVal) (axes : List NgffAxis) (ds : List JVal),
    m.get? "axes" = some (.arr as) ∧
    List.Forall₂ (fun a x => a.get? "name" = some (.str x.1) ∧ a.get? "type" = x.2) as axes ∧ NgffAxes axes ∧
    m.get? "datasets" = some (.arr ds) ∧ ds ≠ [] ∧
    ∀ d ∈ ds, ∃ path t rest factors, d.get? "path" = some (.str path) ∧
      d.get? "coordinateTransformations" = some (.arr (t :: rest)) ∧
      t.get? "type" = some (.text "scale") ∧ t.get? "scale" = some (.arr factors) ∧ factors.length = axes.length ∧
      (∀ q ∈ factors, ∃ r, q = .num r ∧ 0 < r) ∧
      (rest = [] ∨ ∃ u, rest = [u] ∧ u.get? "type" = some (.text "translation"))

/-- A valid value of `multiscales`. -/
def Ngff (v : JVal) : Prop := ∃ ms, v = .arr ms ∧ ms ≠ [] ∧ ∀ m ∈ ms, NgffImage m

/-- The `multiscales` value of the dataset `root` (Zarr v2: attributes of the group; v3: of the root group's document). -/
def imageMetadata (version : Nat) (file : List Char → Option (List UInt8)) (root : List Char) : Option JVal :=
  if version = 2 then do (← jsonFile file (root ++ "/.zattrs".toList)).get? "multiscales"
  else do (← (← jsonFile file (root ++ "/meta/root.group.json".toList)).get? "attributes").get? "multiscales"

end Spec
