import Verif.Lemmas.Levels
import Verif.Props.Sample

/-!
# C12: object names never collide
-/

namespace AZ
open Spec

/-- The objects of a stream: data object number `c` (in the order of the sinks) of append index `g` of a
level, the metadata document of a level, and the `j`-th stream-level metadata document. -/
inductive ObjRef where
  | data (level g c : Nat)
  | arrayMeta (level : Nat)
  | streamMeta (j : Nat)
  deriving DecidableEq, Repr

/-- The name under which the stream with these level configurations stores an object. -/
def nameOf (cfgs : List WConfig) : ObjRef → Option Text
  | .data i g c => (cfgs[i]?).bind fun cfg => (dataPaths cfg g).bind fun ps => ps[c]?
  | .arrayMeta i => (cfgs[i]?).map arrayMetaPath
  | .streamMeta j => cfgs.head?.bind fun cfg => ((metaKeys cfg.version)[j]?).map (metaSinkPath cfg)

theorem dataPaths_get {cfg : WConfig} {g c : Nat} {ps : List Text} {p : Text} (h : dataPaths cfg g = some ps)
    (hc : ps[c]? = some p) : c < prod (cfg.dims.tailDims.map (partsAlong cfg.version)) ∧
      p = objectPath cfg g (unravel (cfg.dims.tailDims.map (partsAlong cfg.version)) c) := by
  have hpos : ∀ d ∈ cfg.dims.tailDims, 0 < partsAlong cfg.version d := by
    unfold dataPaths at h
    exact dataPathsFrom_pos h
  rw [dataPaths_eq cfg g hpos] at h
  cases h
  rw [List.getElem?_map] at hc
  rcases Nat.lt_or_ge c (prod (cfg.dims.tailDims.map (partsAlong cfg.version))) with h | h
  · rw [List.getElem?_range h] at hc
    exact ⟨h, by simpa using hc.symm⟩
  · rw [List.getElem?_eq_none (by simpa using h)] at hc
    simp at hc

theorem metaKeys_nodup (v : Version) : (metaKeys v).Nodup := by cases v <;> decide

theorem nameOf_cases {cfgs : List WConfig} {r : ObjRef} {p : Text} (h : nameOf cfgs r = some p) :
    (∃ i g c cfg, r = .data i g c ∧ cfgs[i]? = some cfg ∧
      c < prod (cfg.dims.tailDims.map (partsAlong cfg.version)) ∧
      p = objectPath cfg g (unravel (cfg.dims.tailDims.map (partsAlong cfg.version)) c)) ∨
    (∃ i cfg, r = .arrayMeta i ∧ cfgs[i]? = some cfg ∧ p = arrayMetaPath cfg) ∨
    (∃ j cfg key, r = .streamMeta j ∧ cfgs[0]? = some cfg ∧ (metaKeys cfg.version)[j]? = some key ∧
      p = metaSinkPath cfg key) := by
  cases r with
  | data i g c =>
    simp only [nameOf, Option.bind_eq_some_iff] at h
    obtain ⟨cfg, h1, ps, h2, h3⟩ := h
    obtain ⟨h4, h5⟩ := dataPaths_get h2 h3
    exact .inl ⟨i, g, c, cfg, rfl, h1, h4, h5⟩
  | arrayMeta i =>
    simp only [nameOf, Option.map_eq_some_iff] at h
    obtain ⟨cfg, h1, h2⟩ := h
    exact .inr (.inl ⟨i, cfg, rfl, h1, h2.symm⟩)
  | streamMeta j =>
    simp only [nameOf, Option.bind_eq_some_iff, Option.map_eq_some_iff] at h
    obtain ⟨cfg, h1, key, h2, h3⟩ := h
    refine .inr (.inr ⟨j, cfg, key, rfl, ?_, h2, h3.symm⟩)
    cases cfgs with
    | nil => simp at h1
    | cons a as => simpa using h1

/-- **C12.** For every stream (any settings that give the level configurations `cfgs`, filesystem or S3,
V2 or V3, any number of levels), two objects stored under the same name are the same object. -/
theorem object_names_distinct {fuel : Nat} {ms : Bool} {cfg : WConfig} {cfgs : List WConfig}
    (hl : levelConfigs fuel ms cfg = some (.ok cfgs)) {r r' : ObjRef} {p : Text}
    (h : nameOf cfgs r = some p) (h' : nameOf cfgs r' = some p) : r = r' := by
  have hin := fun {i c} (h : cfgs[i]? = some c) => levelConfigs_inherits hl h
  have hss : ∀ {i j a b}, cfgs[i]? = some a → cfgs[j]? = some b → SameStore a b := fun ha hb =>
    (hin ha).1.same.symm.trans (hin hb).1.same
  rcases nameOf_cases h with ⟨i, g, c, a, rfl, ha, hc, hp⟩ | ⟨i, a, rfl, ha, hp⟩ | ⟨j, a, k, rfl, ha, hk, hp⟩ <;>
  rcases nameOf_cases h' with ⟨i', g', c', b, rfl, hb, hc', hp'⟩ | ⟨i', b, rfl, hb, hp'⟩ |
    ⟨j', b, k', rfl, hb, hk', hp'⟩ <;> subst hp
  · obtain ⟨h1, h2, h3⟩ := objectPath_inj_level (hss ha hb) hp'
    rw [(hin ha).2, (hin hb).2] at h1
    have h1 : i = i' := by omega
    subst h1
    rw [ha] at hb
    cases hb
    have : c = c' := by
      rw [← ravel_unravel (s := a.dims.tailDims.map (partsAlong a.version)) hc, h3, ravel_unravel hc']
    rw [h2, this]
  · exact absurd hp' (objectPath_ne_metaPath (hss ha hb) _ _)
  · exact absurd hp'.symm (metaSinkPath_ne_object (hss hb ha) (List.mem_of_getElem? hk') _ _)
  · exact absurd hp'.symm (objectPath_ne_metaPath (hss hb ha) _ _)
  · have h1 := arrayMetaPath_inj (hss ha hb) hp'
    rw [(hin ha).2, (hin hb).2] at h1
    have h1 : i = i' := by omega
    rw [h1]
  · exact absurd hp'.symm (metaSinkPath_ne_meta (hss hb ha) (List.mem_of_getElem? hk'))
  · exact absurd hp' (metaSinkPath_ne_object (hss ha hb) (List.mem_of_getElem? hk) _ _)
  · exact absurd hp' (metaSinkPath_ne_meta (hss ha hb) (List.mem_of_getElem? hk))
  · rw [ha] at hb
    cases hb
    have := metaSinkPath_inj hp'
    subst this
    have hj : j < (metaKeys a.version).length := by
      rw [List.getElem?_eq_some_iff] at hk; exact hk.1
    have := (List.getElem?_inj hj (metaKeys_nodup a.version)).1 (hk.trans hk'.symm)
    rw [this]

/-- The sample stream with pyramid has three levels; some of its objects. -/
example : ∃ cfgs, levelConfigs 9 true Sample.cfg = some (.ok cfgs) ∧ cfgs.length = 3 ∧
    nameOf cfgs (.data 0 11 7) = some "/tmp/a.zarr/0/11/0/2/1".toList ∧
    nameOf cfgs (.data 1 11 3) = some "/tmp/a.zarr/1/11/0/1/1".toList ∧
    nameOf cfgs (.arrayMeta 1) = some "/tmp/a.zarr/1/.zarray".toList ∧
    nameOf cfgs (.streamMeta 2) = some "/tmp/a.zarr/0/.zattrs".toList :=
  ⟨_, rfl, rfl, by decide, by decide, by decide, by decide⟩

end AZ
