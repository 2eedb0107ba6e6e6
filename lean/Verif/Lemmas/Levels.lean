import Verif.Lemmas.Names
import Verif.Model.Downsample

set_option linter.unusedSimpArgs false

/-! # The configurations of the pyramid levels -/

namespace AZ
open Spec

/-- What every level inherits. -/
structure Inherits (a b : WConfig) : Prop where
  same : SameStore a b
  compression : a.compression = b.compression
  dtype : a.dims.dtype = b.dims.dtype

theorem ofList_eq_ok {ds : List Dim} {t : DType} {D : ArrayDims} (h : ArrayDims.ofList ds t = .ok D) :
    D.toList = ds ∧ D.dtype = t := by
  unfold ArrayDims.ofList at h
  split at h
  · simp at h
  · rename_i a rest
    split at h
    · rename_i w hh innerRev hr
      cases h
      refine ⟨?_, rfl⟩
      have : rest = (w :: hh :: innerRev).reverse := by rw [← hr, List.reverse_reverse]
      rw [this]
      simp [ArrayDims.toList]
    · simp at h

theorem ofList_toList (D : ArrayDims) : ArrayDims.ofList D.toList D.dtype = .ok D := by
  unfold ArrayDims.ofList ArrayDims.toList
  simp

theorem downsample_inherits {cfg next : WConfig} {again : Bool} (h : downsample cfg = .ok (next, again)) :
    Inherits cfg next ∧ next.level = cfg.level + 1 := by
  unfold downsample at h
  obtain ⟨ds, _, h⟩ := Res.bind_eq_ok.1 h
  obtain ⟨dims, hd, h⟩ := Res.bind_eq_ok.1 h
  simp only [Res.pure_eq, Res.ok.injEq, Prod.mk.injEq] at h
  obtain ⟨rfl, _⟩ := h
  exact ⟨⟨⟨rfl, rfl, rfl⟩, rfl, (ofList_eq_ok hd).2.symm⟩, rfl⟩

theorem pyramidFrom_inherits {fuel : Nat} {cfg : WConfig} {rest : List WConfig}
    (h : pyramidFrom fuel cfg = some (.ok rest)) {i : Nat} {c : WConfig} (hc : rest[i]? = some c) :
    Inherits cfg c ∧ c.level = cfg.level + 1 + i := by
  induction fuel generalizing cfg rest i with
  | zero => simp [pyramidFrom] at h
  | succ fuel ih =>
    rw [pyramidFrom] at h
    split at h
    · simp at h
    · simp at h
    · rename_i next again hd
      obtain ⟨h1, h2⟩ := downsample_inherits hd
      split at h
      · split at h
        · simp at h
        · simp at h
        · simp at h
        · rename_i rest' hr
          simp only [Option.some.injEq, Res.ok.injEq] at h
          subst h
          cases i with
          | zero => simp at hc; subst hc; exact ⟨h1, by omega⟩
          | succ i =>
            rw [List.getElem?_cons_succ] at hc
            obtain ⟨h3, h4⟩ := ih hr hc
            refine ⟨⟨h1.same.trans h3.same, h1.compression.trans h3.compression, h1.dtype.trans h3.dtype⟩, ?_⟩
            omega
      · simp only [Option.some.injEq, Res.ok.injEq] at h
        subst h
        cases i with
        | zero => simp at hc; subst hc; exact ⟨h1, by omega⟩
        | succ i => simp at hc

theorem levelConfigs_inherits {fuel : Nat} {ms : Bool} {cfg : WConfig} {cfgs : List WConfig}
    (h : levelConfigs fuel ms cfg = some (.ok cfgs)) {i : Nat} {c : WConfig} (hc : cfgs[i]? = some c) :
    Inherits cfg c ∧ c.level = cfg.level + i := by
  have h0 : Inherits cfg cfg := ⟨SameStore.refl _, rfl, rfl⟩
  unfold levelConfigs at h
  split at h
  · split at h
    · simp at h
    · simp at h
    · simp at h
    · rename_i rest hr
      simp only [Option.some.injEq, Res.ok.injEq] at h
      subst h
      cases i with
      | zero => simp at hc; subst hc; exact ⟨h0, rfl⟩
      | succ i =>
        rw [List.getElem?_cons_succ] at hc
        obtain ⟨h1, h2⟩ := pyramidFrom_inherits hr hc
        exact ⟨h1, by omega⟩
  · simp only [Option.some.injEq, Res.ok.injEq] at h
    subst h
    cases i with
    | zero => simp at hc; subst hc; exact ⟨h0, rfl⟩
    | succ i => simp at hc

theorem levelConfigs_head {fuel : Nat} {ms : Bool} {cfg : WConfig} {cfgs : List WConfig}
    (h : levelConfigs fuel ms cfg = some (.ok cfgs)) : ∃ rest, cfgs = cfg :: rest := by
  unfold levelConfigs at h
  split at h
  · split at h
    · simp at h
    · simp at h
    · simp at h
    · rename_i rest hr
      simp only [Option.some.injEq, Res.ok.injEq] at h
      exact ⟨rest, h.symm⟩
  · simp only [Option.some.injEq, Res.ok.injEq] at h
    exact ⟨[], h.symm⟩

end AZ
