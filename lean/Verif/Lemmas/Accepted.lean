import Verif.Lemmas.LevelDims

set_option linter.unusedSimpArgs false

/-! # What accepted settings guarantee -/

namespace AZ
open Spec

theorem validateDimension_ok {v : Nat} {b : Bool} {d : DimProps} (h : validateDimension v b d = .ok true) :
    (∃ n, d.name = some n ∧ (trim n).isEmpty = false) ∧ d.kind < 4 ∧ (b = false → 0 < d.arraySize) ∧
      0 < d.chunkSize ∧ (v = 3 → 0 < d.shardSize) := by
  unfold validateDimension at h
  obtain ⟨e, h1, h⟩ := Res.bind_eq_ok.1 h
  simp only [Res.pure_eq] at h
  cases hn : d.name with
  | none => rw [hn] at h1; simp [isEmptyString] at h1
  | some n =>
    rw [hn] at h1
    simp only [isEmptyString, Res.ok.injEq] at h1
    split at h
    · simp at h
    · rename_i he
      split at h
      · simp at h
      · split at h
        · simp at h
        · split at h
          · simp at h
          · split at h
            · simp at h
            · rename_i a1 a2 a3 a4
              refine ⟨⟨n, rfl, by rw [h1]; simpa using he⟩, by omega, ?_, by omega, ?_⟩
              · intro hb
                rw [hb] at a2
                simp at a2
                omega
              · intro hv
                rw [hv] at a4
                simp at a4
                omega

theorem validateDimensions_ok {v : Nat} {b : Bool} {ds : List DimProps}
    (h : validateDimensions v b ds = .ok true) :
    (∀ d ∈ ds, (∃ n, d.name = some n ∧ (trim n).isEmpty = false) ∧ d.kind < 4 ∧ 0 < d.chunkSize ∧
      (v = 3 → 0 < d.shardSize)) ∧ (∀ d ∈ ds.drop 1, 0 < d.arraySize) ∧ (b = false → ∀ d ∈ ds, 0 < d.arraySize) := by
  induction ds generalizing b with
  | nil => simp
  | cons d ds ih =>
    rw [validateDimensions] at h
    obtain ⟨e, h1, h⟩ := Res.bind_eq_ok.1 h
    cases e with
    | false => simp at h
    | true =>
      simp only [Bool.not_true, Bool.false_eq_true, if_false] at h
      obtain ⟨i1, i2, i3⟩ := ih h
      obtain ⟨k1, k2, k3, k4, k5⟩ := validateDimension_ok h1
      refine ⟨?_, ?_, ?_⟩
      · intro x hx
        rcases List.mem_cons.1 hx with rfl | hx
        · exact ⟨k1, k2, k4, k5⟩
        · exact i1 x hx
      · exact i3 rfl
      · intro hb x hx
        rcases List.mem_cons.1 hx with rfl | hx
        · exact k3 hb
        · exact i3 rfl x hx

/-- The dimension part of the documented constraints. -/
structure DimsAccepted (v : Nat) (ds : List DimProps) : Prop where
  len : 3 ≤ ds.length
  yx : ∀ d ∈ ds.drop (ds.length - 2), d.kind = 0
  each : ∀ d ∈ ds, (∃ n, d.name = some n ∧ (trim n).isEmpty = false) ∧ d.kind < 4 ∧ 0 < d.chunkSize ∧
      (v = 3 → 0 < d.shardSize)
  tail : ∀ d ∈ ds.drop 1, 0 < d.arraySize

/-- The documented constraints on settings. -/
structure SettingsAccepted (w : World) (s : Settings) : Prop where
  version : s.version = 2 ∨ s.version = 3
  path : ∃ p, s.storePath = some p ∧ p ≠ [] ∧ (s.s3 = none → validateStorePath w p = true)
  s3 : ∀ x, s.s3 = some x → validateS3 x = .ok true
  dtype : s.dataType < 10
  compression : ∀ c, s.compression = some c → validateCompression c = true
  custom : validateCustomMetadata w s.customMetadata = true
  dims : ∃ ds, s.dimensions = some ds ∧ DimsAccepted s.version ds

/-- The last stage of `validateSettings`. -/
def dimsStage (s : Settings) : Res Bool :=
  match s.dimensions with
  | none => .ok false
  | some dims =>
    if dims.length < 3 then .ok false
    else
      match dims.reverse with
      | x :: y :: _ =>
        if x.kind ≠ 0 then .ok false
        else if y.kind ≠ 0 then .ok false else validateDimensions s.version true dims
      | _ => .ok false

/-- Everything after the store. -/
def restStage (w : World) (s : Settings) : Res Bool :=
  if s.dataType ≥ 10 then .ok false
  else if (s.compression.map fun c => !validateCompression c) = some true then .ok false
  else if !validateCustomMetadata w s.customMetadata then .ok false
  else dimsStage s

theorem validateSettings_eq (w : World) (s : Settings) : validateSettings w (some s) =
    if s.version < 2 || s.version ≥ 4 then .ok false else
    match s.storePath with
    | none => .ok false
    | some p =>
      if p.isEmpty then .ok false else
      match s.s3 with
      | some x => (validateS3 x).bind fun b => if !b then .ok false else restStage w s
      | none => if !validateStorePath w p then .ok false else restStage w s := by
  unfold validateSettings restStage dimsStage
  simp only [Res.pure_eq]
  split
  · rfl
  · cases s.storePath with
    | none => rfl
    | some p =>
      dsimp only
      split
      · rfl
      · cases s.s3 with
        | none => cases s.compression <;> simp <;> rfl
        | some x =>
          cases s.compression with
          | none => simp; rfl
          | some c => simp; rfl

theorem dimsStage_ok {s : Settings} (h : dimsStage s = .ok true) :
    ∃ ds, s.dimensions = some ds ∧ DimsAccepted s.version ds := by
  unfold dimsStage at h
  split at h
  · simp at h
  · rename_i ds hds
    refine ⟨ds, hds, ?_⟩
    split at h
    · simp at h
    · rename_i hl
      split at h
      · rename_i x y r hr
        split at h
        · simp at h
        · split at h
          · simp at h
          · rename_i hx hy
            obtain ⟨k1, k2, _⟩ := validateDimensions_ok h
            refine ⟨by omega, ?_, k1, k2⟩
            have : ds = r.reverse ++ [y, x] := by
              have := congrArg List.reverse hr
              simpa using this
            rw [this]
            have hlen : (r.reverse ++ [y, x]).length - 2 = r.reverse.length := by simp
            rw [hlen, List.drop_left]
            intro d hd
            simp at hd
            rcases hd with rfl | rfl
            · simpa using hy
            · simpa using hx
      · simp at h

theorem validateSettings_ok {w : World} {s : Settings} (h : validateSettings w (some s) = .ok true) :
    SettingsAccepted w s := by
  rw [validateSettings_eq] at h
  split at h
  · simp at h
  · rename_i hv
    have hv : s.version = 2 ∨ s.version = 3 := by simp at hv; omega
    have rest : ∀ (_ : restStage w s = .ok true) (p : Text) (_ : s.storePath = some p) (_ : p ≠ [])
        (_ : s.s3 = none → validateStorePath w p = true) (_ : ∀ x, s.s3 = some x → validateS3 x = .ok true),
        SettingsAccepted w s := by
      intro hr p hp hpe h1 h2
      unfold restStage at hr
      split at hr
      · simp at hr
      · split at hr
        · simp at hr
        · split at hr
          · simp at hr
          · rename_i a1 a2 a3
            refine ⟨hv, ⟨p, hp, hpe, h1⟩, h2, by omega, ?_, by simpa using a3, dimsStage_ok hr⟩
            intro c hc
            rw [hc] at a2
            simpa using a2
    split at h
    · simp at h
    · rename_i p hp
      split at h
      · simp at h
      · rename_i hpe
        have hpe : p ≠ [] := by simpa using hpe
        split at h
        · rename_i x hx
          obtain ⟨b, hb, h⟩ := Res.bind_eq_ok.1 h
          cases b with
          | false => simp at h
          | true =>
            refine rest (by simpa using h) p hp hpe (by simp [hx]) ?_
            intro y hy
            rw [hx] at hy
            cases hy
            exact hb
        · rename_i hx
          split at h
          · simp at h
          · rename_i hs
            exact rest h p hp hpe (fun _ => by simpa using hs) (by simp [hx])

theorem dimsAccepted_split {v : Nat} {ds : List DimProps} (h : DimsAccepted v ds) :
    ∃ a inner y x, ds = a :: (inner ++ [y, x]) := by
  obtain ⟨hl, _⟩ := h
  cases ds with
  | nil => simp at hl
  | cons a rest =>
    cases hr : rest.reverse with
    | nil => simp at hr; subst hr; simp at hl
    | cons x r =>
      cases r with
      | nil =>
        have := congrArg List.reverse hr
        simp at this
        subst this
        simp at hl
      | cons y r =>
        refine ⟨a, r.reverse, y, x, ?_⟩
        have := congrArg List.reverse hr
        simp at this
        rw [this]

/-- The dimensions of the level-0 array. -/
theorem commit_dims {s : Settings} {a y x : DimProps} {inner : List DimProps}
    (h : s.dimensions = some (a :: (inner ++ [y, x]))) :
    ∃ cfg, commitSettings s = .ok cfg ∧ cfg.dims = {
        append := a.toDim
        inner := inner.map DimProps.toDim
        height := y.toDim
        width := x.toDim
        dtype := DType.fromC s.dataType } := by
  unfold commitSettings
  rw [h]
  simp [ArrayDims.ofList]

/-- **Accepted settings give valid dimensions.** -/
theorem accepted_valid {w : World} {s : Settings} {cfg : WConfig} (hv : validateSettings w (some s) = .ok true)
    (hc : commitSettings s = .ok cfg) : cfg.dims.Valid ∧ cfg.dims.height.kind = .space ∧
      cfg.dims.width.kind = .space ∧ (s.version = 3 → ∀ d ∈ cfg.dims.toList, 0 < d.shardSize) := by
  obtain ⟨ds, hds, hd⟩ := (validateSettings_ok hv).dims
  obtain ⟨a, inner, y, x, rfl⟩ := dimsAccepted_split hd
  obtain ⟨cfg', h1, h2⟩ := commit_dims hds
  rw [hc] at h1
  cases h1
  have hyx : ∀ d ∈ [y, x], d.kind = 0 := by
    have := hd.yx
    have hlen : (a :: (inner ++ [y, x])).length - 2 = (a :: inner).length := by simp
    rw [hlen, ← List.cons_append, List.drop_left] at this
    exact this
  have htail : cfg.dims.tailDims = (inner ++ [y, x]).map DimProps.toDim := by
    rw [h2]; simp [ArrayDims.tailDims]
  have htl : cfg.dims.toList = (a :: (inner ++ [y, x])).map DimProps.toDim := by
    rw [h2]; simp [ArrayDims.toList]
  refine ⟨⟨?_, ?_, ?_⟩, ?_, ?_, ?_⟩
  · rw [h2]; exact (hd.each a (by simp)).2.2.1
  · intro d hdm
    rw [htail] at hdm
    obtain ⟨d', hd', rfl⟩ := List.mem_map.1 hdm
    exact (hd.each d' (by simp at hd' ⊢; right; exact hd')).2.2.1
  · intro d hdm
    rw [htail] at hdm
    obtain ⟨d', hd', rfl⟩ := List.mem_map.1 hdm
    exact hd.tail d' (by simpa using hd')
  · rw [h2]
    show DimType.fromC y.kind = _
    rw [hyx y (by simp)]; rfl
  · rw [h2]
    show DimType.fromC x.kind = _
    rw [hyx x (by simp)]; rfl
  · intro h3 d hdm
    rw [htl] at hdm
    obtain ⟨d', hd', rfl⟩ := List.mem_map.1 hdm
    exact (hd.each d' hd').2.2.2 h3

theorem commit_ok {w : World} {s : Settings} (hv : validateSettings w (some s) = .ok true) :
    ∃ cfg, commitSettings s = .ok cfg := by
  obtain ⟨ds, hds, hd⟩ := (validateSettings_ok hv).dims
  obtain ⟨a, inner, y, x, rfl⟩ := dimsAccepted_split hd
  obtain ⟨cfg, h, _⟩ := commit_dims hds
  exact ⟨cfg, h⟩

theorem commit_fields {s : Settings} {cfg : WConfig} (h : commitSettings s = .ok cfg) :
    cfg.level = 0 ∧ cfg.bucket = s.s3.map (fun x => trim (x.bucketName.getD [])) ∧
    cfg.storePath = trim (s.storePath.getD []) ∧
    cfg.compression = s.compression.map (fun c => ⟨codecName c.codec, c.level, c.shuffle⟩) ∧
    cfg.version = (if s.version = 2 then .v2 else .v3) := by
  unfold commitSettings at h
  obtain ⟨_, _, h⟩ := Res.bind_eq_ok.1 h
  cases h
  exact ⟨rfl, rfl, rfl, rfl, rfl⟩

end AZ
