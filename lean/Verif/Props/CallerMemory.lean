import Verif.Spec.CallerMemory
import Verif.Props.Settings
import Verif.Props.ByteText
import Verif.Props.Failures

set_option linter.unusedSimpArgs false

/-!
# C105: the caller's memory
-/

namespace AZ

open Spec

/-! ### Strings -/

theorem deref_of {α : Type} {f : Nat → Option α} {p : Nat} {x : α} (hp : p ≠ 0) (h : f p = some x) : deref f p = .ok x := by
  unfold deref
  rw [if_neg hp, h]

theorem readCells_holds (m : Mem) : ∀ (t : Text) (fuel p : Nat), p ≠ 0 → t.length < fuel →
    (∀ i (h : i < t.length), m.char (p + i) = some t[i] ∧ t[i].toNat ≠ 0) → m.char (p + t.length) = some (Char.ofNat 0) →
    readCells m fuel p = .ok t := by
  intro t
  induction t with
  | nil =>
    intro fuel p hp hf _ h0
    obtain ⟨f, rfl⟩ : ∃ f, fuel = f + 1 := ⟨fuel - 1, by simp at hf; omega⟩
    unfold readCells
    rw [deref_of hp h0]
    rfl
  | cons c t ih =>
    intro fuel p hp hf hc h0
    obtain ⟨f, rfl⟩ : ∃ f, fuel = f + 1 := ⟨fuel - 1, by simp at hf; omega⟩
    obtain ⟨c1, c2⟩ := hc 0 (by simp)
    have c2 : c.toNat ≠ 0 := c2
    unfold readCells
    rw [deref_of hp c1]
    have := ih f (p + 1) (by omega) (by simpa using hf)
      (fun i hi => by have := hc (i + 1) (by simpa using hi); rwa [show p + (i + 1) = p + 1 + i by omega] at this)
      (by rw [show p + 1 + t.length = p + (c :: t).length by simp; omega]; exact h0)
    simp only [Res.bind_ok, List.getElem_cons_zero]
    rw [if_neg c2, this]
    rfl

theorem readText_holds {m : Mem} {p : Nat} {t : Text} (h : HoldsText m p t) : readText m p = .ok t := by
  obtain ⟨h1, h2, h3, h4⟩ := h
  exact readCells_holds m t _ p h1 (by omega) h3 h4

theorem readCells_null (m : Mem) (fuel : Nat) : readCells m fuel 0 = .ub := by
  cases fuel <;> rfl

theorem isEmptyStringAt_holds {m : Mem} {p : Nat} {t : Option Text} (h : HoldsOptText m p t) : isEmptyStringAt m p = isEmptyString t := by
  unfold isEmptyStringAt
  cases t with
  | none =>
    have h : p = 0 := h
    rw [h, readText, readCells_null]
    rfl
  | some t =>
    rw [readText_holds h]
    rfl

/-! ### Validation -/

theorem validateS3At_holds {m : Mem} {p : Nat} {s : S3Settings} (hp : p ≠ 0) (h : HoldsS3 m p s) : validateS3At m p = validateS3 s := by
  obtain ⟨r, h0, h1, h2, h3, h4⟩ := h
  unfold validateS3At validateS3
  rw [deref_of hp h0, Res.bind_ok, isEmptyStringAt_holds h1, isEmptyStringAt_holds h3, isEmptyStringAt_holds h4]
  have hb : (do
      let b ← readText m r.bucketName
      return !(decide ((utf8 (trim b)).length < 3) || decide ((utf8 (trim b)).length > 63)) : Res Bool) =
      match s.bucketName with
      | none => .ub
      | some b => .ok (!(decide ((utf8 (trim b)).length < 3) || decide ((utf8 (trim b)).length > 63))) := by
    cases hs : s.bucketName with
    | none =>
      rw [hs] at h2
      have h2 : r.bucketName = 0 := h2
      rw [h2, readText, readCells_null]
      rfl
    | some b =>
      rw [hs] at h2
      rw [readText_holds h2]
      rfl
  rw [hb]
  rfl

theorem validateCustomMetadataAt_holds {w : World} {m : Mem} {p : Nat} {t : Option Text} (h : HoldsOptText m p t) :
    validateCustomMetadataAt w m p = .ok (validateCustomMetadata w t) := by
  unfold validateCustomMetadataAt
  cases t with
  | none =>
    have h : p = 0 := h
    rw [if_pos h]
    rfl
  | some t =>
    have hr := readText_holds h
    obtain ⟨h1, h2, h3, h4⟩ := h
    rw [if_neg h1]
    cases t with
    | nil =>
      rw [deref_of h1 h4]
      rfl
    | cons c t =>
      obtain ⟨c1, c2⟩ := h3 0 (by simp)
      have c2 : c.toNat ≠ 0 := c2
      rw [deref_of h1 c1, Res.bind_ok, List.getElem_cons_zero, if_neg c2, hr]
      rfl

theorem validateDimensionAt_holds {m : Mem} {p : Nat} {d : DimProps} (hp : p ≠ 0) (h : HoldsDim m p d) (v : Nat) (b : Bool) :
    validateDimensionAt m v b p = validateDimension v b d := by
  obtain ⟨n, h0, h1⟩ := h
  unfold validateDimensionAt validateDimension
  rw [deref_of hp h0, Res.bind_ok, isEmptyStringAt_holds h1]

theorem validateDimensionsAt_holds {m : Mem} {base : Nat} (hb : base ≠ 0) (v : Nat) : ∀ (ds : List DimProps) (i : Nat),
    (∀ j (h : j < ds.length), HoldsDim m (base + 24 * (i + j)) ds[j]) →
    validateDimensionsAt m v base ds.length i = validateDimensions v (i == 0) ds := by
  intro ds
  induction ds with
  | nil => intro i _; rfl
  | cons d ds ih =>
    intro i h
    have h0 : HoldsDim m (base + 24 * i) d := h 0 (by simp)
    unfold validateDimensions
    rw [List.length_cons]
    unfold validateDimensionsAt
    rw [show dimAddress base i = base + 24 * i from rfl, validateDimensionAt_holds (by omega) h0,
      ih (i + 1) (fun j hj => by
        have := h (j + 1) (by simpa using hj)
        rwa [show i + (j + 1) = i + 1 + j by omega] at this)]
    have : (i + 1 == 0) = false := by simp
    rw [this]

/-- The part of validation after the store. -/
theorem tail_holds {w : World} {m : Mem} {s : Settings} {r : RawSettings} (h2 : HoldsOptText m r.customMetadata s.customMetadata)
    (h4 : match s.compression with
      | none => r.compression = 0
      | some c => r.compression ≠ 0 ∧ m.compression r.compression = some c)
    (h5 : match s.dimensions with
      | none => r.dimensions = 0
      | some ds => r.dimensions ≠ 0 ∧ r.dimensionCount = ds.length ∧
          ∀ i (h : i < ds.length), HoldsDim m (r.dimensions + 24 * i) ds[i])
    (h7 : r.dataType = s.dataType) (h8 : r.version = s.version) :
    (do
      if r.dataType ≥ 10 then return false
      if r.compression ≠ 0 then
        let c ← deref m.compression r.compression
        if !validateCompression c then return false
      if !(← validateCustomMetadataAt w m r.customMetadata) then return false
      if r.dimensions = 0 then return false
      if r.dimensionCount < 3 then return false
      let x ← deref m.dim (dimAddress r.dimensions (r.dimensionCount - 1))
      if x.kind ≠ 0 then return false
      let y ← deref m.dim (dimAddress r.dimensions (r.dimensionCount - 2))
      if y.kind ≠ 0 then return false
      validateDimensionsAt m r.version r.dimensions r.dimensionCount 0 : Res Bool) =
    ByteText.tailPart w s (AZ.validateDimensions s.version true) := by
  unfold ByteText.tailPart
  rw [validateCustomMetadataAt_holds h2, h7, h8]
  have hd : (do
      if r.dimensions = 0 then return false
      if r.dimensionCount < 3 then return false
      let x ← deref m.dim (dimAddress r.dimensions (r.dimensionCount - 1))
      if x.kind ≠ 0 then return false
      let y ← deref m.dim (dimAddress r.dimensions (r.dimensionCount - 2))
      if y.kind ≠ 0 then return false
      validateDimensionsAt m s.version r.dimensions r.dimensionCount 0 : Res Bool) =
      ByteText.dimsPart (AZ.validateDimensions s.version true) s.dimensions := by
    unfold ByteText.dimsPart
    cases hs : s.dimensions with
    | none =>
      rw [hs] at h5
      have h5 : r.dimensions = 0 := h5
      rw [if_pos h5]
      rfl
    | some ds =>
      rw [hs] at h5
      obtain ⟨a1, a2, a3⟩ := h5
      dsimp only
      rw [if_neg a1, a2]
      by_cases hl : ds.length < 3
      · rw [if_pos hl, if_pos hl]
        rfl
      · rw [if_neg hl, if_neg hl]
        obtain ⟨r', y, x, rfl⟩ : ∃ r' y x, ds = r' ++ [y, x] := by
          have hne : ds ≠ [] := by rintro rfl; simp at hl
          obtain ⟨a, b, e⟩ : ∃ a b, ds = a ++ [b] := ⟨ds.dropLast, ds.getLast hne, (List.dropLast_concat_getLast hne).symm⟩
          have ha : a ≠ [] := by rintro rfl; rw [e] at hl; simp at hl
          refine ⟨a.dropLast, a.getLast ha, b, ?_⟩
          rw [e]
          conv_lhs => rw [← List.dropLast_concat_getLast ha]
          simp
        have hx := a3 (r'.length + 1) (by simp)
        have hy := a3 r'.length (by simp)
        have ex : (r' ++ [y, x])[r'.length + 1]'(by simp) = x := by
          rw [List.getElem_append_right (by omega)]
          simp
        have ey : (r' ++ [y, x])[r'.length]'(by simp) = y := by
          rw [List.getElem_append_right (by omega)]
          simp
        rw [ex] at hx
        rw [ey] at hy
        obtain ⟨n1, x1, _⟩ := hx
        obtain ⟨n2, y1, _⟩ := hy
        have e1 : dimAddress r.dimensions ((r' ++ [y, x]).length - 1) = r.dimensions + 24 * (r'.length + 1) := by
          unfold dimAddress
          simp
        have e2 : dimAddress r.dimensions ((r' ++ [y, x]).length - 2) = r.dimensions + 24 * r'.length := by
          unfold dimAddress
          simp
        have hv := validateDimensionsAt_holds a1 s.version (r' ++ [y, x]) 0 (fun j hj => by rw [Nat.zero_add]; exact a3 j hj)
        rw [e1, e2, deref_of (by omega) x1, deref_of (by omega) y1, hv]
        simp only [List.reverse_append, List.reverse_cons, List.reverse_nil, List.nil_append, List.cons_append]
        rfl
  cases hc : s.compression with
  | none =>
    rw [hc] at h4
    have h4 : r.compression = 0 := h4
    rw [h4]
    simp only [ne_eq, not_true_eq_false, if_false, Res.bind_ok, Res.pure_eq]
    simp only [Res.pure_eq] at hd
    rw [hd]
    rfl
  | some c =>
    rw [hc] at h4
    obtain ⟨c1, c2⟩ := h4
    rw [if_pos c1, deref_of c1 c2]
    simp only [Res.bind_ok, Res.pure_eq]
    simp only [Res.pure_eq] at hd
    rw [hd]

theorem validateSettingsAt_holds {w : World} {m : Mem} {p : Nat} {s : Settings} (h : HoldsSettings m p s) :
    validateSettingsAt w m p = validateSettings w (some s) := by
  obtain ⟨h0, r, hr, h1, h2, h3, h4, h5, h6, h7, h8⟩ := h
  have htail := tail_holds (w := w) h2 h4 h5 h7 h8
  rw [ByteText.whole_text]
  unfold validateSettingsAt ByteText.whole
  rw [if_neg h0, deref_of h0 hr, Res.bind_ok, htail, h8]
  split
  · rfl
  · cases hp : s.storePath with
    | none =>
      rw [hp] at h1
      have h1 : r.storePath = 0 := h1
      rw [if_pos h1]
      rfl
    | some path =>
      rw [hp] at h1
      rw [if_neg h1.1, readText_holds h1, Res.bind_ok]
      dsimp only
      split
      · rfl
      · cases hs : s.s3 with
        | none =>
          rw [hs] at h3
          have h3 : r.s3 = 0 := h3
          rw [h3, if_neg (by simp)]
          rfl
        | some x =>
          rw [hs] at h3
          rw [if_pos h3.1, validateS3At_holds h3.1 h3.2]
          rfl

/-! ### Copies -/

theorem commitS3At_holds {m : Mem} {p : Nat} {s : S3Settings} (hp : p ≠ 0) (h : HoldsS3 m p s) (hg : GoodS3 s) :
    commitS3At m p = .ok s := by
  obtain ⟨r, h0, h1, h2, h3, h4⟩ := h
  obtain ⟨e, b, a, k⟩ := s
  obtain ⟨⟨e, rfl, _⟩, ⟨a, rfl, _⟩, ⟨k, rfl, _⟩, ⟨b, t, rfl, _⟩⟩ := hg
  unfold commitS3At
  rw [deref_of hp h0, Res.bind_ok, readText_holds h1, readText_holds h2, readText_holds h3, readText_holds h4]
  rfl

theorem commitDimsAt_holds {m : Mem} {base v : Nat} (hb : base ≠ 0) : ∀ (ds : List DimProps) (i : Nat),
    (∀ j (h : j < ds.length), HoldsDim m (base + 24 * (i + j)) ds[j]) → (∀ d ∈ ds, GoodDim v d) →
    commitDimsAt m base ds.length i = .ok ds := by
  intro ds
  induction ds with
  | nil => intro i _ _; rfl
  | cons d ds ih =>
    intro i h hg
    obtain ⟨n, d0, d1⟩ : HoldsDim m (base + 24 * i) d := h 0 (by simp)
    obtain ⟨name, kind, a, c, sh⟩ := d
    obtain ⟨t, ht, _⟩ := (hg _ List.mem_cons_self).name
    dsimp only at ht d0 d1
    subst ht
    rw [List.length_cons]
    unfold commitDimsAt
    rw [show dimAddress base i = base + 24 * i from rfl, deref_of (by omega) d0, Res.bind_ok, readText_holds d1,
      ih (i + 1) (fun j hj => by
        have := h (j + 1) (by simpa using hj)
        rwa [show i + (j + 1) = i + 1 + j by omega] at this) (fun d hd => hg d (List.mem_cons_of_mem _ hd))]
    rfl

theorem commitAt_holds {w : World} {m : Mem} {p : Nat} {s : Settings} (h : HoldsSettings m p s) (hg : GoodSettings w s) :
    commitAt m p = .ok s := by
  obtain ⟨h0, r, hr, h1, h2, h3, h4, h5, h6, h7, h8⟩ := h
  obtain ⟨path, custom, s3, comp, dims, ms, dt, v⟩ := s
  obtain ⟨t, ht, _⟩ := hg.path
  obtain ⟨ds, hds, hgd⟩ := hg.dims
  have g3 := hg.s3
  dsimp only at ht hds h1 h2 h3 h4 h5 h6 h7 h8 g3
  subst ht hds h6 h7 h8
  unfold commitAt
  have e2 : ifGiven r.customMetadata (readText m r.customMetadata) = .ok custom := by
    unfold ifGiven
    cases custom with
    | none =>
      have h2 : r.customMetadata = 0 := h2
      rw [if_pos h2]
    | some t =>
      rw [if_neg h2.1, readText_holds h2]
      rfl
  have e3 : ifGiven r.s3 (commitS3At m r.s3) = .ok s3 := by
    unfold ifGiven
    cases s3 with
    | none =>
      have h3 : r.s3 = 0 := h3
      rw [if_pos h3]
    | some x =>
      rw [if_neg h3.1, commitS3At_holds h3.1 h3.2 (g3 x rfl)]
      rfl
  have e4 : ifGiven r.compression (deref m.compression r.compression) = .ok comp := by
    unfold ifGiven
    cases comp with
    | none =>
      have h4 : r.compression = 0 := h4
      rw [if_pos h4]
    | some c =>
      rw [if_neg h4.1, deref_of h4.1 h4.2]
      rfl
  obtain ⟨a1, a2, a3⟩ := h5
  have e5 := commitDimsAt_holds (v := r.version) a1 ds 0 (fun j hj => by rw [Nat.zero_add]; exact a3 j hj) hgd.each
  rw [deref_of h0 hr, Res.bind_ok, readText_holds h1, Res.bind_ok, e2, Res.bind_ok, e3, Res.bind_ok, e4, Res.bind_ok, a2, e5]
  rfl

theorem constructStream_eq {w : World} {env : Env} {fuel : Nat} {s : Settings} (hv : validateSettings w (some s) = .ok true) :
    createStream w env fuel (some s) = constructStream w env fuel s := by
  unfold createStream constructStream
  rw [hv]
  rfl

/-- **C105, creation.** Create on the settings at `p`: whatever else is in memory or is not, it does what the settings say; in particular it reads nothing
but the structure and the strings and structures its pointers lead to. -/
theorem create_reads_settings {w : World} {m : Mem} {p : Nat} {s : Settings} (h : HoldsSettings m p s) (env : Env) (fuel : Nat) :
    createAt w env fuel m p = createStream w env fuel (some s) := by
  unfold createAt
  rw [validateSettingsAt_holds h]
  cases hv : validateSettings w (some s) with
  | throw => unfold createStream; rw [hv]
  | ub => unfold createStream; rw [hv]
  | ok b =>
    cases b with
    | false => unfold createStream; rw [hv]
    | true =>
      dsimp only
      rw [commitAt_holds h ((validation_exact w s).1 hv), constructStream_eq hv]

/-! ### Data -/

theorem readBytes_holds (m : Mem) : ∀ (d : Bytes) (p : Nat), p ≠ 0 → (∀ i (h : i < d.length), m.byte (p + i) = some d[i]) →
    readBytes m p d.length = .ok d := by
  intro d
  induction d with
  | nil => intro p _ _; rfl
  | cons b d ih =>
    intro p hp h
    rw [List.length_cons]
    unfold readBytes
    have h0 : m.byte p = some b := h 0 (by simp)
    rw [deref_of hp h0, Res.bind_ok, ih (p + 1) (by omega) (fun i hi => by
      have := h (i + 1) (by simpa using hi)
      rwa [show p + (i + 1) = p + 1 + i by omega] at this)]
    rfl

theorem appendsAt_holds {env : Env} : ∀ {calls : List AppendCall} {data : List Bytes}, List.Forall₂ HoldsData calls data →
    ∀ st, appendsAt env calls st = appends env data st := by
  intro calls data h
  induction h with
  | nil => intro st; rfl
  | cons hc _ ih =>
    intro st
    obtain ⟨c1, c2, c3⟩ := hc
    unfold appendsAt
    rw [c2, readBytes_holds _ _ _ c1 c3, Res.bind_ok]
    simp only [appends]
    split
    · rfl
    · rfl
    · rfl
    · simp only [Res.bind_ok, Res.pure_eq, ih]
      rfl

/-- **C105.** A session whose settings are in memory when the stream is created, and whose data are in memory during the calls that append them,
does exactly what the settings and the data say: the memory of each call may be quite another one, in which settings and data of earlier calls
have been freed or overwritten. -/
theorem callers_memory {w : World} {m : Mem} {p : Nat} {s : Settings} {calls : List AppendCall} {data : List Bytes}
    (h : HoldsSettings m p s) (hc : List.Forall₂ HoldsData calls data) (env : Env) (fuel : Nat) :
    runAt w env fuel m p calls = runStream w env fuel s data := by
  unfold runAt runStream
  rw [create_reads_settings h]
  cases createStream w env fuel (some s) with
  | none => rfl
  | some r =>
    cases r with
    | throw => rfl
    | ub => rfl
    | ok st =>
      dsimp only
      rw [appendsAt_holds hc]

/-! ### Examples -/

namespace Sample

/-- A text at an address, with its NUL. -/
def cells (p : Nat) (t : Text) (q : Nat) : Option Char :=
  if p ≤ q then (t ++ [Char.ofNat 0])[q - p]? else none

/-- The settings of `strip 2 2 1` at address 8: the strings at 100, 120, 130 and 140, the dimensions from 200 on. Nothing else is readable. -/
def settingsMemory : Mem where
  size := 1000
  char q := ((cells 100 "/tmp/a".toList q).or (cells 120 "t".toList q)).or ((cells 130 "y".toList q).or (cells 140 "x".toList q))
  byte _ := none
  dim q := if q = 200 then some ⟨120, 2, 0, 1, 1⟩ else if q = 224 then some ⟨130, 0, 1, 1, 1⟩ else
    if q = 248 then some ⟨140, 0, 2, 1, 2⟩ else none
  s3 _ := none
  compression _ := none
  settings q := if q = 8 then some ⟨100, 0, 0, 0, 200, 3, false, 0, 2⟩ else none

/-- Memory with nothing but `d` at address `p`. -/
def dataMemory (p : Nat) (d : Bytes) : Mem where
  size := 1000
  char _ := none
  byte q := if p ≤ q then d[q - p]? else none
  dim _ := none
  s3 _ := none
  compression _ := none
  settings _ := none

theorem settingsMemory_holds : HoldsSettings settingsMemory 8 (strip 2 2 1) := by
  refine ⟨by decide, ⟨100, 0, 0, 0, 200, 3, false, 0, 2⟩, rfl, ?_, rfl, rfl, rfl, ⟨by decide, rfl, ?_⟩, rfl, rfl, rfl⟩
  · exact ⟨by decide, by decide, by decide, by decide⟩
  · intro i hi
    have hi : i < 3 := hi
    rcases (by omega : i = 0 ∨ i = 1 ∨ i = 2) with rfl | rfl | rfl
    · exact ⟨120, rfl, by decide, by decide, by decide, by decide⟩
    · exact ⟨130, rfl, by decide, by decide, by decide, by decide⟩
    · exact ⟨140, rfl, by decide, by decide, by decide, by decide⟩

theorem dataMemory_holds {p : Nat} (hp : p ≠ 0) (d : Bytes) : HoldsData ⟨dataMemory p d, p, d.length⟩ d := by
  refine ⟨hp, rfl, fun i hi => ?_⟩
  simp only [dataMemory]
  rw [if_pos (by omega), Nat.add_sub_cancel_left]
  exact List.getElem?_eq_getElem hi

end Sample

/-- A session of two calls; when they are made, the settings have been freed and the second buffer is where the first one was. -/
example : runAt Sample.world Sample.env 9 Sample.settingsMemory 8 [⟨Sample.dataMemory 300 [5, 6], 300, 2⟩, ⟨Sample.dataMemory 300 [7, 8], 300, 2⟩] =
    runStream Sample.world Sample.env 9 (Sample.strip 2 2 1) [[5, 6], [7, 8]] :=
  callers_memory Sample.settingsMemory_holds (.cons (Sample.dataMemory_holds (by decide) [5, 6]) (.cons (Sample.dataMemory_holds (by decide) [7, 8]) .nil)) _ _

/-- Settings that have been freed before create, and an array with fewer dimensions than announced, are undefined behaviour. -/
example : createAt Sample.world Sample.env 9 (Sample.dataMemory 300 []) 8 = some .ub ∧
    createAt Sample.world Sample.env 9
      { Sample.settingsMemory with settings := fun q => if q = 8 then some ⟨100, 0, 0, 0, 200, 4, false, 0, 2⟩ else none } 8 = some .ub :=
  ⟨rfl, rfl⟩

end AZ
