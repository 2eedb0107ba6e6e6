import Verif.Spec.PyMemory
import Verif.Props.CallerMemory

/-!
# C105: the memory that the Python binding passes
-/

namespace AZ.Py

theorem cStr_spec (t : Text) : (cStr t).length ≤ t.length ∧ (∀ i (h : i < (cStr t).length), t[i]? = some (cStr t)[i] ∧ (cStr t)[i].toNat ≠ 0) ∧
    ((cStr t).length = t.length ∨ t[(cStr t).length]? = some (Char.ofNat 0)) := by
  unfold cStr
  induction t with
  | nil => simp
  | cons c t ih =>
    by_cases hc : c = Char.ofNat 0
    · subst hc
      simp
    · rw [List.takeWhile_cons_of_pos (by simpa using hc)]
      obtain ⟨h1, h2, h3⟩ := ih
      refine ⟨by simpa using h1, ?_, by simpa using h3⟩
      intro i hi
      cases i with
      | zero =>
        refine ⟨rfl, fun h => hc ?_⟩
        have h : c.toNat = 0 := h
        rw [← Char.ofNat_toNat c, h]
      | succ i => simpa using h2 i (by simpa using hi)

theorem holdsString_text {m : Mem} {p : Nat} {t : Text} (h : HoldsString m p t) : HoldsText m p (cStr t) := by
  obtain ⟨h1, h2, h3, h4⟩ := h
  obtain ⟨c1, c2, c3⟩ := cStr_spec t
  refine ⟨h1, by omega, fun i hi => ?_, ?_⟩
  · obtain ⟨a1, a2⟩ := c2 i hi
    refine ⟨?_, a2⟩
    have := h3 i (by omega)
    rw [List.getElem?_eq_getElem (by omega)] at a1
    rw [this, a1]
  · rcases c3 with e | e
    · rw [e]
      exact h4
    · obtain ⟨hl, e⟩ := List.getElem?_eq_some_iff.1 e
      have := h3 _ hl
      rw [this, e]

/-- What the binding builds is the settings `toC s`. -/
theorem laid_holds {m : Mem} {b : Buffers} {s : Settings} (h : Laid m b s) : HoldsSettings m b.settings (toC s) := by
  obtain ⟨n1, n2, n3, n4⟩ := h.nonnull
  refine ⟨n4, rawSettings b s, h.settings, holdsString_text h.storePath, ?_, ?_, ?_, ?_, rfl, rfl, rfl⟩
  · cases hc : s.customMetadata with
    | none => simp [rawSettings, toC, hc, HoldsOptText]
    | some t =>
      simp only [rawSettings, toC, hc, Option.isSome_some, if_true, Option.map_some]
      exact holdsString_text (h.custom t hc)
  · cases hc : s.s3 with
    | none => simp [rawSettings, toC, hc]
    | some x =>
      obtain ⟨a0, a1, a2, a3, a4⟩ := h.s3 x hc
      simp only [rawSettings, toC, hc, Option.isSome_some, if_true, Option.map_some]
      exact ⟨n1, _, a0, holdsString_text a1, holdsString_text a2, holdsString_text a3, holdsString_text a4⟩
  · cases hc : s.compression with
    | none => simp [rawSettings, toC, hc]
    | some c =>
      simp only [rawSettings, toC, hc, Option.isSome_some, if_true, Option.map_some]
      exact ⟨n2, h.compression c hc⟩
  · cases he : s.dimensions.isEmpty with
    | true => simp only [rawSettings, toC, he, if_true]
    | false =>
      simp only [rawSettings, toC, he, Bool.false_eq_true, if_false]
      refine ⟨n3, by rw [List.length_map], fun i hi => ?_⟩
      have hi' : i < s.dimensions.length := by rwa [List.length_map] at hi
      obtain ⟨a1, a2⟩ := h.dims i hi'
      rw [List.getElem_map]
      exact ⟨b.names i, a1, holdsString_text a2⟩

/-- **C105, Python.** A Python stream is created from what its constructor put into memory as `ZarrStream_create` creates one from the values; the constructor leaves
no pointer to a string that is gone. -/
theorem python_create_reads {m : Mem} {b : Buffers} {s : Settings} (h : Laid m b s) (w : World) (env : Env) (fuel : Nat) :
    createFrom w env fuel m b = createStream w env fuel (some (toC s)) :=
  create_reads_settings (laid_holds h) env fuel

/-! ### Example -/

/-- Settings whose store path contains a NUL. -/
def nulSettings : Settings := ⟨"/tmp/a".toList ++ [Char.ofNat 0, 'b'], none, none, some ⟨1, 1, 5, 1⟩,
  [⟨"t".toList, 2, 0, 1, 1⟩, ⟨"y".toList, 0, 1, 1, 1⟩, ⟨"x".toList, 0, 2, 1, 2⟩], false, 0, 2⟩

def nulBuffers : Buffers := ⟨100, 110, 111, 112, 113, 114, fun i => 120 + 10 * i, 300, 400, 200, 8⟩

def nulMemory : Mem where
  size := 1000
  char q := ((Sample.cells 100 nulSettings.storePath q).or (Sample.cells 120 "t".toList q)).or
    ((Sample.cells 130 "y".toList q).or (Sample.cells 140 "x".toList q))
  byte _ := none
  dim q := if q = 200 then some ⟨120, 2, 0, 1, 1⟩ else if q = 224 then some ⟨130, 0, 1, 1, 1⟩ else
    if q = 248 then some ⟨140, 0, 2, 1, 2⟩ else none
  s3 _ := none
  compression q := if q = 400 then some ⟨1, 1, 5, 1⟩ else none
  settings q := if q = 8 then some ⟨100, 0, 0, 400, 200, 3, false, 0, 2⟩ else none

theorem nulName : HoldsString nulMemory 120 "t".toList ∧ HoldsString nulMemory 130 "y".toList ∧ HoldsString nulMemory 140 "x".toList :=
  ⟨⟨by decide, by decide, by decide, by decide⟩, ⟨by decide, by decide, by decide, by decide⟩, by decide, by decide, by decide, by decide⟩

theorem nulMemory_laid : Laid nulMemory nulBuffers nulSettings where
  nonnull := by decide
  settings := rfl
  storePath := ⟨by decide, by decide, by decide, by decide⟩
  custom t h := by cases h
  s3 x h := by cases h
  compression c h := by cases h; rfl
  dims i hi := by
    have hi : i < 3 := hi
    rcases (by omega : i = 0 ∨ i = 1 ∨ i = 2) with rfl | rfl | rfl
    · exact ⟨rfl, nulName.1⟩
    · exact ⟨rfl, nulName.2.1⟩
    · exact ⟨rfl, nulName.2.2⟩

/-- The stream is created at `/tmp/a`. -/
example (w : World) (env : Env) : createFrom w env 9 nulMemory nulBuffers = createStream w env 9 (some (toC nulSettings)) ∧
    (toC nulSettings).storePath = some "/tmp/a".toList :=
  ⟨python_create_reads nulMemory_laid w env 9, rfl⟩

end AZ.Py
