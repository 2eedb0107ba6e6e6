import Verif.Model.WorkDir
import Verif.Lemmas.Confined
import Verif.Props.Isolation
import Verif.Props.Crash
import Verif.Spec.ZarrV2

/-!
# C102: the dataset stays where it was created
-/

namespace AZ
open Spec

theorem locate_const {c0 : Text} {es : List (Text × Ev)} (h : ∀ x ∈ es, absoluteIn x.1 x.2.path = absoluteIn c0 x.2.path)
    {files : Text → Text} (hf : ∀ x ∈ es, files x.2.path = absoluteIn c0 x.2.path) :
    locate files es = es.map fun x => x.2.on (absoluteIn c0 x.2.path) := by
  induction es generalizing files with
  | nil => rfl
  | cons x es ih =>
    obtain ⟨c, e⟩ := x
    have h0 := h (c, e) (by simp)
    have hf0 := hf (c, e) (by simp)
    have h' : ∀ x ∈ es, absoluteIn x.1 x.2.path = absoluteIn c0 x.2.path := fun x hx => h x (by simp [hx])
    have hf' : ∀ x ∈ es, files x.2.path = absoluteIn c0 x.2.path := fun x hx => hf x (by simp [hx])
    cases e with
    | opened p =>
      have h1 : absoluteIn c p = absoluteIn c0 p := h0
      have e1 : locate files ((c, .opened p) :: es) =
          .opened (absoluteIn c p) :: locate (fun q => if q = p then absoluteIn c p else files q) es := rfl
      rw [e1, List.map_cons, h1, ih h']
      · rfl
      · intro x hx
        split
        · next e => rw [e]
        · exact hf' x hx
    | wrote p o d =>
      have e1 : locate files ((c, .wrote p o d) :: es) = Ev.on (files p) (.wrote p o d) :: locate files es := rfl
      rw [e1, List.map_cons, show files p = absoluteIn c0 p from hf0, ih h' hf']
      rfl
    | finalized p =>
      have e1 : locate files ((c, .finalized p) :: es) = Ev.on (files p) (.finalized p) :: locate files es := rfl
      rw [e1, List.map_cons, show files p = absoluteIn c0 p from hf0, ih h' hf']
      rfl
    | dropped p =>
      have e1 : locate files ((c, .dropped p) :: es) = Ev.on (files p) (.dropped p) :: locate files es := rfl
      rw [e1, List.map_cons, show files p = absoluteIn c0 p from hf0, ih h' hf']
      rfl

theorem Ev.path_on (e : Ev) (q : Text) : (e.on q).path = q := by cases e <;> rfl

theorem stepFile_on {p q p' : Text} {cur : Option Bytes} {e : Ev} (h : q = p' ↔ e.path = p) :
    stepFile p' cur (e.on q) = stepFile p cur e := by
  unfold stepFile
  rw [Ev.path_on]
  by_cases hp : e.path = p
  · rw [if_neg (not_not.2 hp), if_neg (not_not.2 (h.2 hp))]
    cases e <;> rfl
  · rw [if_pos hp, if_pos (fun hq => hp (h.1 hq))]

theorem absoluteIn_under {c root : Text} (hr : root ≠ []) (q : Text) :
    absoluteIn c (root ++ '/' :: q) = absoluteIn c root ++ '/' :: q := by
  cases root with
  | nil => exact absurd rfl hr
  | cons a r =>
    unfold absoluteIn
    by_cases h : some a = some '/'
    · rw [if_pos (show (a :: r ++ '/' :: q).head? = some '/' from h), if_pos (show (a :: r).head? = some '/' from h)]
    · rw [if_neg (show ¬ (a :: r ++ '/' :: q).head? = some '/' from h), if_neg (show ¬ (a :: r).head? = some '/' from h)]
      simp

theorem absoluteIn_abs {c p : Text} (h : p.head? = some '/') : absoluteIn c p = p := by
  unfold absoluteIn
  rw [if_pos h]

/-- **C102, in part.** `x` is a stream with any history of calls, failing ones included; the working directory may differ for every
single event. If the store path is absolute, or the working directory is always the one of `create`, then everything happens below the
place that the store path named at `create`, and every file there has the contents that the history gives it. -/
theorem stays_partial {w : World} {x : Session} (hx : x.Ran w) (h0 : x.root ≠ []) {c0 : Text} {es : List (Text × Ev)}
    (he : es.map Prod.snd = x.events) (hd : x.root.head? = some '/' ∨ ∀ y ∈ es, y.1 = c0) :
    (∀ e ∈ located c0 es, ∃ q, e.path = absoluteIn c0 x.root ++ '/' :: q) ∧
    ∀ (q : Text) (before : Option Bytes),
      (located c0 es).foldl (stepFile (absoluteIn c0 x.root ++ '/' :: q)) before =
        x.events.foldl (stepFile (x.root ++ '/' :: q)) before := by
  have hu : ∀ e ∈ x.events, ∃ q, e.path = x.root ++ '/' :: q := by
    obtain ⟨hr, hh⟩ := hx
    cases hh with
    | complete h => exact session_under (.inl hr) h
    | any h1 h2 h3 h4 =>
      obtain ⟨cfg, cfgs, k1, k2, k3⟩ := Exc.history_objects h1 h2 h3 h4
      exact fun e he => (k3 e he).under (.inl hr) k1 k2
  generalize x.root = root at *
  generalize x.events = tr at *
  unfold located
  have hu' : ∀ x ∈ es, ∃ q, x.2.path = root ++ '/' :: q := fun x hx => hu _ (he ▸ List.mem_map_of_mem hx)
  have hl := locate_const (c0 := c0) (es := es) (files := absoluteIn c0) (by
    intro x hx
    rcases hd with hd | hd
    · obtain ⟨q, e⟩ := hu' x hx
      rw [e, absoluteIn_under h0, absoluteIn_under h0, absoluteIn_abs hd, absoluteIn_abs hd]
    · rw [hd x hx]) (fun _ _ => rfl)
  rw [hl]
  constructor
  · intro e hm
    obtain ⟨x, hx, rfl⟩ := List.mem_map.1 hm
    obtain ⟨q, e⟩ := hu' x hx
    exact ⟨q, by rw [Ev.path_on, e, absoluteIn_under h0]⟩
  · intro q before
    rw [← he]
    clear hl he hd
    induction es generalizing before with
    | nil => rfl
    | cons x es ih =>
      simp only [List.map_cons, List.foldl_cons]
      obtain ⟨q', e⟩ := hu' x (by simp)
      rw [stepFile_on (p := root ++ '/' :: q), ih (fun x hx => hu' x (by simp [hx]))]
      rw [e, absoluteIn_under h0]
      simp

/-! ### Violation -/

namespace Sample

/-- One-pixel frames, one frame per chunk, version 2, in the directory `a` of the working directory. -/
def here : Settings := { slab 1 1 with
  version := 2
  storePath := some ['a'] }

def hereCfg : WConfig := { slabCfg 1 1 with
  version := .v2
  storePath := ['a'] }

/-- The session of two calls, one frame each. The process is in the directory `/h` until the first call has returned, then in `c`. -/
def moved (c : Text) : Option (List Nat × List Ev) :=
  match createStream Sample.world Sample.env 9 (some here) with
  | some (.ok st0) =>
    match append Sample.env (appendFuel [1]) [1] st0, runStream Sample.world Sample.env 9 here [[1], [2]] with
    | some (.ok (st1, _)), some (.ok (_, ns, tr)) =>
      some (ns, located ['/', 'h'] (st1.trace.map (['/', 'h'], ·) ++ (tr.drop st1.trace.length).map (c, ·)))
    | _, _ => none
  | _ => none

/-- The second frame, as a reader finds it in the dataset `/h/a`. -/
def secondFrame (evs : List Ev) : Option Bytes :=
  readV2 (fun p => fileAfter p evs) "/h/a/0/".toList some [1, 1, 1] 1 [1, 0, 0]

/-- What is checked of `moved`: both calls report all bytes, the array document promises two frames, the second chunk is missing. -/
def movedAway (c : Text) : Bool :=
  match moved c with
  | some (ns, evs) => ns == [1, 1] && fileAfter "/h/a/0/.zarray".toList evs == some (metaDoc hereCfg 2) &&
      fileAfter "/h/a/0/1/0/0".toList evs == none
  | none => false

end Sample

/-- **C102 is violated.** The store path is relative; the process changes its working directory after the first call. The array document
in the original dataset is brought up to date (its file is still open) and promises two frames, but the second chunk is created below
the new working directory: the reader gets the fill value instead of the second frame. Both calls report success. -/
theorem chdir_violated : ∃ ns evs, Sample.moved ['/', 'd'] = some (ns, evs) ∧ ns = [1, 1] ∧
    fileAfter "/h/a/0/.zarray".toList evs = some (metaDoc Sample.hereCfg 2) ∧ Sample.secondFrame evs = some [0] := by
  have h : Sample.movedAway ['/', 'd'] = true := by decide +kernel
  unfold Sample.movedAway at h
  split at h
  · next ns evs e =>
    simp only [Bool.and_eq_true, beq_iff_eq] at h
    refine ⟨ns, evs, e, h.1.1, h.1.2, ?_⟩
    have hk : "/h/a/0/".toList ++ chunkKey (gridOf [1, 1, 1] [1, 0, 0]) = "/h/a/0/1/0/0".toList := by decide +kernel
    unfold Sample.secondFrame readV2
    rw [hk]
    dsimp only
    rw [h.2]
    rfl
  · cases h

/-- If the process stays in `/h`, the reader finds the second frame. -/
example : (Sample.moved ['/', 'h']).bind (fun x => Sample.secondFrame x.2) = some [2] := by decide +kernel

def Sample.hereRuns : Bool :=
  match runStream Sample.world Sample.env 9 Sample.here [[1], [2]] with
  | some (.ok _) => true
  | _ => false

/-- The hypotheses of `stays_partial` hold for the session that stays in `/h`. -/
example : ∃ tr, Session.Ran Sample.world ⟨Sample.here, ['a'], tr⟩ ∧ ∀ y ∈ tr.map (Prod.mk ['/', 'h']), y.1 = ['/', 'h'] := by
  have h : Sample.hereRuns = true := by decide +kernel
  unfold Sample.hereRuns at h
  split at h
  · next y e =>
    obtain ⟨s, ns, tr⟩ := y
    exact ⟨tr, ⟨⟨rfl, ['a'], rfl, .inr ⟨(by decide : trim ['a'] = ['a']), (by decide : "file:/".toList.isPrefixOf ['a'] = false)⟩⟩, .complete e⟩, by simp⟩
  · cases h

end AZ
