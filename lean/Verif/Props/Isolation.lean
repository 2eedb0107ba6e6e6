import Verif.Lemmas.ClosedStream
import Verif.Spec.Isolation
import Verif.Props.Compression

set_option linter.unusedSimpArgs false

/-! # C63: streams writing to different stores do not interfere -/

namespace AZ
open Spec

/-- One stream: the settings, where its data are stored, and what it did. -/
structure Session where
  settings : Settings
  root : Text
  events : List Ev

/-- Histories of a stream in the world `w`: any calls, all of them successful, and destroy, on storage of any behaviour; or any
calls with fewer than 2^32 frames, each meeting storage that behaves in its own way and may fail, the calls going on after
errors, then possibly destroy, successful or not. -/
inductive Session.History (w : World) (x : Session) : Prop where
  | complete {env : Env} {fuel : Nat} {calls : List Bytes} {st : SState} {ns : List Nat} :
      runStream w env fuel x.settings calls = some (.ok (st, ns, x.events)) → x.History w
  | any {env : Env} {fuel : Nat} {calls : List (Env × Bytes)} {s0 : SState} {st : Exc.XStream} {rs : List Exc.Status} :
      createStream w env fuel (some x.settings) = some (.ok s0) →
      Exc.maxFrames s0.buf.length (calls.map (·.2)) + 1 < 2 ^ 32 →
      Exc.callsX calls (Exc.XStream.of s0) = some (st, rs) →
      (x.events = st.trace ∨ ∃ last ok, Exc.destroyX last st = some (x.events, ok)) → x.History w

/-- The stream has the given history, with its data in directory `root`. -/
def Session.Ran (w : World) (x : Session) : Prop := StoredAt x.settings x.root ∧ x.History w

/-- The directory that creating the stream removes: the store path as it is spelled. -/
def Session.spelled (x : Session) : Text := trim (x.settings.storePath.getD [])

/-- Everything the session does to the file system: `create_store_` removes what lies under the store path
(`src/streaming/zarr.stream.cpp:567-580`), then the sinks act. -/
def Session.acts (x : Session) : List DiskAct := .cleared x.spelled :: x.events.map .event

/-- The two sessions use different stores, neither inside the other. -/
def Session.Separate (x y : Session) : Prop := Spec.Apart x.root y.root ∧ Spec.Apart x.spelled y.root

theorem stepAct_event {p : Text} {before : Option Bytes} {evs : List Ev} :
    diskAfter p before (evs.map .event) = evs.foldl (stepFile p) before := by
  induction evs generalizing before with
  | nil => rfl
  | cons e es ih => exact ih

/-- The session alone leaves what `fileInStore` says. -/
theorem Session.alone {w : World} {x : Session} {cfg : WConfig} (hc : commitSettings x.settings = .ok cfg) (p : Text) :
    diskAfter p (w.files p) x.acts = fileInStore w cfg p x.events := by
  obtain ⟨_, _, k3, _⟩ := commit_fields hc
  show diskAfter p (stepAct p (w.files p) (.cleared x.spelled)) (x.events.map .event) = _
  rw [stepAct_event]
  unfold fileInStore stepAct Session.spelled
  rw [k3]

/-- An action that does not concern the file `p`. -/
def Idle (p : Text) (a : DiskAct) : Prop := ∀ cur, stepAct p cur a = cur

theorem interleaving_one {p : Text} {parts : List (List DiskAct)} {whole : List DiskAct} (h : Interleaving parts whole)
    {i : Nat} {l : List DiskAct} (hi : parts[i]? = some l)
    (ho : ∀ j m, parts[j]? = some m → j ≠ i → ∀ a ∈ m, Idle p a) (before : Option Bytes) :
    diskAfter p before whole = diskAfter p before l := by
  induction h generalizing l before with
  | done hd =>
    rw [hd l (List.mem_of_getElem? hi)]
  | @step parts k x m whole hk _ ih =>
    by_cases hki : k = i
    · subst hki
      rw [hk] at hi
      cases hi
      have hlt : k < parts.length := (List.getElem?_eq_some_iff.1 hk).1
      refine ih (l := m) ?_ ?_ (stepAct p before x)
      · rw [List.getElem?_set_self hlt]
      · intro j n hj hne
        rw [List.getElem?_set_ne (Ne.symm hne)] at hj
        exact ho j n hj hne
    · have hx : stepAct p before x = before := ho k _ hk hki x (by simp) before
      show diskAfter p (stepAct p before x) whole = _
      rw [hx]
      refine ih (l := l) ?_ ?_ before
      · rw [List.getElem?_set_ne hki]; exact hi
      · intro j n hj hne a ha
        by_cases hkj : k = j
        · subst hkj
          have hlt : k < parts.length := (List.getElem?_eq_some_iff.1 hk).1
          rw [List.getElem?_set_self hlt] at hj
          cases hj
          exact ho k _ hk hne a (by simp [ha])
        · rw [List.getElem?_set_ne hkj] at hj
          exact ho j n hj hne a ha

theorem Session.idle {w : World} {x : Session} (hx : x.Ran w) {p : Text} (h1 : ∀ q, p ≠ x.root ++ '/' :: q)
    (h2 : ∀ q, p ≠ x.spelled ++ '/' :: q) : ∀ a ∈ x.acts, Idle p a := by
  obtain ⟨hr, hh⟩ := hx
  have hrun : ∀ e ∈ x.events, ∃ q, e.path = x.root ++ '/' :: q := by
    cases hh with
    | complete h => exact session_under (.inl hr) h
    | any h1 h2 h3 h4 =>
      obtain ⟨cfg, cfgs, k1, k2, k3⟩ := Exc.history_objects h1 h2 h3 h4
      exact fun e he => (k3 e he).under (.inl hr) k1 k2
  intro a ha cur
  rcases List.mem_cons.1 ha with rfl | ha
  · refine if_neg ?_
    rw [List.isPrefixOf_iff_prefix]
    rintro ⟨z, hz⟩
    exact h2 z (by rw [← hz]; simp)
  · obtain ⟨e, he, rfl⟩ := List.mem_map.1 ha
    obtain ⟨q, hq⟩ := hrun e he
    exact if_pos (fun h => h1 q (h.symm.trans hq))

/-- **C63.** Any number of streams (`xs`), any settings, storage behaviour and calls; every two use different stores. Stream
`i` has some history, complete or with failed calls; of the others any initial part of their actions has happened (they may still be running, or have
crashed). However the actions interleave on the file system, every file below the store of stream `i` is exactly as if
stream `i` had run alone. -/
theorem isolated {w : World} {xs : List Session} (hran : ∀ x ∈ xs, x.Ran w) {i : Nat} {x : Session} (hi : xs[i]? = some x)
    (hsep : ∀ (j : Nat) (y : Session), xs[j]? = some y → j ≠ i → y.Separate x) {parts : List (List DiskAct)}
    (hpi : parts[i]? = some x.acts) (hpre : ∀ (j : Nat) (m : List DiskAct), parts[j]? = some m → ∃ y : Session, xs[j]? = some y ∧ m <+: y.acts)
    {whole : List DiskAct} (hw : Interleaving parts whole) {cfg : WConfig} (hc : commitSettings x.settings = .ok cfg)
    (q : Text) :
    diskAfter (x.root ++ '/' :: q) (w.files (x.root ++ '/' :: q)) whole =
      fileInStore w cfg (x.root ++ '/' :: q) x.events := by
  rw [← Session.alone hc]
  refine interleaving_one hw hpi ?_ _
  intro j m hj hne a ha
  obtain ⟨y, hy, hm⟩ := hpre j m hj
  have hs := hsep j y hy hne
  exact Session.idle (hran y (List.mem_of_getElem? hy)) (fun z e => hs.1 z q e.symm) (fun z e => hs.2 z q e.symm) a
    (hm.subset ha)

/-- **C63**, files outside all stores: they are never touched. -/
theorem untouched {w : World} {xs : List Session} (hran : ∀ x ∈ xs, x.Ran w) {p : Text}
    (hp : ∀ x ∈ xs, ∀ q, p ≠ x.root ++ '/' :: q ∧ p ≠ x.spelled ++ '/' :: q) {parts : List (List DiskAct)}
    (hpre : ∀ (j : Nat) (m : List DiskAct), parts[j]? = some m → ∃ y : Session, xs[j]? = some y ∧ m <+: y.acts) {whole : List DiskAct}
    (hw : Interleaving parts whole) : diskAfter p (w.files p) whole = w.files p := by
  have hall : ∀ m ∈ parts, ∀ a ∈ m, Idle p a := by
    intro m hm a ha
    obtain ⟨j, hj⟩ := List.mem_iff_getElem?.1 hm
    obtain ⟨y, hy, hsub⟩ := hpre j m hj
    have hy' := List.mem_of_getElem? hy
    exact Session.idle (hran y hy') (fun q => (hp y hy' q).1) (fun q => (hp y hy' q).2) a (hsub.subset ha)
  clear hpre
  induction hw with
  | done => rfl
  | @step parts k x m whole hk _ ih =>
    have hx : stepAct p (w.files p) x = w.files p := hall _ (List.mem_of_getElem? hk) x (by simp) _
    show diskAfter p (stepAct p (w.files p) x) whole = _
    rw [hx]
    refine ih ?_
    intro n hn a ha
    rcases List.mem_or_eq_of_mem_set hn with hn | rfl
    · exact hall n hn a ha
    · exact hall _ (List.mem_of_getElem? hk) a (by simp [ha])

/-- Two directories neither of which, followed by `/`, starts the other. -/
theorem apart_of {a b : Text} (h1 : (a ++ ['/']).isPrefixOf (b ++ ['/']) = false) (h2 : (b ++ ['/']).isPrefixOf (a ++ ['/']) = false) :
    Spec.Apart a b := by
  intro p q h
  have h' : (a ++ ['/']) ++ p = (b ++ ['/']) ++ q := by simpa using h
  rcases List.append_eq_append_iff.1 h' with ⟨c, hc, _⟩ | ⟨c, hc, _⟩
  · rw [hc, List.isPrefixOf_iff_prefix.2 (List.prefix_append _ _)] at h1
    cases h1
  · rw [hc, List.isPrefixOf_iff_prefix.2 (List.prefix_append _ _)] at h2
    cases h2


namespace Sample

/-- One-pixel frames, stored in the given directory. -/
def stored (p : String) (calls : List Bytes) : Session :=
  let s := { tiny with storePath := some p.toList, compression := none }
  { settings := s, root := p.toList
    events := match runStream world env 9 s calls with
      | some (.ok (_, _, tr)) => tr
      | _ => [] }

theorem ran_of {p : String} {calls : List Bytes} (h1 : trim p.toList = p.toList)
    (h2 : "file:/".toList.isPrefixOf p.toList = false)
    (h3 : (match runStream world env 9 { tiny with storePath := some p.toList, compression := none } calls with
      | some (.ok _) => true
      | _ => false) = true) : (Sample.stored p calls).Ran world := by
  refine ⟨⟨rfl, p.toList, rfl, .inr ⟨h1, h2⟩⟩, ?_⟩
  match hm : runStream world env 9 { tiny with storePath := some p.toList, compression := none } calls with
  | some (.ok (st, ns, tr)) =>
    refine .complete (env := env) (fuel := 9) (calls := calls) (st := st) (ns := ns) ?_
    unfold Sample.stored
    dsimp only
    rw [hm]
  | none => rw [hm] at h3; cases h3
  | some .throw => rw [hm] at h3; cases h3
  | some .ub => rw [hm] at h3; cases h3

theorem ranA : (Sample.stored "/tmp/a" [[5], [6]]).Ran world := ran_of (by decide) (by decide) (by decide +kernel)
theorem ranB : (Sample.stored "/tmp/ab" [[7]]).Ran world := ran_of (by decide) (by decide) (by decide +kernel)

end Sample

/-- Two streams in neighbouring directories for `isolated`, the second one only half done; both write chunks. -/
example : (∀ x ∈ [Sample.stored "/tmp/a" [[5], [6]], Sample.stored "/tmp/ab" [[7]]], x.Ran Sample.world) ∧
    (Sample.stored "/tmp/ab" [[7]]).Separate (Sample.stored "/tmp/a" [[5], [6]]) ∧
    (∃ d, Ev.wrote "/tmp/a/0/0/0/0".toList 0 d ∈ (Sample.stored "/tmp/a" [[5], [6]]).events) ∧
    (∃ d, Ev.wrote "/tmp/ab/0/0/0/0".toList 0 d ∈ (Sample.stored "/tmp/ab" [[7]]).events) := by
  refine ⟨?_, ⟨apart_of (by decide) (by decide), ?_⟩, ⟨[5], by decide +kernel⟩, ⟨[7], by decide +kernel⟩⟩
  · intro x hx
    rcases List.mem_cons.1 hx with rfl | hx
    · exact Sample.ranA
    · rcases List.mem_cons.1 hx with rfl | hx
      · exact Sample.ranB
      · cases hx
  · have : (Sample.stored "/tmp/ab" [[7]]).spelled = "/tmp/ab".toList := by decide
    rw [this]
    exact apart_of (by decide) (by decide)

/-- A history with a failed call in the middle and no destroy is covered too. -/
example : ∃ x : Session, x.Ran Sample.world ∧ x.root = "/tmp/a".toList ∧ ∃ rs : List Exc.Status, none ∈ rs ∧
    ∃ d, Ev.wrote "/tmp/a/0/0/0/0".toList 0 d ∈ x.events := by
  have h : (match createStream Sample.world Sample.env 9
        (some { Sample.tiny with storePath := some "/tmp/a".toList, compression := none }) with
    | some (.ok s0) =>
      decide (Exc.maxFrames s0.buf.length [[5], [6], [7]] + 1 < 2 ^ 32) &&
      match Exc.callsX [(Sample.env, [5]), ({ Sample.env with makeSinks := fun _ => false }, [6]), (Sample.env, [7])]
        (Exc.XStream.of s0) with
      | some (st, rs) => rs.contains none && st.trace.contains (Ev.wrote "/tmp/a/0/0/0/0".toList 0 [5])
      | none => false
    | _ => false) = true := by decide +kernel
  split at h
  · rename_i s0 h0
    simp only [Bool.and_eq_true, decide_eq_true_eq] at h
    obtain ⟨hm, h⟩ := h
    split at h
    · rename_i st rs h1
      simp only [Bool.and_eq_true, List.contains_iff_mem] at h
      refine ⟨⟨{ Sample.tiny with storePath := some "/tmp/a".toList, compression := none }, "/tmp/a".toList, st.trace⟩,
        ⟨⟨rfl, "/tmp/a".toList, rfl, .inr ⟨show trim "/tmp/a".toList = "/tmp/a".toList by decide,
          show "file:/".toList.isPrefixOf "/tmp/a".toList = false by decide⟩⟩,
          .any (calls := [(Sample.env, [5]), ({ Sample.env with makeSinks := fun _ => false }, [6]), (Sample.env, [7])])
            h0 hm h1 (.inl rfl)⟩, rfl, rs, h.1, [5], h.2⟩
    · simp at h
  · simp at h

/-- The hypothesis on the stores cannot be dropped: a stream created in a directory that contains the store of another
stream removes the other stream's data. -/
theorem nested_lost : ∃ x y : Session, x.Ran Sample.world ∧ y.Ran Sample.world ∧ x.root ≠ y.root ∧
    (∃ b, diskAfter "/tmp/a/b/0/0/0/0".toList none y.acts = some b) ∧
    diskAfter "/tmp/a/b/0/0/0/0".toList none (y.acts ++ x.acts) = none := by
  refine ⟨Sample.stored "/tmp/a" [[5], [6]], Sample.stored "/tmp/a/b" [[7]], Sample.ranA,
    Sample.ran_of (by decide) (by decide) (by decide +kernel), ?_, ⟨[7], by decide +kernel⟩, by decide +kernel⟩
  show "/tmp/a".toList ≠ "/tmp/a/b".toList
  decide

end AZ
