import Verif.Spec.Active
import Verif.Props.Crash
import Verif.Props.Exceptions
import Verif.Props.PySession

/-!
# C103: a Python stream says whether it is active
-/

namespace AZ.Py
open AZ.Exc _root_.Spec

theorem stmt_stays {st : XStream} {x : Stmt} {o : Option XStream} {y : Seen} (h : stmt (some st) x = some (o, y)) :
    (∃ st', o = some st') ∧ ∀ b, y = .answered b → b = true := by
  cases x with
  | isActive =>
    simp only [stmt, isActive, Option.some.injEq, Prod.mk.injEq] at h
    obtain ⟨rfl, rfl⟩ := h
    exact ⟨⟨_, rfl⟩, fun b e => by cases e; rfl⟩
  | append env m =>
    simp only [stmt, isActive, Option.isSome_some, Bool.not_true] at h
    rw [if_neg (by simp)] at h
    split at h
    · cases h
    · cases h
    · cases h; exact ⟨⟨_, rfl⟩, fun b e => by cases e⟩
    · cases h; exact ⟨⟨_, rfl⟩, fun b e => by cases e⟩

theorem program_true {st : XStream} {xs : List Stmt} {o : Option XStream} {ys : List Seen}
    (h : program (some st) xs = some (o, ys)) : (∃ st', o = some st') ∧ ∀ b, .answered b ∈ ys → b = true := by
  induction xs generalizing st o ys with
  | nil => cases h; exact ⟨⟨_, rfl⟩, fun b e => by cases e⟩
  | cons x xs ih =>
    unfold program at h
    split at h
    · cases h
    · next o' y e =>
      obtain ⟨⟨st', rfl⟩, hy⟩ := stmt_stays e
      cases hp : program (some st') xs with
      | none => rw [hp] at h; cases h
      | some r =>
        obtain ⟨o2, l⟩ := r
        rw [hp] at h
        simp only [Option.map_some, Option.some.injEq, Prod.mk.injEq] at h
        obtain ⟨rfl, rfl⟩ := h
        obtain ⟨i1, i2⟩ := ih hp
        refine ⟨i1, fun b hb => ?_⟩
        rcases List.mem_cons.1 hb with e | e
        · exact hy b e.symm
        · exact i2 b e

/-- **C103, in part.** A stream that has been created is active, and remains so as long as no call of `append` raises. -/
theorem is_active_partial {st : XStream} {xs : List Stmt} {o : Option XStream} {ys : List Seen}
    (h : program (some st) xs = some (o, ys)) (hr : .raised ∉ ys) : Told ys := by
  have ht := (program_true h).2
  clear h
  induction ys with
  | nil => trivial
  | cons y l ih =>
    have hl := ih (fun hm => hr (List.mem_cons_of_mem _ hm)) (fun b hb => ht b (List.mem_cons_of_mem _ hb))
    cases y with
    | returned => exact hl
    | raised => exact absurd List.mem_cons_self hr
    | answered b => exact ⟨ht b List.mem_cons_self, hl⟩

/-- **C103 is violated, by every program.** `is_active` answers `True` whatever has happened; what the program is told is right only if
it never asks after an exception. -/
theorem is_active_violated {st : XStream} {xs : List Stmt} {o : Option XStream} {l1 l2 : List Seen} {b : Bool}
    (h : program (some st) xs = some (o, l1 ++ .raised :: l2)) (hb : .answered b ∈ l2) :
    b = true ∧ ¬ Told (l1 ++ .raised :: l2) := by
  have hb1 : b = true := (program_true h).2 b (List.mem_append_right _ (List.mem_cons_of_mem _ hb))
  refine ⟨hb1, fun ht => ?_⟩
  clear h
  induction l1 with
  | nil => exact absurd (ht b hb) (by simp [hb1])
  | cons y l1 ih =>
    cases y with
    | returned => exact ih ht
    | answered c => exact ih ht.2
    | raised =>
      have := ht b (List.mem_append_right _ (List.mem_cons_of_mem _ hb))
      simp [hb1] at this

/-- While the calls succeed, the programs of `Model.PySession` and those considered here are the same: all calls return, and the state
of the stream is the same. -/
theorem program_agrees {env : Env} {ms : List Array} {s s' : SState} {ns : List Nat}
    (h : appends env (ms.map appendBytes) s = .ok (s', ns)) :
    appendAll env ms s = .ok s' ∧
    program (some (XStream.of s)) (ms.map (.append env)) = some (some (XStream.of s'), ms.map fun _ => .returned) := by
  refine ⟨appendAll_ok h, ?_⟩
  induction ms generalizing s ns with
  | nil => cases h; rfl
  | cons m ms ih =>
    rw [List.map_cons] at h
    unfold appends at h
    have ha := agree_append (env := env) (appendBytes m) s
    split at h
    · simp at h
    · simp at h
    · simp at h
    · rename_i s1 n h1
      obtain ⟨⟨s2, ns2⟩, h2, h⟩ := Res.bind_eq_ok.1 h
      cases h
      rw [h1] at ha
      obtain ⟨x, hx, ha⟩ := ha
      have ha : x = .ok n (XStream.of s1) := ha
      subst ha
      have hs : stmt (some (XStream.of s)) (.append env m) = some (some (XStream.of s1), .returned) := by
        simp only [stmt, isActive, Option.isSome_some, Bool.not_true]
        rw [if_neg (by simp), hx]
      rw [List.map_cons, List.map_cons]
      unfold program
      rw [hs]
      dsimp only
      rw [ih h2]
      rfl

/-- What a program sees of a stream whose background work has failed. -/
def deadAnswer : Stmt → Seen
  | .append _ _ => .raised
  | .isActive => .answered true

/-- Once the background work of a stream has failed with a message, every further `append` raises, although `is_active` says `True`. -/
theorem dead_stream_violated {st : XStream} (he : st.error ≠ []) (xs : List Stmt) :
    program (some st) xs = some (some st, xs.map deadAnswer) := by
  induction xs with
  | nil => rfl
  | cons x xs ih =>
    have hx : stmt (some st) x = some (some st, deadAnswer x) := by
      cases x with
      | isActive => rfl
      | append env m =>
        have : appendX env (appendBytes m) st = some (.throw st) := by
          unfold appendX
          rw [if_pos]
          cases h : st.error with
          | nil => exact absurd h he
          | cons _ _ => rfl
        simp only [stmt, isActive, Option.isSome_some, Bool.not_true]
        rw [if_neg (by simp), this]
        rfl
    unfold program
    rw [hx]
    dsimp only
    rw [ih]
    rfl

end AZ.Py

namespace AZ

/-- Storage on which the first chunk cannot be written. -/
def Sample.badEnv : Env := { Sample.env with
  write := fun p o d => if p = "/tmp/a/0/0/0/0".toList then .failed else Sample.env.write p o d }

/-- An array of one byte. -/
def Sample.one : Py.Array := ⟨fun _ => 7, 0, 1, [(1, 1), (1, 1)]⟩

/-- The first chunk cannot be written. The call during which this happens returns; the next two raise; then the program asks. -/
def Sample.asked : Option (List Py.Seen) :=
  match createStream Sample.world Sample.env 9 (some { Sample.slab 1 1 with version := 2 }) with
  | some (.ok s0) => (Py.program (some (Exc.XStream.of s0)) [.isActive, .append Sample.badEnv Sample.one, .append Sample.env Sample.one,
      .append Sample.env Sample.one, .isActive]).map Prod.snd
  | _ => none

/-- The hypotheses of `is_active_violated` hold for it. -/
example : Sample.asked = some [.answered true, .returned, .raised, .raised, .answered true] := by decide +kernel

end AZ
