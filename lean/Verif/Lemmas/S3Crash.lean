import Verif.Lemmas.S3Store
import Verif.Lemmas.Closed

set_option linter.unusedSimpArgs false

/-! # Only closing a sink makes its object appear (for C72) -/

namespace AZ.S3
open Spec

/-- The sink has sent nothing that creates an object. -/
def Mute (s : Sink) : Prop := ∀ q a, Act.sent q a ∈ s.log → q = .create ∨ ∃ id n d, q = .part id n d

theorem mute_new (junk : Bytes) : Mute (Sink.new junk) := by intro q a h; simp [Sink.new] at h

theorem Mute.of_log {s s' : Sink} (h : Mute s) (e : s'.log = s.log) : Mute s' := by
  intro q a hm
  rw [e] at hm
  exact h q a hm

theorem mute_request {r : Nat → Reply} {q : Req} {keep : Reply → Bool} {s : Sink} (h : Mute s)
    (hq : q = .create ∨ ∃ id n d, q = .part id n d) : Mute (request r q keep s).2 := by
  intro q' a hm
  unfold request at hm
  simp only [List.mem_append, List.mem_cons, List.not_mem_nil, or_false] at hm
  rcases hm with hm | hm | hm | hm
  · exact h q' a hm
  · cases hm
  · cases hm; exact hq
  · split at hm <;> cases hm

theorem mute_uploadPart {r : Nat → Reply} {u : Upload} {s : Sink} (h : Mute s) : Mute (uploadPart r u s).2 :=
  (mute_request (r := r) (keep := fun _ => true) h (.inr ⟨u.id, u32 (u32 u.parts.length + 1), s.buffer.take s.buffered, rfl⟩)).of_log rfl

/-- The sink left by an operation. -/
def Out.Mute : Out → Prop
  | .returned _ s => S3.Mute s
  | .threw s => S3.Mute s
  | .ub => True

theorem mute_createUpload {r : Nat → Reply} {s : Sink} (h : Mute s) : (createUpload r s).Mute := by
  have hm := mute_request (r := r) (q := .create) (keep := Reply.good) (h.of_log (s' := { s with upload := some ⟨[], []⟩ }) rfl) (.inl rfl)
  unfold createUpload
  dsimp only
  split
  · exact hm.of_log rfl
  · exact hm

theorem mute_flushPart {r : Nat → Reply} {s : Sink} (h : Mute s) : (flushPart r s).Mute := by
  unfold flushPart
  split
  · exact h
  · split
    · exact mute_uploadPart h
    · have := mute_createUpload (r := r) h
      split
      · rename_i he
        rw [he] at this
        exact mute_uploadPart this
      · exact this

theorem mute_writeLoop {P : Nat} {r : Nat → Reply} (fuel : Nat) {data : Bytes} {s : Sink} {o : Out} (h : Mute s)
    (hw : writeLoop P r fuel data s = some o) : o.Mute := by
  induction fuel generalizing data s with
  | zero =>
    cases data with
    | nil => simp only [writeLoop, Option.some.injEq] at hw; subst hw; exact h
    | cons => simp [writeLoop] at hw
  | succ fuel ih =>
    cases data with
    | nil => simp only [writeLoop, Option.some.injEq] at hw; subst hw; exact h
    | cons d ds =>
      rw [writeLoop] at hw
      · split at hw
        · cases hw; trivial
        · dsimp only at hw
          split at hw
          · generalize hs : ({ s with buffer := _, buffered := _ } : Sink) = s1 at hw
            have h1 : Mute s1 := by rw [← hs]; exact h.of_log rfl
            have h2 := mute_flushPart (r := r) h1
            split at hw
            · rename_i he
              rw [he] at h2
              exact ih h2 hw
            · cases hw
              exact h2
          · refine ih ?_ hw
            exact h.of_log rfl
      · simp

theorem mute_write {P : Nat} {r : Nat → Reply} {fuel off : Nat} {data : Bytes} {s : Sink} {o : Out} (h : Mute s)
    (hw : write P r fuel off data s = some o) : o.Mute := by
  unfold write at hw
  split at hw
  · cases hw; exact h
  · split at hw
    · cases hw; exact h
    · refine mute_writeLoop fuel ?_ hw
      exact h.of_log rfl

theorem mute_object {s : Sink} (h : Mute s) : object (exchange s.log) = none := by
  have key : ∀ (es before : List (Req × Reply)), (∀ q a, (q, a) ∈ es → q = .create ∨ ∃ id n d, q = .part id n d) →
      objectFrom before es = none := by
    intro es
    induction es with
    | nil => intros; rfl
    | cons e es ih =>
      intro before he
      rw [objectFrom, ih _ (fun q a hm => he q a (by simp [hm]))]
      obtain ⟨q, a⟩ := e
      rcases he q a (by simp) with rfl | ⟨id, n, d, rfl⟩ <;> rfl
  apply key
  intro q a hm
  unfold exchange at hm
  obtain ⟨x, hx, he⟩ := List.mem_filterMap.1 hm
  cases x <;> simp at he
  obtain ⟨rfl, rfl⟩ := he
  exact h _ _ hx

/-- As long as `p` is not closed, the bucket holds under `p` what it held before, whatever was written and whatever the server
answered. -/
theorem objAfter_unclosed (P : Nat) (r : Nat → Reply) (junk : Bytes) (old : Option Bytes) {p : Text} {tr : List Ev}
    (h : Ev.finalized p ∉ tr) : (objAfter P r junk old p tr).object = old := by
  have key : ∀ (tr : List Ev) (b : Obj), Ev.finalized p ∉ tr → b.object = old → (∀ s, b.sink = some s → Mute s) →
      (tr.foldl (stepObj P r junk p) b).object = old := by
    intro tr
    induction tr with
    | nil => intro b _ h1 _; exact h1
    | cons e es ih =>
      intro b hne h1 h2
      rw [List.foldl_cons]
      have hes : Ev.finalized p ∉ es := fun hm => hne (by simp [hm])
      by_cases hp : e.path = p
      · subst hp
        unfold stepObj
        rw [if_neg (by simp)]
        cases e with
        | opened q =>
          refine ih _ hes h1 ?_
          intro s hs
          cases hs
          exact mute_new junk
        | wrote q off data =>
          dsimp only
          split
          · exact ih _ hes h1 h2
          · rename_i s hs
            have hm := h2 s hs
            split
            · rename_i s' he
              have := mute_write hm he
              refine ih _ hes ?_ ?_
              · dsimp only
                rw [mute_object this]
                exact h1
              · intro s2 e2
                cases e2
                exact this
            · rename_i s' he
              have := mute_write hm he
              refine ih _ hes ?_ ?_
              · dsimp only
                rw [mute_object this]
                exact h1
              · intro s2 e2
                cases e2
                exact this
            · rename_i s' he
              have := mute_write hm he
              refine ih _ hes ?_ ?_
              · dsimp only
                rw [mute_object this]
                exact h1
              · intro s2 e2
                cases e2
                exact this
            · exact ih _ hes h1 h2
        | finalized q => exact absurd List.mem_cons_self hne
        | dropped q => exact ih _ hes h1 (by intro s hs; cases hs)
      · rw [stepObj_skip hp]
        exact ih _ hes h1 h2
  exact key tr _ h rfl (by intro s hs; cases hs)

end AZ.S3
