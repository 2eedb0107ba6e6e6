import Verif.Model.Lifetime
import Verif.Props.Reporting

set_option linter.unusedSimpArgs false

/-! # C106: the worker threads and the end of the stream -/

namespace AZ.Reporting

variable {n : Nat} {calls : List (List (List Job))} {s s' : State} {l l' : Life}

/-! ### What a step changes -/

theorem worker_step {x : Step} {w : Nat} (hx : (Move.work x).worker = some w) (h : step s x = some s') :
    (∃ y, s'.workers = s.workers.set w y) ∧ s'.caller = s.caller ∧ (s.queue = [] → s'.queue = []) := by
  cases x with
  | call => cases hx
  | batch => cases hx
  | push => cases hx
  | wait => cases hx
  | ret => cases hx
  | take v =>
    cases hx
    simp only [step] at h
    split at h
    · rename_i j q hw hq
      cases h
      exact ⟨⟨_, rfl⟩, rfl, fun e => by rw [hq] at e; cases e⟩
    · cases h
  | count v =>
    cases hx
    simp only [step] at h
    split at h
    · cases h
      exact ⟨⟨_, rfl⟩, rfl, id⟩
    · cases h
  | report v =>
    cases hx
    simp only [step] at h
    split at h
    · split at h <;> cases h <;> exact ⟨⟨_, rfl⟩, rfl, id⟩
    · cases h

theorem caller_step {x : Step} (hx : (Move.work x).worker = none) (h : step s x = some s') : s'.workers = s.workers := by
  cases x with
  | take v => cases hx
  | count v => cases hx
  | report v => cases hx
  | call =>
    simp only [step] at h
    split at h
    · split at h <;> cases h <;> rfl
    · cases h
  | batch =>
    simp only [step] at h
    split at h
    · cases h; rfl
    · cases h
  | push =>
    simp only [step] at h
    split at h
    · cases h; rfl
    · cases h
  | wait =>
    simp only [step] at h
    split at h
    · split at h
      · cases h; rfl
      · cases h
    · cases h
  | ret =>
    simp only [step] at h
    split at h
    · cases h; rfl
    · cases h

/-- The messages handed over and those still owed are those of the jobs that failed. -/
def Accounted (s : State) : Prop := s.failed.Perm (s.reported ++ s.workers.filterMap owes)

theorem accounted_step {x : Step} (h2 : Accounted s) (h : step s x = some s') : Accounted s' := by
  unfold Accounted at h2 ⊢
  cases x with
  | call =>
    simp only [step] at h
    split at h
    · split at h <;> cases h <;> exact h2
    · cases h
  | batch =>
    simp only [step] at h
    split at h
    · cases h; exact h2
    · cases h
  | push =>
    simp only [step] at h
    split at h
    · cases h; exact h2
    · cases h
  | wait =>
    simp only [step] at h
    split at h
    · split at h
      · cases h; exact h2
      · cases h
    · cases h
  | ret =>
    simp only [step] at h
    split at h
    · cases h; exact h2
    · cases h
  | take w =>
    simp only [step] at h
    split at h
    · rename_i j q hw hq
      cases h
      have p2 := filterMap_set owes (y := .running j) hw
      simp only [owes, Option.toList_none, List.nil_append] at p2
      exact h2.trans (p2.append_left _)
    · cases h
  | count w =>
    simp only [step] at h
    split at h
    · rename_i j hw
      cases h
      have p2 := filterMap_set owes (y := .counted j) hw
      simp only [owes, Option.toList_none, List.nil_append] at p2
      dsimp only
      refine (h2.append_right _).trans ?_
      rw [List.append_assoc]
      exact List.Perm.append_left _ (List.perm_append_comm.trans p2)
    · cases h
  | report w =>
    simp only [step] at h
    split at h
    · rename_i j hw
      have p2 := filterMap_set owes (y := .idle) hw
      simp only [owes, Option.toList_none, List.nil_append] at p2
      split at h
      · rename_i hf
        cases h
        rw [hf] at p2
        exact h2.trans (p2.append_left _)
      · rename_i m hf
        cases h
        rw [hf] at p2
        dsimp only
        rw [List.append_assoc]
        exact h2.trans (p2.append_left _)
    · cases h

/-! ### The invariant -/

/-- The stream is being taken down. -/
def Life.ending (l : Life) : Prop := l.phase = .stopped ∨ l.phase = .freed

structure Sound (n : Nat) (l : Life) : Prop where
  threads : l.base.workers.length = n
  places : l.gone.length = n
  account : Accounted l.base
  left : ∀ w : Nat, l.gone[w]? = some true → l.base.workers[w]? = some Worker.idle ∧ l.ending ∧ l.base.queue = []
  ending : l.ending → l.base.caller = .outside
  freed : l.phase = .freed → ∀ g ∈ l.gone, g = true

theorem sound_start : Sound n (Life.start n calls) := by
  refine ⟨List.length_replicate, List.length_replicate, ?_, fun w h => ?_, fun h => ?_, fun h => ?_⟩
  · unfold Accounted
    have e : (List.replicate n Worker.idle).filterMap owes = [] := by
      rw [List.filterMap_eq_nil_iff]
      intro w hw
      rw [List.eq_of_mem_replicate hw]
      rfl
    show List.Perm [] ([] ++ (List.replicate n Worker.idle).filterMap owes)
    rw [e]
    exact .nil
  · have := List.mem_of_getElem? h
    have := List.eq_of_mem_replicate this
    cases this
  · rcases h with h | h <;> cases h
  · cases h

theorem not_ending_of_inUse (h : l.phase = .inUse) : ¬ l.ending := by
  rintro (e | e) <;> rw [h] at e <;> cases e

theorem not_ending_of_closing (h : l.phase = .closing) : ¬ l.ending := by
  rintro (e | e) <;> rw [h] at e <;> cases e

theorem sound_step {m : Move} (hi : Sound n l) (h : l.step m = some l') : Sound n l' := by
  obtain ⟨h1, h2, h3, h4, h5, h6⟩ := hi
  cases m with
  | work x =>
    simp only [Life.step] at h
    split at h
    · rename_i w hx
      split at h
      · rename_i hg
        obtain ⟨b, hb, rfl⟩ := Option.map_eq_some_iff.1 h
        obtain ⟨⟨y, e1⟩, e2, e3⟩ := worker_step hx hb
        refine ⟨by rw [e1, List.length_set]; exact h1, h2, accounted_step h3 hb, fun v hv => ?_, fun he => by rw [e2]; exact h5 he, h6⟩
        obtain ⟨a, b, c⟩ := h4 v hv
        refine ⟨?_, b, e3 c⟩
        rw [e1, List.getElem?_set_ne]
        · exact a
        · rintro rfl
          rw [hg] at hv
          cases hv
      · cases h
    · rename_i hx
      split at h
      · rename_i hp
        obtain ⟨b, hb, rfl⟩ := Option.map_eq_some_iff.1 h
        have e1 := caller_step hx hb
        have hne : ¬ l.ending := hp.elim not_ending_of_inUse fun hp => not_ending_of_closing hp.1
        refine ⟨by rw [e1]; exact h1, h2, accounted_step h3 hb, fun v hv => absurd (h4 v hv).2.1 hne, fun he => absurd he hne, h6⟩
      · cases h
  | close bs =>
    simp only [Life.step] at h
    split at h
    · rename_i hp
      cases h
      have hne := not_ending_of_inUse hp.1
      refine ⟨h1, h2, h3, fun v hv => absurd (h4 v hv).2.1 hne, fun he => ?_, fun he => by cases he⟩
      rcases he with e | e <;> cases e
    · cases h
  | giveUp =>
    simp only [Life.step] at h
    split at h
    · rename_i hp _
      cases h
      have hne := not_ending_of_closing hp
      exact ⟨h1, h2, h3, fun v hv => absurd (h4 v hv).2.1 hne, fun _ => rfl, fun he => by cases he⟩
    · rename_i hp hc
      cases h
      have hne := not_ending_of_closing hp
      exact ⟨h1, h2, h3, fun v hv => absurd (h4 v hv).2.1 hne, fun _ => hc, fun he => by cases he⟩
    · cases h
  | stop =>
    simp only [Life.step] at h
    split at h
    · rename_i hp
      cases h
      have hne := not_ending_of_closing hp.1
      exact ⟨h1, h2, h3, fun v hv => absurd (h4 v hv).2.1 hne, fun _ => hp.2, fun he => by cases he⟩
    · cases h
  | abandon =>
    simp only [Life.step] at h
    split at h
    · rename_i hp _
      cases h
      have hne := not_ending_of_inUse hp
      exact ⟨h1, h2, h3, fun v hv => absurd (h4 v hv).2.1 hne, fun _ => rfl, fun he => by cases he⟩
    · cases h
  | leave w =>
    simp only [Life.step] at h
    split at h
    · rename_i hp
      obtain ⟨p1, p2, p3, p4⟩ := hp
      cases h
      refine ⟨h1, by rw [List.length_set]; exact h2, h3, fun v hv => ?_, h5, fun he g hg => ?_⟩
      · by_cases e : v = w
        · subst e
          exact ⟨p3, p1, p2⟩
        · dsimp only at hv
          rw [List.getElem?_set_ne (fun h => e h.symm)] at hv
          exact h4 v hv
      · have := h6 he false (List.mem_of_getElem? p4)
        cases this
    · cases h
  | free =>
    simp only [Life.step] at h
    split at h
    · rename_i hp
      cases h
      refine ⟨h1, h2, h3, fun v hv => ?_, fun _ => h5 (.inl hp.1), fun _ => hp.2⟩
      obtain ⟨a, _, c⟩ := h4 v hv
      exact ⟨a, .inr rfl, c⟩
    · cases h

theorem sound_run {ms : List Move} (hi : Sound n l) (h : l.run ms = some l') : Sound n l' := by
  induction ms generalizing l with
  | nil => cases h; exact hi
  | cons m ms ih =>
    unfold Life.run at h
    split at h
    · cases h
    · rename_i l1 h1
      exact ih (sound_step hi h1) h

theorem sound (h : Lives n calls l) : Sound n l := by
  obtain ⟨ms, h⟩ := h
  exact sound_run sound_start h

/-! ### C106 -/

/-- **C106 (part 1).** Once the stream has been freed, nothing of it goes on: no thread of the pool makes another move, so none can
use the stream, its buffers or its error message. -/
theorem nothing_after_free (h : Lives n calls l) (hf : l.phase = .freed) (m : Move) : l.step m = none := by
  have hi := sound h
  have hall := hi.freed hf
  have hno : ∀ w : Nat, l.gone[w]? ≠ some false := fun w hw => by
    have := hall _ (List.mem_of_getElem? hw)
    cases this
  cases m with
  | work x =>
    simp only [Life.step]
    split
    · rw [if_neg (hno _)]
    · rw [if_neg]
      rintro (e | ⟨e, _⟩) <;> rw [hf] at e <;> cases e
  | close bs => simp [Life.step, hf]
  | giveUp => simp [Life.step, hf]
  | stop => simp [Life.step, hf]
  | abandon => simp [Life.step, hf]
  | leave w =>
    simp only [Life.step]
    rw [if_neg]
    exact fun hp => hno _ hp.2.2.2
  | free => simp [Life.step, hf]

/-- **C106 (part 2).** When the stream is freed every job handed to the pool is over, every thread is between two jobs, and every message
of a failed job has been handed to the stream, each exactly once. -/
theorem work_done (hn : 0 < n) (h : Lives n calls l) (hf : l.phase = .freed) :
    l.base.queue = [] ∧ l.base.workers = List.replicate n Worker.idle ∧ l.base.failed.Perm l.base.reported := by
  have hi := sound h
  have hall : ∀ w : Nat, w < n → l.gone[w]? = some true := by
    intro w hw
    have hw : w < l.gone.length := by rw [hi.places]; exact hw
    rw [List.getElem?_eq_getElem hw, hi.freed hf _ (List.getElem_mem hw)]
  have hidle : l.base.workers = List.replicate n Worker.idle := by
    refine List.eq_replicate_iff.2 ⟨hi.threads, fun x hx => ?_⟩
    obtain ⟨w, hw⟩ := List.mem_iff_getElem?.1 hx
    have hlt := (List.getElem?_eq_some_iff.1 hw).1
    rw [hi.threads] at hlt
    have := (hi.left w (hall w hlt)).1
    rw [hw] at this
    cases this
    rfl
  refine ⟨(hi.left 0 (hall 0 hn)).2.2, hidle, ?_⟩
  have ha := hi.account
  unfold Accounted at ha
  have e : l.base.workers.filterMap owes = [] := by
    rw [hidle, List.filterMap_eq_nil_iff]
    intro w hw
    rw [List.eq_of_mem_replicate hw]
    rfl
  rw [e, List.append_nil] at ha
  exact ha

theorem ending_step {m : Move} (he : l.ending) (h : l.step m = some l') : l'.ending := by
  cases m with
  | work x =>
    simp only [Life.step] at h
    split at h
    · split at h
      · obtain ⟨b, _, rfl⟩ := Option.map_eq_some_iff.1 h
        exact he
      · cases h
    · split at h
      · obtain ⟨b, _, rfl⟩ := Option.map_eq_some_iff.1 h
        exact he
      · cases h
  | close bs =>
    simp only [Life.step] at h
    split at h
    · rename_i hp; exact absurd he (not_ending_of_inUse hp.1)
    · cases h
  | giveUp =>
    simp only [Life.step] at h
    split at h
    · rename_i hp _; exact absurd he (not_ending_of_closing hp)
    · rename_i hp _; exact absurd he (not_ending_of_closing hp)
    · cases h
  | stop =>
    simp only [Life.step] at h
    split at h
    · rename_i hp; exact absurd he (not_ending_of_closing hp.1)
    · cases h
  | abandon =>
    simp only [Life.step] at h
    split at h
    · rename_i hp _; exact absurd he (not_ending_of_inUse hp)
    · cases h
  | leave w =>
    simp only [Life.step] at h
    split at h
    · cases h; exact he
    · cases h
  | free =>
    simp only [Life.step] at h
    split at h
    · cases h; exact .inr rfl
    · cases h

/-- What remains to be done at the end. -/
def endCost (l : Life) : Nat := cost l.base + l.gone.count false + if l.phase = .freed then 0 else 1

theorem count_false_set {g : List Bool} {w : Nat} (h : g[w]? = some false) : (g.set w true).count false + 1 = g.count false := by
  induction g generalizing w with
  | nil => simp at h
  | cons a g ih =>
    cases w with
    | zero =>
      simp only [List.getElem?_cons_zero, Option.some.injEq] at h
      subst h
      simp
    | succ w =>
      rw [List.getElem?_cons_succ] at h
      have := ih h
      rw [List.set_cons_succ, List.count_cons, List.count_cons]
      omega

theorem endCost_step {m : Move} (he : l.ending) (h : l.step m = some l') : endCost l' + 1 ≤ endCost l := by
  cases m with
  | work x =>
    simp only [Life.step] at h
    split at h
    · split at h
      · obtain ⟨b, hb, rfl⟩ := Option.map_eq_some_iff.1 h
        have := cost_step hb
        unfold endCost
        dsimp only
        omega
      · cases h
    · split at h
      · rename_i hp
        exact absurd he (hp.elim not_ending_of_inUse fun hp => not_ending_of_closing hp.1)
      · cases h
  | close bs =>
    simp only [Life.step] at h
    split at h
    · rename_i hp; exact absurd he (not_ending_of_inUse hp.1)
    · cases h
  | giveUp =>
    simp only [Life.step] at h
    split at h
    · rename_i hp _; exact absurd he (not_ending_of_closing hp)
    · rename_i hp _; exact absurd he (not_ending_of_closing hp)
    · cases h
  | stop =>
    simp only [Life.step] at h
    split at h
    · rename_i hp; exact absurd he (not_ending_of_closing hp.1)
    · cases h
  | abandon =>
    simp only [Life.step] at h
    split at h
    · rename_i hp _; exact absurd he (not_ending_of_inUse hp)
    · cases h
  | leave w =>
    simp only [Life.step] at h
    split at h
    · rename_i hp
      cases h
      have := count_false_set hp.2.2.2
      unfold endCost
      dsimp only
      omega
    · cases h
  | free =>
    simp only [Life.step] at h
    split at h
    · rename_i hp
      cases h
      simp [endCost, hp.1]
    · cases h

/-- **C106 (part 3).** From the moment the pool is told to stop, under every schedule the threads leave after finitely many moves, and the
stream is freed: no schedule goes on for ever, and one that cannot go on has freed it. -/
theorem stream_is_freed (h : Lives n calls l) (hs : l.phase = .stopped) :
    (∃ N, ∀ ms l', l.run ms = some l' → ms.length ≤ N) ∧
    ∀ ms l', l.run ms = some l' → (∀ m, l'.step m = none) → l'.phase = .freed := by
  have key : ∀ ms l l', Life.ending l → l.run ms = some l' → ms.length + endCost l' ≤ endCost l ∧ l'.ending := by
    intro ms
    induction ms with
    | nil => intro l l' he h; cases h; exact ⟨by simp, he⟩
    | cons m ms ih =>
      intro l l' he h
      unfold Life.run at h
      split at h
      · cases h
      · rename_i l1 h1
        obtain ⟨a, b⟩ := ih l1 l' (ending_step he h1) h
        have := endCost_step he h1
        exact ⟨by rw [List.length_cons]; omega, b⟩
  refine ⟨⟨endCost l, fun ms l' hr => ?_⟩, fun ms l' hr hstop => ?_⟩
  · have := (key ms l l' (.inl hs) hr).1
    omega
  · have hi : Sound n l' := sound_run (sound h) hr
    obtain ⟨_, he⟩ := key ms l l' (.inl hs) hr
    rcases he with hp | hp
    · exfalso
      have hall : ∀ g ∈ l'.gone, g = true := by
        intro g hg
        cases g with
        | true => rfl
        | false =>
          exfalso
          obtain ⟨w, hw⟩ := List.mem_iff_getElem?.1 hg
          have hlt := (List.getElem?_eq_some_iff.1 hw).1
          have hlt' : w < l'.base.workers.length := by rw [hi.threads, ← hi.places]; exact hlt
          have hwk := List.getElem?_eq_getElem hlt'
          cases hst : l'.base.workers[w] with
          | running j =>
            rw [hst] at hwk
            have := hstop (.work (.count w))
            simp [Life.step, Move.worker, hw, Reporting.step, hwk] at this
          | counted j =>
            rw [hst] at hwk
            have := hstop (.work (.report w))
            cases hj : j.fails <;> simp [Life.step, Move.worker, hw, Reporting.step, hwk, hj] at this
          | idle =>
            rw [hst] at hwk
            cases hq : l'.base.queue with
            | nil =>
              have := hstop (.leave w)
              simp [Life.step, hp, hq, hwk, hw] at this
            | cons j q =>
              have := hstop (.work (.take w))
              simp [Life.step, Move.worker, hw, Reporting.step, hwk, hq] at this
      have := hstop .free
      simp only [Life.step] at this
      rw [if_pos ⟨hp, hall⟩] at this
      cases this
    · exact hp

/-- The threads stay while the stream is in use: none leaves before the stream is taken down. -/
theorem threads_stay (h : Lives n calls l) (hp : l.phase = .inUse ∨ l.phase = .closing) : l.gone = List.replicate n false := by
  have hi := sound h
  refine List.eq_replicate_iff.2 ⟨hi.places, fun g hg => ?_⟩
  cases g with
  | false => rfl
  | true =>
    obtain ⟨w, hw⟩ := List.mem_iff_getElem?.1 hg
    exact absurd (hi.left w hw).2.1 (hp.elim not_ending_of_inUse not_ending_of_closing)

/-- Non-vacuity: a job of the last flush fails; its message comes while the pool is being stopped, and only then its thread leaves. -/
example : ∃ l, Lives 2 [] l ∧ l.phase = .freed ∧ l.base.reported = [['x']] :=
  ⟨_, ⟨[.close [[⟨[0], some ['x']⟩]], .work .batch, .work .push, .work (.take 1), .work (.count 1), .work .wait, .work .ret, .stop, .leave 0,
    .work (.report 1), .leave 1, .free], rfl⟩, rfl, rfl⟩

/-- The constructor throws after one of two creations has failed. -/
example : ∃ l, Lives 1 [[[⟨[], some ['x']⟩, ⟨[], none⟩]]] l ∧ l.phase = .freed ∧ l.base.reported = [['x']] :=
  ⟨_, ⟨[.work .call, .work .batch, .work .push, .work .push, .work (.take 0), .work (.count 0), .work (.report 0), .work (.take 0),
    .work (.count 0), .work .wait, .abandon, .work (.report 0), .leave 0, .free], rfl⟩, rfl, rfl⟩

end AZ.Reporting
