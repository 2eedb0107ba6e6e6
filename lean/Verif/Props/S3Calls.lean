import Verif.Model.S3Calls
import Verif.Props.Connections

set_option linter.unusedSimpArgs false

/-!
# C86: calls on an S3 stream return
-/

namespace AZ.S3

/-! ### What threads do with sinks -/

/-- A thread makes calls on sinks, one after the other: each on a sink in any state (without the log of earlier calls), with any replies of the
server; `k` of them throw. -/
inductive RunsCalls : List Act → Nat → Prop
  | nil : RunsCalls [] 0
  | returned {P : Nat} {r : Nat → Reply} {s s' : Sink} {op : Op} {b : Bool} {l : List Act} {k : Nat} : s.log = [] →
      op.apply P r s = some (.returned b s') → RunsCalls l k → RunsCalls (s'.log ++ l) k
  | threw {P : Nat} {r : Nat → Reply} {s s' : Sink} {op : Op} {l : List Act} {k : Nat} : s.log = [] →
      op.apply P r s = some (.threw s') → RunsCalls l k → RunsCalls (s'.log ++ l) (k + 1)

/-- Jobs that make calls on sinks; `k` calls throw. -/
inductive RunsJobs : List (List Act) → Nat → Prop
  | nil : RunsJobs [] 0
  | cons {j : List Act} {js : List (List Act)} {k k' : Nat} : RunsCalls j k → RunsJobs js k' → RunsJobs (j :: js) (k + k')

/-- The items of the calls on a stream; `k` calls on sinks throw. -/
inductive RunsItems : List Item → Nat → Prop
  | nil : RunsItems [] 0
  | alone {p : List Act} {l : List Item} {k k' : Nat} : RunsCalls p k → RunsItems l k' → RunsItems (.alone p :: l) (k + k')
  | batch {js : List (List Act)} {l : List Item} {k k' : Nat} : RunsJobs js k → RunsItems l k' → RunsItems (.batch js :: l) (k + k')

theorem apply_outcome {P : Nat} {r : Nat → Reply} {s : Sink} {op : Op} {o : Out} (h : op.apply P r s = some o) : Outcome s o := by
  cases op with
  | write off data => exact write_outcome h
  | flush =>
    simp only [Op.apply, Option.some.injEq] at h
    subst h
    exact flush_outcome r s

theorem RunsCalls.rest {l : List Act} {k : Nat} (h : RunsCalls l k) : Rest false l ∧ l.count .lose = k := by
  induction h with
  | nil => exact ⟨.done, rfl⟩
  | returned h0 ha _ ih =>
    have : Adds _ _ 0 := apply_outcome ha
    refine ⟨rest_append (bracketed_rest (this.1 (h0 ▸ .nil))) ih.1, ?_⟩
    rw [List.count_append, this.2, h0, ih.2]
    simp
  | threw h0 ha _ ih =>
    have : Adds _ _ 1 := apply_outcome ha
    refine ⟨rest_append (bracketed_rest (this.1 (h0 ▸ .nil))) ih.1, ?_⟩
    rw [List.count_append, this.2, h0, ih.2]
    simp [Nat.add_comm]

/-! ### Counting -/

def heldOf : Option (Bool × List Act) → Nat
  | some (true, _) => 1
  | _ => 0

def losesOf : Option (Bool × List Act) → Nat
  | some (_, p) => p.count .lose
  | none => 0

def busyOf : Option (Bool × List Act) → Nat
  | some _ => 1
  | none => 0

def costOf : Option (Bool × List Act) → Nat
  | some (_, p) => p.length + 1
  | none => 0

def total {α : Type} (f : α → Nat) (l : List α) : Nat := (l.map f).sum

theorem total_nil {α : Type} (f : α → Nat) : total f [] = 0 := rfl
theorem total_cons {α : Type} (f : α → Nat) (x : α) (l : List α) : total f (x :: l) = f x + total f l := by simp [total]
theorem total_append {α : Type} (f : α → Nat) (l m : List α) : total f (l ++ m) = total f l + total f m := by simp [total]

theorem total_set {α : Type} (f : α → Nat) {l : List α} {i : Nat} {x : α} (h : l[i]? = some x) (y : α) :
    total f (l.set i y) + f x = total f l + f y := by
  obtain ⟨a, b, e1, e2⟩ := set_eq_append h y
  rw [e2, e1]
  simp only [total_append, total_cons]
  omega

theorem total_zero {α : Type} {f : α → Nat} {l : List α} (h : ∀ x ∈ l, f x = 0) : total f l = 0 := by
  induction l with
  | nil => rfl
  | cons x l ih => rw [total_cons, h x (List.mem_cons_self), ih fun y hy => h y (List.mem_cons_of_mem _ hy)]

theorem total_pos {α : Type} {f : α → Nat} {l : List α} (h : 0 < total f l) : ∃ (i : Nat) (x : α), l[i]? = some x ∧ 0 < f x := by
  induction l with
  | nil => simp [total] at h
  | cons x l ih =>
    rw [total_cons] at h
    by_cases hx : 0 < f x
    · exact ⟨0, x, rfl, hx⟩
    · obtain ⟨i, y, h1, h2⟩ := ih (by omega)
      exact ⟨i + 1, y, by simpa using h1, h2⟩

def callerHeld : Caller → Nat
  | .alone true _ => 1
  | _ => 0

def callerLoses : Caller → Nat
  | .between => 0
  | .alone _ p => p.count .lose
  | .pushing js => total (·.count .lose) js

def itemLoses : Item → Nat
  | .alone p => p.count .lose
  | .batch js => total (·.count .lose) js

def callerCost : Caller → Nat
  | .between => 0
  | .alone _ p => p.length + 1
  | .pushing js => total (·.length + 3) js + 1

def itemCost : Item → Nat
  | .alone p => p.length + 2
  | .batch js => total (·.length + 3) js + 2

/-- The connections that threads hold. -/
def CallState.held (s : CallState) : Nat := callerHeld s.caller + total heldOf s.workers

/-- The exceptions still to come. -/
def CallState.loses (s : CallState) : Nat :=
  callerLoses s.caller + total itemLoses s.rest + total (·.count .lose) s.queue + total losesOf s.workers

/-- The steps still to make. -/
def CallState.cost (s : CallState) : Nat :=
  callerCost s.caller + total itemCost s.rest + total (·.length + 2) s.queue + total costOf s.workers

def OrderedCaller : Caller → Prop
  | .between => True
  | .alone h p => Rest h p
  | .pushing js => ∀ j ∈ js, Rest false j

def OrderedItem : Item → Prop
  | .alone p => Rest false p
  | .batch js => ∀ j ∈ js, Rest false j

def OrderedWorker : Option (Bool × List Act) → Prop
  | none => True
  | some (h, p) => Rest h p

/-- The latch counts the jobs that have not ended; outside the batches there are none. -/
def Latched (s : CallState) : Prop :=
  match s.caller with
  | .pushing js => s.pending = js.length + s.queue.length + total busyOf s.workers
  | _ => s.queue = [] ∧ total busyOf s.workers = 0

structure CallInv (n m k : Nat) (s : CallState) : Prop where
  conns : s.free + s.held + s.lost = n
  throws : s.lost + s.loses = k
  crew : s.workers.length = m
  caller : OrderedCaller s.caller
  items : ∀ i ∈ s.rest, OrderedItem i
  queue : ∀ j ∈ s.queue, Rest false j
  workers : ∀ w ∈ s.workers, OrderedWorker w
  latch : Latched s

/-- What one action does to the numbers. -/
theorem actStep_spec {free lost : Nat} {held : Bool} {a : Act} {p : List Act} {x : Nat × Nat × Bool} (h : actStep free lost held a = some x)
    (hr : Rest held (a :: p)) :
    x.1 + x.2.2.toNat + x.2.1 = free + held.toNat + lost ∧ x.2.1 + p.count .lose = lost + (a :: p).count .lose ∧ Rest x.2.2 p := by
  cases hr with
  | get hp =>
    simp only [actStep, Bool.false_eq_true, if_false] at h
    split at h
    · cases h
    · cases h
      refine ⟨?_, ?_, hp⟩
      · simp; omega
      · simp [List.count_cons]
  | sent q a hp =>
    simp only [actStep] at h
    cases h
    exact ⟨rfl, by simp [List.count_cons], hp⟩
  | back hp =>
    simp only [actStep, if_true] at h
    cases h
    exact ⟨by simp, by simp [List.count_cons], hp⟩
  | lose hp =>
    simp only [actStep, if_true] at h
    cases h
    refine ⟨by simp; omega, by simp [List.count_cons]; omega, hp⟩

/-- An action is possible unless it is `get` and there is no connection. -/
theorem actStep_possible {free lost : Nat} {held : Bool} {a : Act} {p : List Act} (hr : Rest held (a :: p)) (h : held = true ∨ 0 < free) :
    ∃ x, actStep free lost held a = some x := by
  cases hr with
  | get hp =>
    rcases h with h | h
    · cases h
    · exact ⟨_, by simp only [actStep, Bool.false_eq_true, if_false]; rw [if_neg (by omega)]⟩
  | sent q a hp => exact ⟨_, rfl⟩
  | back hp => exact ⟨_, rfl⟩
  | lose hp => exact ⟨_, rfl⟩

theorem heldOf_eq (h : Bool) (p : List Act) : heldOf (some (h, p)) = h.toNat := by cases h <;> rfl
theorem callerHeld_eq (h : Bool) (p : List Act) : callerHeld (.alone h p) = h.toNat := by cases h <;> rfl

theorem step_inv_calls {n m k : Nat} {s s' : CallState} {t : Option Nat} (h : s.step t = some s') (hi : CallInv n m k s) :
    CallInv n m k s' ∧ s'.cost + 1 = s.cost := by
  obtain ⟨free, lost, caller, rest, queue, workers, pending⟩ := s
  obtain ⟨h1, h2, h3, h4, h5, h6, h7, h8⟩ := hi
  simp only [CallState.held, CallState.loses] at h1 h2
  dsimp only at h1 h2 h3 h4 h5 h6 h7
  cases t with
  | none =>
    simp only [CallState.step, CallState.callerStep] at h
    cases caller with
    | between =>
      cases rest with
      | nil => cases h
      | cons i r =>
        simp only [Latched] at h8
        rw [total_cons] at h2
        cases i with
        | alone p =>
          cases h
          refine ⟨⟨by simpa only [CallState.held, callerHeld] using h1, ?_, h3, h5 (.alone p) List.mem_cons_self, fun i hi => h5 i (List.mem_cons_of_mem _ hi), h6, h7, h8⟩, ?_⟩
          · simp only [CallState.loses, callerLoses, itemLoses] at h2 ⊢
            omega
          · simp only [CallState.cost, callerCost, total_cons, itemCost]
            omega
        | batch js =>
          cases h
          refine ⟨⟨by simpa only [CallState.held, callerHeld] using h1, ?_, h3, h5 (.batch js) List.mem_cons_self, fun i hi => h5 i (List.mem_cons_of_mem _ hi), h6, h7, ?_⟩, ?_⟩
          · simp only [CallState.loses, callerLoses, itemLoses] at h2 ⊢
            omega
          · simp only [Latched, h8.1, h8.2, List.length_nil]
            omega
          · simp only [CallState.cost, callerCost, total_cons, itemCost]
            omega
    | alone held p =>
      simp only [Latched] at h8
      cases p with
      | nil =>
        dsimp only at h
        cases held with
        | true => cases h
        | false =>
          cases h
          exact ⟨⟨by simpa only [CallState.held, callerHeld] using h1, by simpa only [CallState.loses, callerLoses, List.count_nil] using h2, h3, trivial, h5, h6, h7, h8⟩, by simp only [CallState.cost, callerCost, List.length_nil]; omega⟩
      | cons a p =>
        obtain ⟨x, hx, e⟩ := Option.map_eq_some_iff.1 h
        subst e
        obtain ⟨a1, a2, a3⟩ := actStep_spec hx h4
        refine ⟨⟨?_, ?_, h3, a3, h5, h6, h7, h8⟩, ?_⟩
        · simp only [CallState.held, callerHeld_eq] at h1 ⊢
          omega
        · simp only [CallState.loses, callerLoses] at h2 ⊢
          omega
        · simp only [CallState.cost, callerCost, List.length_cons]
          omega
    | pushing js =>
      simp only [Latched] at h8
      cases js with
      | nil =>
        dsimp only at h
        split at h
        · rename_i hp
          cases h
          have hq : queue = [] := List.length_eq_zero_iff.1 (by simp only [List.length_nil] at h8; omega)
          refine ⟨⟨by simpa only [CallState.held, callerHeld] using h1, ?_, h3, trivial, h5, h6, h7, ⟨hq, show total busyOf workers = 0 by simp only [List.length_nil] at h8; omega⟩⟩, ?_⟩
          · simp only [CallState.loses, callerLoses, total_nil] at h2 ⊢
            omega
          · simp only [CallState.cost, callerCost, total_nil]
            omega
        · cases h
      | cons j js =>
        cases h
        refine ⟨⟨by simpa only [CallState.held, callerHeld] using h1, ?_, h3, fun i hi => h4 i (List.mem_cons_of_mem _ hi), h5, ?_, h7, ?_⟩, ?_⟩
        · simp only [CallState.loses, callerLoses, total_cons, total_append, total_nil] at h2 ⊢
          omega
        · intro i hi
          rcases List.mem_append.1 hi with hi | hi
          · exact h6 i hi
          · rw [List.mem_singleton.1 hi]
            exact h4 j List.mem_cons_self
        · simp only [Latched, List.length_cons, List.length_append, List.length_nil] at h8 ⊢
          omega
        · simp only [CallState.cost, callerCost, total_cons, total_append, total_nil]
          omega
  | some i =>
    simp only [CallState.step, CallState.workerStep] at h
    cases hw : workers[i]? with
    | none => rw [hw] at h; cases h
    | some w =>
      have hmem : w ∈ workers := List.mem_of_getElem? hw
      rw [hw] at h
      cases w with
      | none =>
        dsimp only at h
        cases queue with
        | nil => cases h
        | cons j q =>
          cases h
          have hj := h6 j List.mem_cons_self
          have t1 := total_set heldOf hw (some (false, j))
          have t2 := total_set losesOf hw (some (false, j))
          have t3 := total_set busyOf hw (some (false, j))
          have t4 := total_set costOf hw (some (false, j))
          simp only [heldOf, losesOf, busyOf, costOf] at t1 t2 t3 t4
          refine ⟨⟨?_, ?_, ?_, h4, h5, fun i hi => h6 i (List.mem_cons_of_mem _ hi), ?_, ?_⟩, ?_⟩
          · simp only [CallState.held]; omega
          · simp only [CallState.loses, total_cons] at h2 ⊢; omega
          · simpa using h3
          · intro w hw'
            rcases List.mem_or_eq_of_mem_set hw' with hw' | rfl
            · exact h7 w hw'
            · exact hj
          · cases caller with
            | between => simp [Latched] at h8
            | alone _ _ => simp [Latched] at h8
            | pushing js => simp only [Latched, List.length_cons] at h8 ⊢; omega
          · simp only [CallState.cost, total_cons] at *; omega
      | some w =>
        obtain ⟨held, p⟩ := w
        have hr : Rest held p := h7 _ hmem
        cases p with
        | nil =>
          dsimp only at h
          cases held with
          | true => cases h
          | false =>
            cases h
            have t1 := total_set heldOf hw none
            have t2 := total_set losesOf hw none
            have t3 := total_set busyOf hw none
            have t4 := total_set costOf hw none
            simp only [heldOf, losesOf, busyOf, costOf, List.count_nil, List.length_nil] at t1 t2 t3 t4
            refine ⟨⟨?_, ?_, ?_, h4, h5, h6, ?_, ?_⟩, ?_⟩
            · simp only [CallState.held]; omega
            · simp only [CallState.loses] at h2 ⊢; omega
            · simpa using h3
            · intro w hw'
              rcases List.mem_or_eq_of_mem_set hw' with hw' | rfl
              · exact h7 w hw'
              · trivial
            · cases caller with
              | between => simp only [Latched] at h8 ⊢; exact ⟨h8.1, by omega⟩
              | alone _ _ => simp only [Latched] at h8 ⊢; exact ⟨h8.1, by omega⟩
              | pushing js => simp only [Latched] at h8 ⊢; omega
            · simp only [CallState.cost]; omega
        | cons a p =>
          obtain ⟨x, hx, e⟩ := Option.map_eq_some_iff.1 h
          subst e
          obtain ⟨a1, a2, a3⟩ := actStep_spec hx hr
          have t1 := total_set heldOf hw (some (x.2.2, p))
          have t2 := total_set losesOf hw (some (x.2.2, p))
          have t3 := total_set busyOf hw (some (x.2.2, p))
          have t4 := total_set costOf hw (some (x.2.2, p))
          simp only [heldOf_eq] at t1
          simp only [losesOf, busyOf, costOf, List.length_cons] at t2 t3 t4
          refine ⟨⟨?_, ?_, ?_, h4, h5, h6, ?_, ?_⟩, ?_⟩
          · simp only [CallState.held] at h1 ⊢; omega
          · simp only [CallState.loses] at h2 ⊢; omega
          · simpa using h3
          · intro w hw'
            rcases List.mem_or_eq_of_mem_set hw' with hw' | rfl
            · exact h7 w hw'
            · exact a3
          · cases caller with
            | between => simp only [Latched] at h8 ⊢; exact ⟨h8.1, by omega⟩
            | alone _ _ => simp only [Latched] at h8 ⊢; exact ⟨h8.1, by omega⟩
            | pushing js => simp only [Latched] at h8 ⊢; omega
          · simp only [CallState.cost]; omega

theorem run_inv_calls {n m k : Nat} {s s' : CallState} {ts : List (Option Nat)} (h : s.run ts = some s') (hi : CallInv n m k s) :
    CallInv n m k s' ∧ s'.cost + ts.length = s.cost := by
  induction ts generalizing s with
  | nil => cases h; exact ⟨hi, rfl⟩
  | cons t ts ih =>
    unfold CallState.run at h
    obtain ⟨s2, h1, h2⟩ := Option.bind_eq_some_iff.1 h
    obtain ⟨i2, c2⟩ := step_inv_calls h1 hi
    obtain ⟨i3, c3⟩ := ih h2 i2
    exact ⟨i3, by rw [List.length_cons]; omega⟩

theorem RunsJobs.rest {js : List (List Act)} {k : Nat} (h : RunsJobs js k) : (∀ j ∈ js, Rest false j) ∧ total (·.count .lose) js = k := by
  induction h with
  | nil => exact ⟨by simp, rfl⟩
  | cons hj _ ih =>
    obtain ⟨r1, r2⟩ := hj.rest
    refine ⟨?_, by rw [total_cons, r2, ih.2]⟩
    intro j hj
    rcases List.mem_cons.1 hj with rfl | hj
    · exact r1
    · exact ih.1 j hj

theorem RunsItems.rest {l : List Item} {k : Nat} (h : RunsItems l k) : (∀ i ∈ l, OrderedItem i) ∧ total itemLoses l = k := by
  induction h with
  | nil => exact ⟨by simp, rfl⟩
  | alone hp _ ih =>
    obtain ⟨r1, r2⟩ := hp.rest
    refine ⟨?_, by rw [total_cons, itemLoses, r2, ih.2]⟩
    intro i hi
    rcases List.mem_cons.1 hi with rfl | hi
    · exact r1
    · exact ih.1 i hi
  | batch hp _ ih =>
    obtain ⟨r1, r2⟩ := hp.rest
    refine ⟨?_, by rw [total_cons, itemLoses, r2, ih.2]⟩
    intro i hi
    rcases List.mem_cons.1 hi with rfl | hi
    · exact r1
    · exact ih.1 i hi

theorem start_inv (n m : Nat) {items : List Item} {k : Nat} (h : RunsItems items k) : CallInv n m k (CallState.start n m items) := by
  obtain ⟨r1, r2⟩ := h.rest
  have hz : ∀ (f : Option (Bool × List Act) → Nat), f none = 0 → total f (List.replicate m none) = 0 := by
    intro f hf
    exact total_zero fun x hx => by rw [List.eq_of_mem_replicate hx, hf]
  refine ⟨?_, ?_, ?_, trivial, r1, by simp [CallState.start], ?_, ?_⟩
  · simp only [CallState.start, CallState.held, callerHeld, hz heldOf rfl]; omega
  · simp only [CallState.start, CallState.loses, callerLoses, hz losesOf rfl, total_nil]; omega
  · simp [CallState.start]
  · intro w hw
    rw [List.eq_of_mem_replicate hw]
    trivial
  · exact ⟨rfl, hz busyOf rfl⟩

/-- As long as a connection is left, somebody can go on. -/
theorem progress {n m k : Nat} {s : CallState} (hi : CallInv n m k s) (hm : 0 < m) (hl : s.lost < n) (hr : ¬ s.Returned) :
    ∃ t s', s.step t = some s' := by
  obtain ⟨free, lost, caller, rest, queue, workers, pending⟩ := s
  obtain ⟨h1, h2, h3, h4, h5, h6, h7, h8⟩ := hi
  simp only [CallState.held] at h1
  dsimp only at h1 h3 h4 h5 h6 h7 hl
  cases caller with
  | between =>
    cases rest with
    | nil => exact absurd ⟨rfl, rfl⟩ hr
    | cons i r => cases i <;> exact ⟨none, _, rfl⟩
  | alone held p =>
    have hr : Rest held p := h4
    have hb : total busyOf workers = 0 := h8.2
    have hh : total heldOf workers = 0 := by
      by_cases e : 0 < total heldOf workers
      · obtain ⟨i, w, e1, e2⟩ := total_pos e
        have := total_set busyOf e1 none
        cases w with
        | none => simp [heldOf] at e2
        | some w => simp only [busyOf] at this; omega
      · omega
    cases p with
    | nil => cases hr; exact ⟨none, _, rfl⟩
    | cons a p =>
      have : held = true ∨ 0 < free := by
        cases held with
        | true => exact .inl rfl
        | false => simp only [callerHeld] at h1; exact .inr (by omega)
      obtain ⟨x, hx⟩ := actStep_possible (lost := lost) hr this
      exact ⟨none, _, by simp only [CallState.step, CallState.callerStep]; rw [hx]; rfl⟩
  | pushing js =>
    cases js with
    | cons j js => exact ⟨none, _, rfl⟩
    | nil =>
      have hp : pending = queue.length + total busyOf workers := by simpa [Latched] using h8
      simp only [callerHeld] at h1
      by_cases hz : pending = 0
      · exact ⟨none, _, by simp only [CallState.step, CallState.callerStep]; rw [if_pos hz]⟩
      · by_cases hh : 0 < total heldOf workers
        · obtain ⟨i, w, e1, e2⟩ := total_pos hh
          have hr := h7 w (List.mem_of_getElem? e1)
          cases w with
          | none => simp [heldOf] at e2
          | some w =>
            obtain ⟨held, p⟩ := w
            cases held with
            | false => simp [heldOf] at e2
            | true =>
              have hr : Rest true p := hr
              cases p with
              | nil => cases hr
              | cons a p =>
                obtain ⟨x, hx⟩ := actStep_possible (free := free) (lost := lost) hr (.inl rfl)
                exact ⟨some i, _, by simp only [CallState.step, CallState.workerStep]; rw [e1]; dsimp only; rw [hx]; rfl⟩
        · have hf : 0 < free := by omega
          by_cases hb : 0 < total busyOf workers
          · obtain ⟨i, w, e1, e2⟩ := total_pos hb
            have hr := h7 w (List.mem_of_getElem? e1)
            cases w with
            | none => simp [busyOf] at e2
            | some w =>
              obtain ⟨held, p⟩ := w
              have hr : Rest held p := hr
              cases p with
              | nil => cases hr; exact ⟨some i, _, by simp only [CallState.step, CallState.workerStep]; rw [e1]; rfl⟩
              | cons a p =>
                obtain ⟨x, hx⟩ := actStep_possible (free := free) (lost := lost) hr (.inr hf)
                exact ⟨some i, _, by simp only [CallState.step, CallState.workerStep]; rw [e1]; dsimp only; rw [hx]; rfl⟩
          · cases queue with
            | nil => simp at hp; omega
            | cons j q =>
              have h0 : 0 < workers.length := by omega
              have e1 : workers[0]? = some workers[0] := List.getElem?_eq_getElem h0
              cases hw : workers[0] with
              | none =>
                rw [hw] at e1
                exact ⟨some 0, _, by simp only [CallState.step, CallState.workerStep]; rw [e1]⟩
              | some w =>
                rw [hw] at e1
                have := total_set busyOf e1 none
                simp only [busyOf] at this
                omega

/-- **C86, the part that holds.** A stream with `n` connections and at least one worker; the calls on it make any calls on sinks, with any replies, fewer than `n` of which
throw. Then whatever the schedule, the calls on the stream have all returned after a fixed number of steps at the latest, and until then somebody
can make a step. -/
theorem s3_calls_return_partial {n m k : Nat} {items : List Item} (h : RunsItems items k) (hm : 0 < m) (hk : k < n) :
    ∃ bound, ∀ ts s, (CallState.start n m items).run ts = some s →
      ts.length ≤ bound ∧ (¬ s.Returned → ts.length < bound ∧ ∃ t s', s.step t = some s') := by
  refine ⟨(CallState.start n m items).cost, fun ts s hrun => ?_⟩
  obtain ⟨hi, hc⟩ := run_inv_calls hrun (start_inv n m h)
  refine ⟨by omega, fun hr => ?_⟩
  have hl : s.lost < n := by
    have := hi.throws
    omega
  obtain ⟨t, s', hs⟩ := progress hi hm hl hr
  obtain ⟨_, hc'⟩ := step_inv_calls hs hi
  exact ⟨by omega, t, s', hs⟩

/-- **C86 is violated by the code.** If more calls on sinks throw than there are connections, the calls on the stream never all return:
not under any schedule, however long. -/
theorem s3_calls_hang_violated {n m k : Nat} {items : List Item} (h : RunsItems items k) (hk : n < k) {ts : List (Option Nat)} {s : CallState}
    (hrun : (CallState.start n m items).run ts = some s) : ¬ s.Returned := by
  obtain ⟨hi, _⟩ := run_inv_calls hrun (start_inv n m h)
  rintro ⟨r1, r2⟩
  have h1 := hi.conns
  have h2 := hi.throws
  have h8 := hi.latch
  unfold Latched at h8
  rw [r1] at h8
  have hl : total losesOf s.workers = 0 := by
    by_cases e : 0 < total losesOf s.workers
    · obtain ⟨i, w, e1, e2⟩ := total_pos e
      have := total_set busyOf e1 none
      cases w with
      | none => simp [losesOf] at e2
      | some w => simp only [busyOf] at this; omega
    · omega
  unfold CallState.loses at h2
  rw [r1, r2, h8.1, hl] at h2
  simp only [callerLoses, total_nil] at h2
  omega

/-- A call that throws: a write of at least one part to a server that refuses to create uploads. -/
theorem refused_call {P : Nat} (hP : 0 < P) {data : Bytes} (hd : P ≤ data.length) : RunsCalls refusedCreate 1 := by
  obtain ⟨s, e1, e2⟩ := refusedCreate_real hP (junk := []) hd
  simp only [life] at e1
  split at e1
  · cases e1
  · rename_i s2 he
    simp only [Option.map_some, Option.some.injEq, Prod.mk.injEq] at e1
    obtain ⟨rfl, _⟩ := e1
    have := RunsCalls.threw (l := []) rfl he .nil
    rw [e2, List.append_nil] at this
    exact this
  · cases e1

/-- The hypotheses are met by a server that refuses to create uploads and one layer of more chunks than there are connections, each of at least one part (5 MiB): every job makes one call,
which throws. -/
theorem refused_layer (count : Nat) : RunsItems [.batch (List.replicate count refusedCreate)] count := by
  have hcall : RunsCalls refusedCreate 1 :=
    refused_call (P := partSize) (by decide) (data := List.replicate partSize 1) (Nat.le_of_eq List.length_replicate.symm)
  have hjobs : RunsJobs (List.replicate count refusedCreate) count := by
    induction count with
    | zero => exact .nil
    | succ c ih =>
      have := RunsJobs.cons hcall ih
      rw [Nat.add_comm] at this
      exact this
  exact .batch hjobs .nil

/-- With 4 connections and 4 workers, 3 chunks whose upload is refused are harmless, and 5 stop the stream for ever. -/
example : (∃ bound, ∀ ts s, (CallState.start 4 4 [.batch (List.replicate 3 refusedCreate)]).run ts = some s →
      ts.length ≤ bound ∧ (¬ s.Returned → ts.length < bound ∧ ∃ t s', s.step t = some s')) ∧
    ∀ ts s, (CallState.start 4 4 [.batch (List.replicate 5 refusedCreate)]).run ts = some s → ¬ s.Returned :=
  ⟨s3_calls_return_partial (refused_layer 3) (by decide) (by decide), fun _ _ h => s3_calls_hang_violated (refused_layer 5) (by decide) h⟩

/-! ### Once every connection is gone -/

/-- Somebody needs a connection: the calling thread or a job does something with a sink. -/
def Uses : List Item → Prop
  | [] => False
  | .alone p :: l => p ≠ [] ∨ Uses l
  | .batch js :: l => (∃ j ∈ js, j ≠ []) ∨ Uses l

def callerTakes : Caller → Nat
  | .between => 0
  | .alone _ p => p.count .get
  | .pushing js => total (·.count .get) js

def itemTakes : Item → Nat
  | .alone p => p.count .get
  | .batch js => total (·.count .get) js

def takesOf : Option (Bool × List Act) → Nat
  | some (_, p) => p.count .get
  | none => 0

/-- The connections still to be taken. -/
def CallState.takes (s : CallState) : Nat :=
  callerTakes s.caller + total itemTakes s.rest + total (·.count .get) s.queue + total takesOf s.workers

theorem rest_takes {p : List Act} (h : Rest false p) (hp : p ≠ []) : 0 < p.count .get := by
  cases h with
  | done => exact absurd rfl hp
  | get _ => simp [List.count_cons]

theorem uses_takes {l : List Item} (h : Uses l) (ho : ∀ i ∈ l, OrderedItem i) : 0 < total itemTakes l := by
  induction l with
  | nil => cases h
  | cons i l ih =>
    have ho' : ∀ i ∈ l, OrderedItem i := fun i hi => ho i (List.mem_cons_of_mem _ hi)
    have h0 := ho i List.mem_cons_self
    rw [total_cons]
    cases i with
    | alone p =>
      rcases h with h | h
      · have := rest_takes h0 h
        simp only [itemTakes]
        omega
      · have := ih h ho'
        omega
    | batch js =>
      rcases h with ⟨j, hj, hne⟩ | h
      · have h1 := rest_takes (h0 j hj) hne
        obtain ⟨a, b, e⟩ := List.append_of_mem hj
        simp only [itemTakes]
        rw [e, total_append, total_cons]
        omega
      · have := ih h ho'
        omega

theorem actStep_takes {free lost : Nat} {held : Bool} {a : Act} {p : List Act} {x : Nat × Nat × Bool} (h : actStep free lost held a = some x)
    (hf : free = 0) : (a :: p).count .get = p.count .get ∧ lost ≤ x.2.1 := by
  cases a with
  | get => simp [actStep, hf] at h
  | sent q r => simp only [actStep] at h; cases h; exact ⟨by simp [List.count_cons], Nat.le_refl _⟩
  | giveBack =>
    simp only [actStep] at h
    split at h
    · cases h; exact ⟨by simp [List.count_cons], Nat.le_refl _⟩
    · cases h
  | lose =>
    simp only [actStep] at h
    split at h
    · cases h; exact ⟨by simp [List.count_cons], Nat.le_succ _⟩
    · cases h

/-- Without free connections nobody takes one. -/
theorem step_takes {s s' : CallState} {t : Option Nat} (h : s.step t = some s') (hf : s.free = 0) :
    s'.takes = s.takes ∧ s.lost ≤ s'.lost := by
  obtain ⟨free, lost, caller, rest, queue, workers, pending⟩ := s
  dsimp only at hf
  cases t with
  | none =>
    simp only [CallState.step, CallState.callerStep] at h
    cases caller with
    | between =>
      cases rest with
      | nil => cases h
      | cons i r =>
        cases i <;> cases h <;>
          exact ⟨by simp only [CallState.takes, callerTakes, total_cons, itemTakes]; omega, Nat.le_refl _⟩
    | alone held p =>
      cases p with
      | nil =>
        dsimp only at h
        split at h
        · cases h
        · cases h
          exact ⟨by simp only [CallState.takes, callerTakes, List.count_nil], Nat.le_refl _⟩
      | cons a p =>
        obtain ⟨x, hx, e⟩ := Option.map_eq_some_iff.1 h
        subst e
        obtain ⟨a1, a2⟩ := actStep_takes (p := p) hx hf
        exact ⟨by simp only [CallState.takes, callerTakes, a1], a2⟩
    | pushing js =>
      cases js with
      | nil =>
        dsimp only at h
        split at h
        · cases h
          exact ⟨by simp only [CallState.takes, callerTakes, total_nil], Nat.le_refl _⟩
        · cases h
      | cons j js =>
        cases h
        exact ⟨by simp only [CallState.takes, callerTakes, total_cons, total_append, total_nil]; omega, Nat.le_refl _⟩
  | some i =>
    simp only [CallState.step, CallState.workerStep] at h
    cases hw : workers[i]? with
    | none => rw [hw] at h; cases h
    | some w =>
      rw [hw] at h
      cases w with
      | none =>
        dsimp only at h
        cases queue with
        | nil => cases h
        | cons j q =>
          cases h
          have t1 := total_set takesOf hw (some (false, j))
          simp only [takesOf] at t1
          exact ⟨by simp only [CallState.takes, total_cons]; omega, Nat.le_refl _⟩
      | some w =>
        obtain ⟨held, p⟩ := w
        cases p with
        | nil =>
          dsimp only at h
          split at h
          · cases h
          · cases h
            have t1 := total_set takesOf hw none
            simp only [takesOf, List.count_nil] at t1
            exact ⟨by simp only [CallState.takes]; omega, Nat.le_refl _⟩
        | cons a p =>
          obtain ⟨x, hx, e⟩ := Option.map_eq_some_iff.1 h
          subst e
          obtain ⟨a1, a2⟩ := actStep_takes (p := p) hx hf
          have t1 := total_set takesOf hw (some (x.2.2, p))
          simp only [takesOf, a1] at t1
          exact ⟨by simp only [CallState.takes]; omega, a2⟩

/-- A step either starts the next item or leaves the items alone. -/
theorem step_rest {s s' : CallState} {t : Option Nat} (h : s.step t = some s') :
    s'.rest = s.rest ∨ (s.caller = .between ∧ ∃ i, s.rest = i :: s'.rest) := by
  obtain ⟨free, lost, caller, rest, queue, workers, pending⟩ := s
  cases t with
  | none =>
    simp only [CallState.step, CallState.callerStep] at h
    cases caller with
    | between =>
      cases rest with
      | nil => cases h
      | cons i r => cases i <;> cases h <;> exact .inr ⟨rfl, _, rfl⟩
    | alone held p =>
      cases p with
      | nil =>
        dsimp only at h
        split at h <;> cases h
        exact .inl rfl
      | cons a p =>
        obtain ⟨x, hx, e⟩ := Option.map_eq_some_iff.1 h
        subst e
        exact .inl rfl
    | pushing js =>
      cases js with
      | nil =>
        dsimp only at h
        split at h <;> cases h
        exact .inl rfl
      | cons j js => cases h; exact .inl rfl
  | some i =>
    simp only [CallState.step, CallState.workerStep] at h
    split at h
    · cases h
    · split at h
      · cases h
      · cases h; exact .inl rfl
    · split at h
      · cases h
      · cases h; exact .inl rfl
    · obtain ⟨x, hx, e⟩ := Option.map_eq_some_iff.1 h
      subst e
      exact .inl rfl

/-- Before the items `post`, or with every connection lost and connections still to be taken. -/
def Doomed (n : Nat) (post : List Item) (s : CallState) : Prop :=
  (∃ mid, s.rest = mid ++ post) ∨ (n ≤ s.lost ∧ 0 < s.takes)

theorem latch_between {s : CallState} (h8 : Latched s) (hc : s.caller = .between) : s.queue = [] ∧ total losesOf s.workers = 0 := by
  unfold Latched at h8
  rw [hc] at h8
  refine ⟨h8.1, ?_⟩
  by_cases e : 0 < total losesOf s.workers
  · obtain ⟨i, w, e1, e2⟩ := total_pos e
    have := total_set busyOf e1 none
    have h9 : total busyOf s.workers = 0 := h8.2
    cases w with
    | none => simp [losesOf] at e2
    | some w => simp only [busyOf] at this; omega
  · omega

theorem step_doomed {n m k k' : Nat} {post : List Item} {s s' : CallState} {t : Option Nat} (h : s.step t = some s')
    (hi : CallInv n m (k + k') s) (hk : n ≤ k) (hp : total itemLoses post = k') (hu : 0 < total itemTakes post)
    (hd : Doomed n post s) : Doomed n post s' := by
  rcases hd with ⟨mid, hmid⟩ | ⟨hl, ht⟩
  · rcases step_rest h with e | ⟨hc, i, e⟩
    · exact .inl ⟨mid, by rw [e, hmid]⟩
    · cases mid with
      | cons x mid =>
        rw [hmid, List.cons_append] at e
        exact .inl ⟨mid, (List.cons.inj e).2.symm⟩
      | nil =>
        obtain ⟨q1, q2⟩ := latch_between hi.latch hc
        have h1 := hi.conns
        have h2 := hi.throws
        unfold CallState.loses at h2
        rw [hc, hmid, List.nil_append, q1, q2, hp] at h2
        simp only [callerLoses, total_nil] at h2
        obtain ⟨e1, e2⟩ := step_takes h (by omega)
        refine .inr ⟨by omega, ?_⟩
        rw [e1]
        unfold CallState.takes
        rw [hmid, List.nil_append]
        omega
  · have h1 := hi.conns
    obtain ⟨e1, e2⟩ := step_takes h (by omega)
    exact .inr ⟨by omega, by omega⟩

theorem RunsItems.append {l l' : List Item} {k k' : Nat} (h : RunsItems l k) (h' : RunsItems l' k') : RunsItems (l ++ l') (k + k') := by
  induction h with
  | nil => simpa using h'
  | alone hp _ ih => rw [Nat.add_assoc]; exact .alone hp ih
  | batch hp _ ih => rw [Nat.add_assoc]; exact .batch hp ih

/-- **C86 is violated by the code, the sharp form.** If as many calls on sinks throw as there are connections, and after that anything is still to be done with a
sink, the calls on the stream never all return: not under any schedule, however long. -/
theorem s3_calls_hang_after_violated {n m k k' : Nat} {pre post : List Item} (h : RunsItems pre k) (h' : RunsItems post k') (hk : n ≤ k)
    (hu : Uses post) {ts : List (Option Nat)} {s : CallState} (hrun : (CallState.start n m (pre ++ post)).run ts = some s) :
    ¬ s.Returned := by
  obtain ⟨r1, r2⟩ := h'.rest
  have hu := uses_takes hu r1
  have key : ∀ (ts : List (Option Nat)) (s0 : CallState), CallInv n m (k + k') s0 → Doomed n post s0 → s0.run ts = some s → Doomed n post s := by
    intro ts
    induction ts with
    | nil => intro s0 _ hd hr; cases hr; exact hd
    | cons t ts ih =>
      intro s0 hi hd hr
      unfold CallState.run at hr
      obtain ⟨s1, e1, e2⟩ := Option.bind_eq_some_iff.1 hr
      exact ih s1 (step_inv_calls e1 hi).1 (step_doomed e1 hi hk r2 hu hd) e2
  have hd := key ts _ (start_inv n m (h.append h')) (.inl ⟨pre, rfl⟩) hrun
  have hi := (run_inv_calls hrun (start_inv n m (h.append h'))).1
  rintro ⟨c1, c2⟩
  rcases hd with ⟨mid, e⟩ | ⟨_, ht⟩
  · rw [c2] at e
    have : post = [] := (List.append_eq_nil_iff.1 e.symm).2
    rw [this] at hu
    simp [total_nil] at hu
  · obtain ⟨q1, _⟩ := latch_between hi.latch c1
    unfold CallState.takes at ht
    rw [c1, c2, q1] at ht
    simp only [callerTakes, total_nil] at ht
    obtain ⟨i, w, e1, e2⟩ := total_pos (f := takesOf) (l := s.workers) (by omega)
    have h8 := hi.latch
    unfold Latched at h8
    rw [c1] at h8
    have h9 : total busyOf s.workers = 0 := h8.2
    have := total_set busyOf e1 none
    cases w with
    | none => simp [takesOf] at e2
    | some w => simp only [busyOf] at this; omega

/-- With 4 connections, 4 chunks whose upload is refused and one more upload to be attempted stop the stream for ever. -/
example : ∀ ts s, (CallState.start 4 4 ([.batch (List.replicate 4 refusedCreate)] ++ [.alone refusedCreate])).run ts = some s → ¬ s.Returned :=
  fun _ _ h => s3_calls_hang_after_violated (refused_layer 4) (.alone (refused_call (P := partSize) (by decide) (data := List.replicate partSize 1)
    (Nat.le_of_eq List.length_replicate.symm)) .nil) (by decide) (.inl (by simp [refusedCreate])) h

end AZ.S3
