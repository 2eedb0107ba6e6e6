import Verif.Props.S3Sink
import Verif.Model.Connections
import Mathlib.Data.List.Perm.Basic
import Mathlib.Data.List.Nodup
import Mathlib.Data.List.Count

/-! # C33: the connections of the pool -/

set_option linter.unusedSimpArgs false

namespace AZ.S3
open Spec

/-! ### The pool, for any threads and any schedule -/

/-- The connections currently lent. -/
def Conns.lent (c : Conns) : List Nat := c.threads.filterMap Thread.held

theorem set_eq_append {α : Type} {l : List α} {t : Nat} {x : α} (h : l[t]? = some x) (y : α) :
    ∃ a b, l = a ++ x :: b ∧ l.set t y = a ++ y :: b := by
  induction l generalizing t with
  | nil => simp at h
  | cons z l ih =>
    cases t with
    | zero =>
      simp only [List.getElem?_cons_zero, Option.some.injEq] at h
      subst h
      exact ⟨[], l, rfl, rfl⟩
    | succ t =>
      rw [List.getElem?_cons_succ] at h
      obtain ⟨a, b, h1, h2⟩ := ih h
      exact ⟨z :: a, b, by rw [h1]; rfl, by rw [List.set_cons_succ, h2]; rfl⟩

/-- No connection appears or disappears, and none is at two places. -/
def Conns.all (c : Conns) : List Nat := c.free ++ c.lent ++ c.lost

theorem step_all {c c' : Conns} {t : Nat} (h : c.step t = some c') : c'.all.Perm c.all := by
  unfold Conns.step at h
  split at h
  · simp at h
  · rename_i th hth
    have key : ∀ th' : Thread, ∃ a b : List Thread, c.threads = a ++ th :: b ∧ c.threads.set t th' = a ++ th' :: b :=
      fun th' => set_eq_append hth th'
    unfold Conns.all Conns.lent
    split at h
    · simp at h
    · rename_i rest _
      split at h
      · rename_i x hx hheld
        simp only [Option.some.injEq] at h
        subst h
        obtain ⟨a, b, e1, e2⟩ := key ⟨some x, rest⟩
        dsimp only
        rw [e2, e1]
        have hf : c.free = c.free.dropLast ++ [x] := by
          obtain ⟨ys, hys⟩ := List.getLast?_eq_some_iff.1 hx
          rw [hys, List.dropLast_concat]
        conv_rhs => rw [hf]
        simp only [List.filterMap_append, List.filterMap_cons, hheld, List.append_assoc]
        apply List.Perm.append_left
        simp only [List.cons_append, List.nil_append]
        exact List.perm_middle
      · simp at h
    · rename_i rest _
      simp only [Option.some.injEq] at h
      subst h
      obtain ⟨a, b, e1, e2⟩ := key ⟨th.held, rest⟩
      dsimp only
      rw [e2, e1]
      simp only [List.filterMap_append, List.filterMap_cons]
      exact List.Perm.refl _
    · rename_i rest _
      split at h
      · rename_i x hheld
        simp only [Option.some.injEq] at h
        subst h
        obtain ⟨a, b, e1, e2⟩ := key ⟨none, rest⟩
        dsimp only
        rw [e2, e1]
        simp only [List.filterMap_append, List.filterMap_cons, hheld, List.append_assoc]
        apply List.Perm.append_left
        simp only [List.cons_append, List.nil_append]
        exact List.perm_middle.symm
      · simp at h
    · rename_i rest _
      split at h
      · rename_i x hheld
        simp only [Option.some.injEq] at h
        subst h
        obtain ⟨a, b, e1, e2⟩ := key ⟨none, rest⟩
        dsimp only
        rw [e2, e1]
        simp only [List.filterMap_append, List.filterMap_cons, hheld, List.append_assoc]
        apply List.Perm.append_left
        apply List.Perm.append_left
        rw [← List.append_assoc]
        refine (List.perm_append_comm (l₁ := b.filterMap Thread.held ++ c.lost) (l₂ := [x])).trans ?_
        simp
      · simp at h

theorem run_all {c c' : Conns} {ts : List Nat} (h : c.run ts = some c') : c'.all.Perm c.all := by
  induction ts generalizing c with
  | nil =>
    simp only [Conns.run, Option.some.injEq] at h
    rw [h]
  | cons t ts ih =>
    unfold Conns.run at h
    obtain ⟨c2, h1, h2⟩ := Option.bind_eq_some_iff.1 h
    exact (ih h2).trans (step_all h1)

theorem lent_start (n : Nat) (ps : List (List Act)) : (Conns.start n ps).lent = [] := by
  unfold Conns.lent Conns.start
  rw [List.filterMap_map]
  exact List.filterMap_eq_nil_iff.2 fun _ _ => rfl

/-- **C33.** In every interleaving of any programs: the connections that are in the pool, lent and destroyed are together
exactly those the pool started with, and no connection is at two places (in particular, none is lent to two threads). -/
theorem connections_accounted {n : Nat} {ps : List (List Act)} {ts : List Nat} {c : Conns}
    (h : (Conns.start n ps).run ts = some c) :
    (c.free ++ c.lent ++ c.lost).Perm (List.range n) ∧ (c.free ++ c.lent ++ c.lost).Nodup := by
  have := run_all h
  have e : (Conns.start n ps).all = List.range n := by
    unfold Conns.all
    rw [lent_start]
    simp [Conns.start]
  rw [e] at this
  exact ⟨this, this.nodup_iff.2 List.nodup_range⟩

/-! ### What the sinks do with connections -/

/-- A sequence of transactions: take a connection, send requests, give it back or destroy it. -/
inductive Bracketed : List Act → Prop
  | nil : Bracketed []
  | step {l : List Act} (qs : List (Req × Reply)) (last : Act) : Bracketed l → last = .giveBack ∨ last = .lose →
      Bracketed (l ++ (.get :: qs.map (fun q => .sent q.1 q.2) ++ [last]))

/-- What an operation of a sink adds to its log. -/
def Adds (s s' : Sink) (k : Nat) : Prop :=
  (Bracketed s.log → Bracketed s'.log) ∧ s'.log.count .lose = s.log.count .lose + k

theorem Adds.refl (s : Sink) : Adds s s 0 := ⟨id, rfl⟩

theorem Adds.of_log {s s' : Sink} (h : s'.log = s.log) : Adds s s' 0 := by
  unfold Adds
  rw [h]
  exact ⟨id, rfl⟩

theorem Adds.trans {a b c : Sink} {i j : Nat} (h1 : Adds a b i) (h2 : Adds b c j) : Adds a c (i + j) :=
  ⟨fun h => h2.1 (h1.1 h), by rw [h2.2, h1.2, Nat.add_assoc]⟩

theorem request_adds (r : Nat → Reply) (q : Req) (keep : Reply → Bool) (s : Sink) :
    Adds s (request r q keep s).2 (if keep (r s.requests) then 0 else 1) := by
  constructor
  · intro h
    exact .step [(q, r s.requests)] _ h (by cases keep (r s.requests) <;> simp)
  · unfold request
    dsimp only
    rw [List.count_append]
    cases keep (r s.requests) <;> simp [List.count_cons]

/-- What an outcome says about the connections: an exception has destroyed one. -/
def Outcome (s : Sink) : Out → Prop
  | .returned _ s' => Adds s s' 0
  | .threw s' => Adds s s' 1
  | .ub => True

theorem Outcome.after {a b : Sink} {o : Out} (h : Adds a b 0) (ho : Outcome b o) : Outcome a o := by
  cases o with
  | returned _ s => have := h.trans ho; simpa [Outcome] using this
  | threw s => have := h.trans ho; simpa [Outcome] using this
  | ub => trivial

theorem putObject_adds (r : Nat → Reply) (s : Sink) : Adds s (putObject r s).2 0 := by
  unfold putObject
  split
  · exact Adds.refl s
  · dsimp only
    have := request_adds r (.put (s.buffer.take s.buffered)) (fun _ => true) s
    simp only [if_true] at this
    split
    · exact this.trans (Adds.of_log rfl)
    · exact this

theorem createUpload_outcome (r : Nat → Reply) (s : Sink) : Outcome s (createUpload r s) := by
  unfold createUpload
  dsimp only
  have := request_adds r .create Reply.good { s with upload := some ⟨[], []⟩ }
  have h0 : Adds s { s with upload := some ⟨[], []⟩ } 0 := Adds.of_log rfl
  rw [request_fst]
  dsimp only at this ⊢
  split
  · rename_i hg
    rw [if_pos hg] at this
    have h2 := (h0.trans this).trans (Adds.of_log (s' := { (request r .create Reply.good { s with upload := some ⟨[], []⟩ }).2 with
      upload := some ⟨(r s.requests).tag, []⟩ }) rfl)
    exact h2
  · rename_i hg
    rw [if_neg hg] at this
    have h2 := h0.trans this
    exact h2

theorem uploadPart_adds (r : Nat → Reply) (u : Upload) (s : Sink) : Adds s (uploadPart r u s).2 0 := by
  have := request_adds r (.part u.id (u32 (u32 u.parts.length + 1)) (s.buffer.take s.buffered)) (fun _ => true) s
  simp only [if_true] at this
  exact this.trans (Adds.of_log rfl)

theorem flushPart_outcome (r : Nat → Reply) (s : Sink) : Outcome s (flushPart r s) := by
  unfold flushPart
  split
  · exact Adds.refl s
  · split
    · exact uploadPart_adds r _ s
    · have := createUpload_outcome r s
      split
      · rename_i s2 he
        rw [he] at this
        have h2 := Adds.trans this (uploadPart_adds r (s2.upload.getD ⟨[], []⟩) s2)
        exact h2
      · exact this

theorem writeLoop_outcome {P : Nat} {r : Nat → Reply} {fuel : Nat} {data : Bytes} {s : Sink} {o : Out}
    (h : writeLoop P r fuel data s = some o) : Outcome s o := by
  induction fuel generalizing data s with
  | zero =>
    cases data with
    | nil =>
      simp only [writeLoop, Option.some.injEq] at h
      subst h
      exact Adds.refl s
    | cons c cs => simp [writeLoop] at h
  | succ fuel ih =>
    cases data with
    | nil =>
      simp only [writeLoop, Option.some.injEq] at h
      subst h
      exact Adds.refl s
    | cons c cs =>
      unfold writeLoop at h
      split at h
      · simp only [Option.some.injEq] at h
        subst h
        trivial
      · dsimp only at h
        generalize (c :: cs) = data at h
        generalize min data.length (P - s.buffered) = n at h
        split at h
        · have hfo := flushPart_outcome r { s with
            buffer := pwrite s.buffer s.buffered (data.take n)
            buffered := s.buffered + n }
          split at h
          · rename_i s2 he
            rw [he] at hfo
            have h0 : Adds s { s with
              buffer := pwrite s.buffer s.buffered (data.take n)
              buffered := s.buffered + n } 0 := Adds.of_log rfl
            exact Outcome.after (h0.trans hfo) (ih h)
          · simp only [Option.some.injEq] at h
            subst h
            exact Outcome.after (Adds.of_log rfl) hfo
        · have h2 := ih h
          exact Outcome.after (Adds.of_log rfl) h2

theorem write_outcome {P : Nat} {r : Nat → Reply} {fuel off : Nat} {data : Bytes} {s : Sink} {o : Out}
    (h : write P r fuel off data s = some o) : Outcome s o := by
  unfold write at h
  split at h
  · simp only [Option.some.injEq] at h
    subst h
    exact Adds.refl s
  · split at h
    · simp only [Option.some.injEq] at h
      subst h
      exact Adds.refl s
    · have h2 := writeLoop_outcome h
      exact Outcome.after (Adds.of_log rfl) h2

theorem completeUpload_outcome (r : Nat → Reply) (u : Upload) (s : Sink) : Outcome s (completeUpload r u s) := by
  unfold completeUpload
  split
  · refine ⟨fun h => .step [] _ h (.inr rfl), ?_⟩
    dsimp only
    rw [List.count_append]
    simp [List.count_cons]
  · have := request_adds r (.complete u.id u.parts) (· != .threw) s
    dsimp only
    rw [request_fst]
    cases hr : r s.requests with
    | confirmed t => rw [hr] at this; exact this
    | refused => rw [hr] at this; exact this
    | threw => rw [hr] at this; exact this

theorem flush_outcome (r : Nat → Reply) (s : Sink) : Outcome s (flush r s) := by
  unfold flush
  split
  · rename_i u hu
    dsimp only
    have h1 : Outcome s (if s.buffered = 0 then Out.returned true s else flushPart r s) := by
      split
      · exact Adds.refl s
      · exact flushPart_outcome r s
    generalize (if s.buffered = 0 then Out.returned true s else flushPart r s) = o at h1 ⊢
    split
    · rename_i s2
      have h2 := completeUpload_outcome r (s2.upload.getD u) s2
      split
      · rename_i s3 he
        rw [he] at h2
        exact Outcome.after h1 ((Adds.trans h2 (Adds.of_log rfl) : Adds s2 _ (0 + 0)))
      · exact Outcome.after h1 h2
    · exact h1
  · split
    · exact Adds.refl s
    · have := putObject_adds r s
      split
      · rename_i s2 he
        rw [he] at this
        exact this.trans (Adds.of_log rfl)
      · rename_i s2 he
        rw [he] at this
        exact this

theorem life_adds {P : Nat} {r : Nat → Reply} {ops : List Op} {s s' : Sink} {k : Nat} (h : life P r ops s = some (s', k)) :
    Adds s s' k := by
  induction ops generalizing s k with
  | nil =>
    simp only [life, Option.some.injEq, Prod.mk.injEq] at h
    obtain ⟨rfl, rfl⟩ := h
    exact Adds.refl s
  | cons op ops ih =>
    have key : ∀ o, op.apply P r s = some o → Outcome s o := by
      intro o ho
      cases op with
      | write off data => exact write_outcome ho
      | flush =>
        simp only [Op.apply, Option.some.injEq] at ho
        subst ho
        exact flush_outcome r s
    unfold life at h
    split at h
    · rename_i b s2 he
      have := Adds.trans (key _ he : Adds s s2 0) (ih h)
      rwa [Nat.zero_add] at this
    · rename_i s2 he
      obtain ⟨⟨s3, k3⟩, h1, h2⟩ := Option.map_eq_some_iff.1 h
      simp only [Prod.mk.injEq] at h2
      obtain ⟨rfl, rfl⟩ := h2
      have := Adds.trans (key _ he : Adds s s2 1) (ih h1)
      rwa [Nat.add_comm] at this
    · simp at h

/-- **C33.** Whatever calls a sink receives and whatever the server answers: it takes one connection at a time, and ends
each transaction by giving it back or, in a call that throws, by destroying it. The number of destroyed connections is
the number of calls that threw. -/
theorem sink_connections {P : Nat} {r : Nat → Reply} {junk : Bytes} {ops : List Op} {s : Sink} {k : Nat}
    (h : life P r ops (Sink.new junk) = some (s, k)) : Bracketed s.log ∧ s.log.count .lose = k := by
  have := life_adds h
  exact ⟨this.1 .nil, by rw [this.2]; simp [Sink.new]⟩

/-! ### Return of the connections when no call throws -/

/-- What a thread may still have to do, holding a connection or not. -/
inductive Rest : Bool → List Act → Prop
  | done : Rest false []
  | get {l : List Act} : Rest true l → Rest false (.get :: l)
  | sent {l : List Act} (q : Req) (a : Reply) : Rest true l → Rest true (.sent q a :: l)
  | back {l : List Act} : Rest false l → Rest true (.giveBack :: l)
  | lose {l : List Act} : Rest false l → Rest true (.lose :: l)

theorem rest_append {b : Bool} {l m : List Act} (h : Rest b l) (hm : Rest false m) : Rest b (l ++ m) := by
  induction h with
  | done => exact hm
  | get _ ih => exact .get ih
  | sent q a _ ih => exact .sent q a ih
  | back _ ih => exact .back ih
  | lose _ ih => exact .lose ih

theorem bracketed_rest {l : List Act} (h : Bracketed l) : Rest false l := by
  induction h with
  | nil => exact .done
  | step qs last _ hl ih =>
    refine rest_append ih ?_
    rw [List.cons_append]
    refine .get ?_
    induction qs with
    | nil =>
      rcases hl with rfl | rfl
      · exact .back .done
      · exact .lose .done
    | cons q qs ih2 => exact .sent _ _ ih2

/-- Threads that run sinks. -/
def Ordered (c : Conns) : Prop := ∀ th ∈ c.threads, Rest th.held.isSome th.todo

/-- Threads in which no call throws. -/
def Safe (c : Conns) : Prop := ∀ th ∈ c.threads, .lose ∉ th.todo

theorem step_inv {c c' : Conns} {t : Nat} (h : c.step t = some c') :
    (Ordered c → Ordered c') ∧ (Safe c → Safe c' ∧ c'.lost = c.lost) := by
  unfold Conns.step at h
  split at h
  · simp at h
  · rename_i th hth
    have hm := List.mem_of_getElem? hth
    have set_mem : ∀ (x y : Thread), x ∈ c.threads.set t y → x ∈ c.threads ∨ x = y := fun x y hx =>
      List.mem_or_eq_of_mem_set hx
    split at h
    · simp at h
    · rename_i rest htodo
      split at h
      · rename_i x hx hheld
        simp only [Option.some.injEq] at h
        subst h
        refine ⟨fun ho th' h' => ?_, fun hs => ⟨fun th' h' => ?_, rfl⟩⟩
        · rcases set_mem _ _ h' with h' | rfl
          · exact ho th' h'
          · have := ho th hm
            rw [htodo, hheld] at this
            cases this with
            | get h => exact h
        · rcases set_mem _ _ h' with h' | rfl
          · exact hs th' h'
          · have := hs th hm
            rw [htodo] at this
            exact fun hl => this (List.mem_cons_of_mem _ hl)
      · simp at h
    · rename_i q a rest htodo
      simp only [Option.some.injEq] at h
      subst h
      refine ⟨fun ho th' h' => ?_, fun hs => ⟨fun th' h' => ?_, rfl⟩⟩
      · rcases set_mem _ _ h' with h' | rfl
        · exact ho th' h'
        · have := ho th hm
          rw [htodo] at this
          dsimp only
          generalize th.held.isSome = b at this
          cases this with
          | sent _ _ h => exact h
      · rcases set_mem _ _ h' with h' | rfl
        · exact hs th' h'
        · have := hs th hm
          rw [htodo] at this
          exact fun hl => this (List.mem_cons_of_mem _ hl)
    · rename_i rest htodo
      split at h
      · rename_i x hheld
        simp only [Option.some.injEq] at h
        subst h
        refine ⟨fun ho th' h' => ?_, fun hs => ⟨fun th' h' => ?_, rfl⟩⟩
        · rcases set_mem _ _ h' with h' | rfl
          · exact ho th' h'
          · have := ho th hm
            rw [htodo, hheld] at this
            cases this with
            | back h => exact h
        · rcases set_mem _ _ h' with h' | rfl
          · exact hs th' h'
          · have := hs th hm
            rw [htodo] at this
            exact fun hl => this (List.mem_cons_of_mem _ hl)
      · simp at h
    · rename_i rest htodo
      split at h
      · rename_i x hheld
        simp only [Option.some.injEq] at h
        subst h
        refine ⟨fun ho th' h' => ?_, fun hs => ?_⟩
        · rcases set_mem _ _ h' with h' | rfl
          · exact ho th' h'
          · have := ho th hm
            rw [htodo, hheld] at this
            cases this with
            | lose h => exact h
        · exact absurd (hs th hm) (by rw [htodo]; simp)
      · simp at h

theorem run_inv {c c' : Conns} {ts : List Nat} (h : c.run ts = some c') :
    (Ordered c → Ordered c') ∧ (Safe c → Safe c' ∧ c'.lost = c.lost) := by
  induction ts generalizing c with
  | nil =>
    simp only [Conns.run, Option.some.injEq] at h
    rw [h]
    exact ⟨id, fun h => ⟨h, rfl⟩⟩
  | cons t ts ih =>
    unfold Conns.run at h
    obtain ⟨c2, h1, h2⟩ := Option.bind_eq_some_iff.1 h
    obtain ⟨a1, a2⟩ := step_inv h1
    obtain ⟨b1, b2⟩ := ih h2
    exact ⟨fun h => b1 (a1 h), fun h => ⟨(b2 (a2 h).1).1, by rw [(b2 (a2 h).1).2, (a2 h).2]⟩⟩

/-- A thread that holds a connection can always make a step, and so can one that wants a connection while there is one. -/
theorem step_possible {c : Conns} (ho : Ordered c) (hn : 0 < (c.free ++ c.lent).length) (hw : ∃ th ∈ c.threads, th.todo ≠ []) :
    ∃ t c', c.step t = some c' := by
  by_cases hl : c.lent = []
  · obtain ⟨th, hm, hne⟩ := hw
    obtain ⟨t, ht, rfl⟩ := List.getElem_of_mem hm
    have hheld : c.threads[t].held = none := by
      have := List.filterMap_eq_nil_iff.1 hl _ hm
      exact this
    have hr := ho _ hm
    rw [hheld] at hr
    have hfree : c.free ≠ [] := by
      intro e
      rw [e, hl] at hn
      simp at hn
    obtain ⟨x, hx⟩ : ∃ x, c.free.getLast? = some x := ⟨_, List.getLast?_eq_some_getLast hfree⟩
    refine ⟨t, ?_⟩
    unfold Conns.step
    rw [List.getElem?_eq_getElem ht]
    dsimp only
    cases hto : c.threads[t].todo with
    | nil => exact absurd hto hne
    | cons a rest =>
      rw [hto] at hr
      cases hr with
      | get h =>
        dsimp only
        rw [hx, hheld]
        exact ⟨_, rfl⟩
  · obtain ⟨x, hx⟩ := List.exists_mem_of_ne_nil _ hl
    obtain ⟨th, hm, hheld⟩ := List.mem_filterMap.1 hx
    obtain ⟨t, ht, rfl⟩ := List.getElem_of_mem hm
    have hr := ho _ hm
    rw [hheld] at hr
    refine ⟨t, ?_⟩
    unfold Conns.step
    rw [List.getElem?_eq_getElem ht]
    dsimp only
    cases hto : c.threads[t].todo with
    | nil => rw [hto] at hr; cases hr
    | cons a rest =>
      rw [hto] at hr
      cases hr with
      | sent q a h => exact ⟨_, rfl⟩
      | back h => dsimp only; rw [hheld]; exact ⟨_, rfl⟩
      | lose h => dsimp only; rw [hheld]; exact ⟨_, rfl⟩

/-- A thread that runs sinks one after the other, each with any calls and any replies; `k` of the calls throw. -/
inductive RunsSinks : List Act → Nat → Prop
  | nil : RunsSinks [] 0
  | sink {P : Nat} {r : Nat → Reply} {junk : Bytes} {ops : List Op} {s : Sink} {k k' : Nat} {l : List Act} :
      life P r ops (Sink.new junk) = some (s, k) → RunsSinks l k' → RunsSinks (s.log ++ l) (k + k')

theorem RunsSinks.rest {l : List Act} {k : Nat} (h : RunsSinks l k) : Rest false l ∧ l.count .lose = k := by
  induction h with
  | nil => exact ⟨.done, rfl⟩
  | sink hl _ ih =>
    obtain ⟨b1, b2⟩ := sink_connections hl
    exact ⟨rest_append (bracketed_rest b1) ih.1, by rw [List.count_append, b2, ih.2]⟩

/-- **C33 where no call throws.** Threads run sinks; none of the calls throws. Then in every interleaving no connection is destroyed, as long as a thread has something to do some
thread can make a step, and when all have finished every connection is in the pool again. -/
theorem connections_return_partial {n : Nat} (hn : 0 < n) {ps : List (List Act)} (hb : ∀ p ∈ ps, RunsSinks p 0) {ts : List Nat} {c : Conns} (h : (Conns.start n ps).run ts = some c) :
    c.lost = [] ∧ ((∃ th ∈ c.threads, th.todo ≠ []) → ∃ t c', c.step t = some c') ∧
      ((∀ th ∈ c.threads, th.todo = []) → c.free.Perm (List.range n)) := by
  have ho : Ordered (Conns.start n ps) := by
    intro th hth
    obtain ⟨p, hp, rfl⟩ := List.mem_map.1 hth
    exact (hb p hp).rest.1
  have hsf : Safe (Conns.start n ps) := by
    intro th hth
    obtain ⟨p, hp, rfl⟩ := List.mem_map.1 hth
    exact List.count_eq_zero.1 (hb p hp).rest.2
  obtain ⟨i1, i2⟩ := run_inv h
  have ho' := i1 ho
  obtain ⟨_, hlost⟩ := i2 hsf
  have hlost' : c.lost = [] := hlost
  obtain ⟨hp, _⟩ := connections_accounted h
  rw [hlost', List.append_nil] at hp
  refine ⟨hlost', fun hw => ?_, fun hd => ?_⟩
  · exact step_possible ho' (by rw [hp.length_eq, List.length_range]; exact hn) hw
  · have : c.lent = [] := by
      apply List.filterMap_eq_nil_iff.2
      intro th hth
      have hr := ho' th hth
      rw [hd th hth] at hr
      generalize hhh : th.held = o at hr
      cases o with
      | none => first | exact hhh | rfl
      | some x => cases hr
    rwa [this, List.append_nil] at hp

/-! ### Violation -/

/-- The log of a sink whose upload the server refuses to create: one call, which throws. -/
def refusedCreate : List Act := [.get, .sent .create .refused, .lose]

/-- `refusedCreate` is what a sink does: any part size, any write of at least one part. -/
theorem refusedCreate_real {P : Nat} (hP : 0 < P) {junk data : Bytes} (hd : P ≤ data.length) :
    ∃ s, life P (fun _ => .refused) [.write 0 data] (Sink.new junk) = some (s, 1) ∧ s.log = refusedCreate := by
  cases data with
  | nil => simp at hd; omega
  | cons c cs =>
    refine ⟨⟨pwrite junk 0 ((c :: cs).take P), P, 0, some ⟨[], []⟩, 1, refusedCreate⟩, ?_, rfl⟩
    have : writeLoop P (fun _ => .refused) (fuelFor (c :: cs)) (c :: cs) (Sink.new junk) =
        some (.threw ⟨pwrite junk 0 ((c :: cs).take P), P, 0, some ⟨[], []⟩, 1, refusedCreate⟩) := by
      have hm : min (c :: cs).length (P - (Sink.new junk).buffered) = P := by
        show min (c :: cs).length (P - 0) = P
        omega
      unfold fuelFor
      rw [writeLoop_step (by simp) (Nat.zero_le _), hm, show (Sink.new junk).buffered = 0 from rfl, Nat.zero_add, if_pos rfl]
      unfold flushPart
      dsimp only
      rw [if_neg (by omega)]
      rfl
    unfold life Op.apply write
    dsimp only
    have hfl : (Sink.new junk).flushed = 0 := rfl
    rw [if_neg (by simp), hfl, if_neg (by omega), Nat.sub_zero]
    refine Eq.trans (congrArg (fun o => match o with
      | some (Out.returned _ s) => life P (fun _ => Reply.refused) [] s
      | some (Out.threw s) => (life P (fun _ => Reply.refused) [] s).map fun (x : Sink × Nat) => (x.1, x.2 + 1)
      | _ => none) this) ?_
    rfl

theorem lose_all (n : Nat) (lost : List Nat) (rest : List Act) (others : List Thread) :
    ∃ ts lost', Conns.run ⟨List.range n, lost, ⟨none, (List.replicate n refusedCreate).flatten ++ rest⟩ :: others⟩ ts =
      some ⟨[], lost', ⟨none, rest⟩ :: others⟩ := by
  induction n generalizing lost with
  | zero => exact ⟨[], lost, rfl⟩
  | succ n ih =>
    obtain ⟨ts, lost', h⟩ := ih (lost ++ [n])
    refine ⟨0 :: 0 :: 0 :: ts, lost', ?_⟩
    rw [← h]
    have : (List.replicate (n + 1) refusedCreate).flatten = .get :: .sent .create .refused :: .lose ::
      (List.replicate n refusedCreate).flatten := rfl
    rw [this]
    simp only [Conns.run, Conns.step, List.getElem?_cons_zero, List.cons_append, List.set_cons_zero, Option.bind_some,
      List.range_succ, List.getLast?_append, List.getLast?_singleton, Option.or_some, List.dropLast_concat, Option.some_or]

/-- **C33 is violated by the code.** However many connections the pool has: that many refused uploads destroy all of them,
and from then on every sink waits forever for a connection, in every schedule. -/
theorem connections_lost_violated (n : Nat) (others : List (List Act)) (ho : ∀ p ∈ others, p.head? = some .get) :
    RunsSinks (List.replicate n refusedCreate).flatten n ∧
    ∃ ts c, (Conns.start n ((List.replicate n refusedCreate).flatten :: others)).run ts = some c ∧
      c.free = [] ∧ c.lost.Perm (List.range n) ∧ (∀ t, c.step t = none) ∧ c.threads.tail = others.map fun p => ⟨none, p⟩ := by
  obtain ⟨ts, lost', h⟩ := lose_all n [] [] (others.map fun p => ⟨none, p⟩)
  rw [List.append_nil] at h
  have h' : (Conns.start n ((List.replicate n refusedCreate).flatten :: others)).run ts = some
    ⟨[], lost', ⟨none, []⟩ :: others.map fun p => ⟨none, p⟩⟩ := h
  refine ⟨?_, ts, _, h', rfl, ?_, ?_, rfl⟩
  · clear h h'
    induction n with
    | zero => exact .nil
    | succ n ih =>
      obtain ⟨s, e1, e2⟩ := refusedCreate_real (P := partSize) (by decide) (junk := List.replicate partSize 0)
        (data := List.replicate partSize 1) (by rw [List.length_replicate])
      have := RunsSinks.sink e1 ih
      rw [e2, Nat.add_comm] at this
      exact this
  · have := (connections_accounted h').1
    have hl : Conns.lent ⟨[], lost', ⟨none, []⟩ :: others.map fun p => ⟨none, p⟩⟩ = [] := by
      apply List.filterMap_eq_nil_iff.2
      intro th hth
      rcases List.mem_cons.1 hth with rfl | hth
      · rfl
      · obtain ⟨p, _, rfl⟩ := List.mem_map.1 hth
        rfl
    rw [hl] at this
    exact this
  · intro t
    unfold Conns.step
    cases t with
    | zero => rfl
    | succ t =>
      simp only [List.getElem?_cons_succ, List.getElem?_map]
      cases hp : others[t]? with
      | none => rfl
      | some p =>
        have := ho p (List.mem_of_getElem? hp)
        simp only [Option.map_some]
        cases p with
        | nil => rfl
        | cons a rest =>
          simp only [List.head?_cons, Option.some.injEq] at this
          subst this
          rfl

/-- Two threads and one connection; each stores an object of three parts. -/
example : ∃ s, life 2 (fun _ => .confirmed "t".toList) [.write 0 [1, 2, 3, 4, 5], .flush] (Sink.new [0, 0]) = some (s, 0) ∧
    ∀ ts c, (Conns.start 1 [s.log, s.log]).run ts = some c → (∀ th ∈ c.threads, th.todo = []) → c.free = [0] := by
  refine ⟨⟨[5, 4], 0, 5, some ⟨"t".toList, [(1, "t".toList), (2, "t".toList), (3, "t".toList)]⟩, 5, _⟩, rfl, ?_⟩
  intro ts c h hd
  have hl : life 2 (fun _ => .confirmed "t".toList) [.write 0 [1, 2, 3, 4, 5], .flush] (Sink.new [0, 0]) = some (_, 0) := rfl
  have hrs := RunsSinks.sink hl .nil
  rw [List.append_nil] at hrs
  have := (connections_return_partial (by decide) (by
    intro p hp
    simp only [List.mem_cons, List.not_mem_nil, or_false, or_self] at hp
    subst hp
    exact hrs) h).2.2 hd
  exact List.perm_singleton.1 this

end AZ.S3
