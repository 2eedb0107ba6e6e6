import Verif.Spec.Races
import Verif.Model.Writer

set_option linter.unusedSimpArgs false

/-! # C56-C60: reporting of background failures, and data races -/

namespace AZ.Reporting

variable {n : Nat} {calls : List (List (List Job))} {s s' : State}

/-- The job a worker runs. -/
def runs : Worker → Option Job
  | .running j => some j
  | _ => none

/-- The message a worker is about to report. -/
def owes : Worker → Option Text
  | .counted j => j.fails
  | _ => none

theorem filterMap_set {β : Type} (f : Worker → Option β) {l : List Worker} {w : Nat} {x y : Worker} (h : l[w]? = some x) :
    ((f y).toList ++ l.filterMap f).Perm ((f x).toList ++ (l.set w y).filterMap f) := by
  induction l generalizing w with
  | nil => simp at h
  | cons a l ih =>
    cases w with
    | zero =>
      simp only [List.getElem?_cons_zero, Option.some.injEq] at h
      subst h
      rw [List.set_cons_zero]
      cases hx : f a <;> cases hy : f y <;> simp [List.filterMap_cons, hx, hy]
      exact List.Perm.swap _ _ _
    | succ w =>
      rw [List.getElem?_cons_succ] at h
      rw [List.set_cons_succ]
      have := ih h
      cases ha : f a with
      | none => simpa [List.filterMap_cons, ha] using this
      | some v =>
        simp only [List.filterMap_cons, ha]
        exact (List.perm_middle.trans (this.cons v)).trans List.perm_middle.symm

theorem run_append (a b : List Step) (s : State) :
    run s (a ++ b) = (run s a).bind fun t => run t b := by
  induction a generalizing s with
  | nil => rfl
  | cons x xs ih =>
    simp only [List.cons_append, run]
    cases step s x with
    | none => rfl
    | some t => exact ih t

/-- Induction over schedules. -/
theorem reach_ind {P : State → Prop} (h0 : P (init n calls)) (hs : ∀ s x t, P s → step s x = some t → P t)
    (h : Reachable n calls s) : P s := by
  obtain ⟨ss, hr⟩ := h
  have : ∀ ss t, P t → run t ss = some s → P s := by
    intro ss
    induction ss with
    | nil => intro t ht hr; cases hr; exact ht
    | cons x xs ih =>
      intro t ht hr
      unfold run at hr
      split at hr
      · cases hr
      · rename_i t' ht'
        exact ih t' (hs _ _ _ ht ht') hr
  exact this ss _ h0 hr

/-- The jobs of the current batch that are not finished. -/
def active (s : State) : List Job := s.queue ++ s.workers.filterMap runs

def disjoint (j j' : Job) : Prop := ∀ x, x ∈ j.owns → x ∉ j'.owns

theorem disjoint_symm {j j' : Job} (h : disjoint j j') : disjoint j' j := fun x h1 h2 => h x h2 h1

/-- What holds of every reachable state. -/
structure Inv (n : Nat) (s : State) : Prop where
  workers : s.workers.length = n
  rest : match s.caller with
    | .outside => active s = []
    | .inside bs => active s = [] ∧ ∀ b ∈ bs, Separate b
    | .pushing todo bs => s.latch = (todo ++ active s).length ∧ (todo ++ active s).Pairwise disjoint ∧ ∀ b ∈ bs, Separate b
  calls : ∀ c ∈ s.calls, ∀ b ∈ c, Separate b
  messages : s.failed.Perm (s.reported ++ s.workers.filterMap owes)
  error : s.error = s.reported.getLastD []

theorem getLastD_concat (l : List Text) (m : Text) : (l ++ [m]).getLastD [] = m := by simp

theorem inv_init (hw : ∀ c ∈ calls, ∀ b ∈ c, Separate b) : Inv n (init n calls) := by
  have e : ∀ {β : Type} (f : Worker → Option β), f .idle = none → (List.replicate n Worker.idle).filterMap f = [] := by
    intro β f hf
    rw [List.filterMap_eq_nil_iff]
    intro w hw
    rw [List.eq_of_mem_replicate hw]
    exact hf
  refine ⟨List.length_replicate, ?_, hw, ?_, rfl⟩
  · show [] ++ (List.replicate n Worker.idle).filterMap runs = []
    rw [e runs rfl]; rfl
  · show List.Perm [] ([] ++ (List.replicate n Worker.idle).filterMap owes)
    rw [e owes rfl]
    exact .nil

theorem inv_step {x : Step} (hi : Inv n s) (h : step s x = some s') : Inv n s' := by
  obtain ⟨h1, h2, h3, h4, h5⟩ := hi
  cases x with
  | call =>
    simp only [step] at h
    split at h
    · rename_i c cs hc hcs
      rw [hc] at h2
      have hcc : ∀ b ∈ c, Separate b := h3 c (by rw [hcs]; exact List.mem_cons_self)
      have hcr : ∀ c ∈ cs, ∀ b ∈ c, Separate b := fun c hm => h3 c (by rw [hcs]; exact List.mem_cons_of_mem _ hm)
      split at h
      · cases h
        exact ⟨h1, ⟨h2, hcc⟩, hcr, h4, h5⟩
      · cases h
        refine ⟨h1, ?_, hcr, h4, h5⟩
        dsimp only
        rw [hc]
        exact h2
    · cases h
  | batch =>
    simp only [step] at h
    split at h
    · rename_i b rest hc
      rw [hc] at h2
      cases h
      obtain ⟨k1, k2⟩ := h2
      have ha : active { s with caller := .pushing b rest, latch := b.length } = [] := k1
      refine ⟨h1, ?_, h3, h4, h5⟩
      dsimp only
      rw [ha, List.append_nil]
      exact ⟨rfl, k2 b List.mem_cons_self, fun b hb => k2 b (List.mem_cons_of_mem _ hb)⟩
    · cases h
  | push =>
    simp only [step] at h
    split at h
    · rename_i j js rest hc
      rw [hc] at h2
      cases h
      obtain ⟨k1, k2, k3⟩ := h2
      have ha : (js ++ active { s with caller := .pushing js rest, queue := s.queue ++ [j] }).Perm (j :: js ++ active s) := by
        unfold active
        dsimp only
        rw [List.append_assoc, List.singleton_append]
        refine (List.Perm.append_left js List.perm_middle).trans ?_
        exact List.perm_middle
      refine ⟨h1, ?_, h3, h4, h5⟩
      dsimp only
      exact ⟨by rw [k1]; exact ha.length_eq.symm, (ha.pairwise_iff disjoint_symm).2 k2, k3⟩
    · cases h
  | wait =>
    simp only [step] at h
    split at h
    · rename_i rest hc
      rw [hc] at h2
      split at h
      · rename_i hl
        cases h
        obtain ⟨k1, _, k3⟩ := h2
        refine ⟨h1, ⟨?_, k3⟩, h3, h4, h5⟩
        rw [hl] at k1
        show active s = []
        exact List.length_eq_zero_iff.1 (by simpa using k1.symm)
      · cases h
    · cases h
  | ret =>
    simp only [step] at h
    split at h
    · rename_i hc
      rw [hc] at h2
      cases h
      exact ⟨h1, h2.1, h3, h4, h5⟩
    · cases h
  | take w =>
    simp only [step] at h
    split at h
    · rename_i j q hw hq
      cases h
      have p1 := filterMap_set runs (y := .running j) hw
      have p2 := filterMap_set owes (y := .running j) hw
      simp only [runs, owes, Option.toList_none, Option.toList_some, List.nil_append, List.singleton_append] at p1 p2
      have ha : (active { s with queue := q, workers := s.workers.set w (.running j) }).Perm (active s) := by
        unfold active
        dsimp only
        rw [hq]
        refine (List.Perm.append_left q p1.symm).trans ?_
        exact List.perm_middle
      refine ⟨by rw [List.length_set]; exact h1, ?_, h3, h4.trans (p2.append_left _), h5⟩
      dsimp only
      cases hc : s.caller with
      | outside =>
        rw [hc] at h2
        rw [h2] at ha
        exact ha.eq_nil
      | inside bs =>
        rw [hc] at h2
        obtain ⟨k1, k2⟩ := h2
        rw [k1] at ha
        exact ⟨ha.eq_nil, k2⟩
      | pushing todo bs =>
        rw [hc] at h2
        obtain ⟨k1, k2, k3⟩ := h2
        have ha' := ha.append_left todo
        exact ⟨by rw [k1]; exact ha'.length_eq.symm, (ha'.pairwise_iff disjoint_symm).2 k2, k3⟩
    · cases h
  | count w =>
    simp only [step] at h
    split at h
    · rename_i j hw
      cases h
      have p1 := filterMap_set runs (y := .counted j) hw
      have p2 := filterMap_set owes (y := .counted j) hw
      simp only [runs, owes, Option.toList_none, Option.toList_some, List.nil_append, List.singleton_append] at p1 p2
      have ha : (active s).Perm (j :: (s.queue ++ (s.workers.set w (.counted j)).filterMap runs)) := by
        unfold active
        exact (List.Perm.append_left s.queue p1).trans List.perm_middle
      refine ⟨by rw [List.length_set]; exact h1, ?_, h3, ?_, h5⟩
      · dsimp only
        cases hc : s.caller with
        | outside =>
          rw [hc] at h2
          rw [h2] at ha
          have := ha.length_eq
          simp at this
        | inside bs =>
          rw [hc] at h2
          rw [h2.1] at ha
          have := ha.length_eq
          simp at this
        | pushing todo bs =>
          rw [hc] at h2
          obtain ⟨k1, k2, k3⟩ := h2
          have hp : (todo ++ active s).Perm (j :: (todo ++ (s.queue ++ (s.workers.set w (.counted j)).filterMap runs))) :=
            (ha.append_left todo).trans List.perm_middle
          have hl := hp.length_eq
          rw [List.length_cons] at hl
          have hpw := (hp.pairwise_iff disjoint_symm).1 k2
          refine ⟨?_, (List.pairwise_cons.1 hpw).2, k3⟩
          rw [k1, hl]
          rfl
      · dsimp only
        refine (h4.append_right _).trans ?_
        rw [List.append_assoc]
        refine List.Perm.append_left _ ?_
        exact List.perm_append_comm.trans p2
    · cases h
  | report w =>
    simp only [step] at h
    split at h
    · rename_i j hw
      have p1 := filterMap_set runs (y := .idle) hw
      have p2 := filterMap_set owes (y := .idle) hw
      simp only [runs, owes, Option.toList_none, List.nil_append] at p1 p2
      have main : ∀ t : State, t.queue = s.queue → t.workers = s.workers.set w .idle → t.caller = s.caller →
          t.latch = s.latch → match t.caller with
            | .outside => active t = []
            | .inside bs => active t = [] ∧ ∀ b ∈ bs, Separate b
            | .pushing todo bs => t.latch = (todo ++ active t).length ∧ (todo ++ active t).Pairwise disjoint ∧
                ∀ b ∈ bs, Separate b := by
        intro t t1 t2 t3 t4
        have ha : (active t).Perm (active s) := by
          unfold active
          rw [t1, t2]
          exact p1.symm.append_left _
        rw [t3, t4]
        cases hc : s.caller with
        | outside =>
          rw [hc] at h2
          rw [h2] at ha
          exact ha.eq_nil
        | inside bs =>
          rw [hc] at h2
          obtain ⟨k1, k2⟩ := h2
          rw [k1] at ha
          exact ⟨ha.eq_nil, k2⟩
        | pushing todo bs =>
          rw [hc] at h2
          obtain ⟨k1, k2, k3⟩ := h2
          have ha' := ha.append_left todo
          exact ⟨by rw [k1]; exact ha'.length_eq.symm, (ha'.pairwise_iff disjoint_symm).2 k2, k3⟩
      split at h
      · rename_i hf
        cases h
        rw [hf] at p2
        exact ⟨by rw [List.length_set]; exact h1, main _ rfl rfl rfl rfl, h3, h4.trans (p2.append_left _), h5⟩
      · rename_i m hf
        cases h
        rw [hf] at p2
        refine ⟨by rw [List.length_set]; exact h1, main _ rfl rfl rfl rfl, h3, ?_, ?_⟩
        · dsimp only
          rw [List.append_assoc]
          exact h4.trans (p2.append_left _)
        · dsimp only
          rw [getLastD_concat]
    · cases h

theorem inv (hw : ∀ c ∈ calls, ∀ b ∈ c, Separate b) (h : Reachable n calls s) : Inv n s :=
  reach_ind (inv_init hw) (fun _ _ _ hi hst => inv_step hi hst) h

/-! ### C57: chunk buffers -/

/-- **C57.** If no two jobs of the same batch use the same chunk buffer, then in no reachable state, whatever the schedule
and the number of workers, may two threads access the same chunk buffer. -/
theorem buffers_race_free (hw : ∀ c ∈ calls, ∀ b ∈ c, Separate b) (h : Reachable n calls s) : ¬ BufferRace s := by
  obtain ⟨_, h2, _, _, _⟩ := inv hw h
  have run_mem : ∀ {w : Nat} {j : Job}, s.workers[w]? = some (.running j) → j ∈ active s := by
    intro w j hj
    unfold active
    exact List.mem_append_right _ (List.mem_filterMap.2 ⟨_, List.mem_of_getElem? hj, rfl⟩)
  have pair : ∀ {w w' : Nat} {j j' : Job}, (s.workers.filterMap runs).Pairwise disjoint → w ≠ w' →
      s.workers[w]? = some (.running j) → s.workers[w']? = some (.running j') → disjoint j j' := by
    intro w w' j j' hp hne hj hj'
    rw [List.pairwise_filterMap, List.pairwise_iff_getElem] at hp
    obtain ⟨l1, e1⟩ := List.getElem?_eq_some_iff.1 hj
    obtain ⟨l2, e2⟩ := List.getElem?_eq_some_iff.1 hj'
    rcases Nat.lt_or_gt_of_ne hne with hlt | hlt
    · exact hp w w' l1 l2 hlt j (by rw [e1]; rfl) j' (by rw [e2]; rfl)
    · exact disjoint_symm (hp w' w l2 l1 hlt j' (by rw [e2]; rfl) j (by rw [e1]; rfl))
  have cw : ∀ {w b : Nat}, MayTouch s .caller b → MayTouch s (.worker w) b → False := by
    rintro w b hc ⟨j, hj, hb⟩
    unfold MayTouch at hc
    have hm := run_mem hj
    cases hcl : s.caller with
    | outside => rw [hcl] at hc; exact hc
    | inside bs =>
      rw [hcl] at h2
      rw [h2.1] at hm
      simp at hm
    | pushing todo bs =>
      rw [hcl] at h2 hc
      cases todo with
      | nil => exact hc
      | cons i is =>
        have := (List.pairwise_cons.1 h2.2.1).1 j (List.mem_append_right _ hm)
        exact this b hc hb
  rintro ⟨t, t', b, hne, ht, ht'⟩
  cases t with
  | caller =>
    cases t' with
    | caller => exact hne rfl
    | worker w' => exact cw ht ht'
  | worker w =>
    cases t' with
    | caller => exact cw ht' ht
    | worker w' =>
      obtain ⟨j, hj, hb⟩ := ht
      obtain ⟨j', hj', hb'⟩ := ht'
      have hw' : w ≠ w' := fun e => hne (by rw [e])
      have hm := run_mem hj
      cases hcl : s.caller with
      | outside =>
        rw [hcl] at h2
        rw [h2] at hm
        simp at hm
      | inside bs =>
        rw [hcl] at h2
        rw [h2.1] at hm
        simp at hm
      | pushing todo bs =>
        rw [hcl] at h2
        have hp := h2.2.1
        unfold active at hp
        have hp' := (List.pairwise_append.1 (List.pairwise_append.1 hp).2.1).2.1
        exact pair hp' hw' hj hj' b hb hb'

/-- The jobs of `compress_buffers_` and of the version 2 flush: one per buffer. -/
def perBuffer (count : Nat) (fails : Nat → Option Text) : List Job :=
  (List.range count).map fun i => ⟨[i], fails i⟩

/-- The jobs of the version 3 flush: one per shard, with the chunks of that shard. -/
def perShard (D : ArrayDims) (count : Nat) (fails : Nat → Option Text) : List Job :=
  (List.range D.numberOfShards).map fun i => ⟨chunksInShard D count i, fails i⟩

/-- The batches the library creates satisfy the hypothesis of `buffers_race_free`. -/
theorem batches_separate (D : ArrayDims) (count : Nat) (fails : Nat → Option Text) :
    Separate (perBuffer count fails) ∧ Separate (perShard D count fails) := by
  constructor
  · unfold Separate perBuffer
    rw [List.pairwise_map]
    refine List.Pairwise.imp ?_ (List.nodup_range (n := count))
    intro a b hne x hx hx'
    simp only [List.mem_singleton] at hx hx'
    exact hne (hx.symm.trans hx')
  · unfold Separate perShard
    rw [List.pairwise_map]
    refine List.Pairwise.imp ?_ (List.nodup_range (n := D.numberOfShards))
    intro a b hne x hx hx'
    unfold chunksInShard at hx hx'
    simp only [List.mem_filter, beq_iff_eq, decide_eq_true_eq] at hx hx'
    exact hne (hx.2.symm.trans hx'.2)

/-- Non-vacuity: four buffers; a state in which two workers run jobs and the caller is about to push the last one. -/
example : ∃ s, Reachable 2 [[perBuffer 4 fun _ => none]] s ∧ s.workers = [.running ⟨[0], none⟩, .running ⟨[1], none⟩] ∧
    s.caller = .pushing [⟨[3], none⟩] [] :=
  ⟨_, ⟨[.call, .batch, .push, .push, .take 0, .push, .take 1], rfl⟩, rfl, rfl⟩

/-! ### C56: reporting -/

/-- What holds of the error state in every reachable state. -/
structure Messages (n : Nat) (s : State) : Prop where
  workers : s.workers.length = n
  messages : s.failed.Perm (s.reported ++ s.workers.filterMap owes)
  error : s.error = s.reported.getLastD []
  refused : false ∈ s.results → s.reported ≠ []
  sticky : [] ∉ s.failed → false ∈ s.results → s.caller = .outside
  order : [] ∉ s.failed → s.results.Pairwise fun a b => a = false → b = false

theorem messages_init : Messages n (init n calls) := by
  have e : (List.replicate n Worker.idle).filterMap owes = [] := by
    rw [List.filterMap_eq_nil_iff]
    intro w hw
    rw [List.eq_of_mem_replicate hw]
    rfl
  refine ⟨List.length_replicate, ?_, rfl, ?_, ?_, ?_⟩
  · show List.Perm [] ([] ++ (List.replicate n Worker.idle).filterMap owes)
    rw [e]
    exact .nil
  · intro h; exact absurd h (by simp [init])
  · intro _ h; exact absurd h (by simp [init])
  · intro _; exact List.Pairwise.nil

theorem Messages.error_ne (h : Messages n s) (hm : [] ∉ s.failed) (hr : s.reported ≠ []) : s.error ≠ [] := by
  intro he
  rw [h.error] at he
  apply hm
  rw [h.messages.mem_iff]
  refine List.mem_append_left _ ?_
  obtain ⟨l, m, hl⟩ := List.eq_nil_or_concat s.reported |>.resolve_left hr
  rw [hl, List.concat_eq_append, getLastD_concat] at he
  rw [hl, he]
  simp

theorem pairwise_false {l : List Bool} (h : l.Pairwise fun a b => a = false → b = false) :
    (l ++ [false]).Pairwise fun a b => a = false → b = false := by
  rw [List.pairwise_append]
  exact ⟨h, List.pairwise_singleton _ _, fun a _ b hb _ => List.mem_singleton.1 hb⟩

theorem pairwise_true {l : List Bool} (h : false ∉ l) :
    (l ++ [true]).Pairwise fun a b => a = false → b = false := by
  have hl : ∀ a ∈ l, a = true := fun a ha => by
    cases a with
    | false => exact absurd ha h
    | true => rfl
  rw [List.pairwise_append]
  refine ⟨?_, List.pairwise_singleton _ _, fun a ha b _ he => ?_⟩
  · exact List.pairwise_of_forall_mem_list fun a ha b _ he => absurd (hl a ha) (by rw [he]; exact Bool.false_ne_true)
  · rw [hl a ha] at he; cases he

theorem messages_step {x : Step} (hi : Messages n s) (h : step s x = some s') : Messages n s' := by
  have hne := hi.error_ne
  obtain ⟨h1, h2, h3, h4, h5, h6⟩ := hi
  cases x with
  | call =>
    simp only [step] at h
    split at h
    · rename_i c cs hc hcs
      split at h
      · rename_i he
        cases h
        refine ⟨h1, h2, h3, h4, fun hm hf => ?_, h6⟩
        exact absurd (List.isEmpty_iff.1 he) (hne hm (h4 hf))
      · rename_i he
        cases h
        refine ⟨h1, h2, h3, fun _ hr => ?_, fun _ _ => hc, fun hm => pairwise_false (h6 hm)⟩
        apply he
        have hr : s.reported = [] := hr
        rw [h3, hr]
        rfl
    · cases h
  | batch =>
    simp only [step] at h
    split at h
    · rename_i b rest hc
      cases h
      refine ⟨h1, h2, h3, h4, fun hm hf => ?_, h6⟩
      rw [h5 hm hf] at hc; cases hc
    · cases h
  | push =>
    simp only [step] at h
    split at h
    · rename_i b rest hc
      cases h
      refine ⟨h1, h2, h3, h4, fun hm hf => ?_, h6⟩
      rw [h5 hm hf] at hc; cases hc
    · cases h
  | wait =>
    simp only [step] at h
    split at h
    · rename_i rest hc
      split at h
      · cases h
        refine ⟨h1, h2, h3, h4, fun hm hf => ?_, h6⟩
        rw [h5 hm hf] at hc; cases hc
      · cases h
    · cases h
  | ret =>
    simp only [step] at h
    split at h
    · rename_i hc
      cases h
      refine ⟨h1, h2, h3, fun hf => h4 ?_, fun _ _ => rfl, fun hm => pairwise_true fun hf => ?_⟩
      · simpa using hf
      · rw [h5 hm hf] at hc; cases hc
    · cases h
  | take w =>
    simp only [step] at h
    split at h
    · rename_i j q hw hq
      cases h
      have p2 := filterMap_set owes (y := .running j) hw
      simp only [owes, Option.toList_none, List.nil_append] at p2
      exact ⟨by rw [List.length_set]; exact h1, h2.trans (p2.append_left _), h3, h4, h5, h6⟩
    · cases h
  | count w =>
    simp only [step] at h
    split at h
    · rename_i j hw
      cases h
      have p2 := filterMap_set owes (y := .counted j) hw
      simp only [owes, Option.toList_none, List.nil_append] at p2
      have hsub : [] ∉ s.failed ++ j.fails.toList → [] ∉ s.failed := fun hm hf => hm (List.mem_append_left _ hf)
      refine ⟨by rw [List.length_set]; exact h1, ?_, h3, h4, fun hm => h5 (hsub hm), fun hm => h6 (hsub hm)⟩
      dsimp only
      refine (h2.append_right _).trans ?_
      rw [List.append_assoc]
      refine List.Perm.append_left _ ?_
      exact List.perm_append_comm.trans p2
    · cases h
  | report w =>
    simp only [step] at h
    split at h
    · rename_i j hw
      have p2 := filterMap_set owes (y := .idle) hw
      simp only [owes, Option.toList_none, List.nil_append] at p2
      split at h
      · rename_i hf
        cases h
        rw [hf] at p2
        exact ⟨by rw [List.length_set]; exact h1, h2.trans (p2.append_left _), h3, h4, h5, h6⟩
      · rename_i m hf
        cases h
        rw [hf] at p2
        refine ⟨by rw [List.length_set]; exact h1, ?_, ?_, fun _ => by simp, h5, h6⟩
        · dsimp only
          rw [List.append_assoc]
          exact h2.trans (p2.append_left _)
        · dsimp only
          rw [getLastD_concat]
    · cases h

theorem messages (h : Reachable n calls s) : Messages n s :=
  reach_ind messages_init (fun _ _ _ hi hst => messages_step hi hst) h

theorem call_refused (he : s.error ≠ []) (h : step s .call = some s') : s'.results = s.results ++ [false] := by
  simp only [step] at h
  split at h
  · split at h
    · rename_i hh
      exact absurd (List.isEmpty_iff.1 hh) he
    · cases h; rfl
  · cases h

/-- **C56 (part).** If some job has failed, every failure carried a message, and every error handler has finished, the next
call of append fails. What is missing: that the handlers have finished when append is called (`late_report_violated`). -/
theorem quiet_failure_reported_partial (h : Reachable n calls s) (hq : Quiet s) (hf : s.failed ≠ []) (hm : [] ∉ s.failed)
    (hc : step s .call = some s') : s'.results = s.results ++ [false] := by
  have hi := messages h
  refine call_refused (hi.error_ne hm fun hr => hf ?_) hc
  have e : s.workers.filterMap owes = [] := by
    rw [List.filterMap_eq_nil_iff]
    intro w hw
    rw [hq w hw]
    rfl
  have := hi.messages
  rw [hr, e] at this
  exact this.eq_nil

/-- **C56 (part).** At no time are there more unreported failures than workers: once more jobs have failed than the pool has
workers, every further call of append fails. -/
theorem many_failures_reported_partial (h : Reachable n calls s) (hf : n < s.failed.length) (hm : [] ∉ s.failed)
    (hc : step s .call = some s') : s'.results = s.results ++ [false] := by
  have hi := messages h
  refine call_refused (hi.error_ne hm fun hr => ?_) hc
  have hl := hi.messages.length_eq
  rw [hr, List.nil_append] at hl
  have := List.length_filterMap_le owes s.workers
  have := hi.workers
  omega

/-- **C56 (part).** No false alarm: a call of append is refused because of a pending error only if a job failed. -/
theorem refused_sound (h : Reachable n calls s) (hr : false ∈ s.results) : s.failed ≠ [] := by
  have hi := messages h
  intro hf
  have := hi.messages
  rw [hf] at this
  exact hi.refused hr (List.append_eq_nil_iff.1 this.symm.eq_nil).1

/-- One call of append during which the second worker runs one successful job. -/
def quietCall : List Step := [.call, .batch, .push, .take 1, .count 1, .wait, .report 1, .ret]

/-- The state in which a failed job of the first worker is still unreported after `k` accepted calls. -/
def stuck (m : Text) (k : Nat) (cs : List (List (List Job))) : State where
  calls := cs
  caller := .outside
  queue := []
  latch := 0
  workers := [.counted ⟨[0], some m⟩, .idle]
  error := []
  results := List.replicate k true
  failed := [m]
  reported := []

theorem stuck_step (m : Text) (k : Nat) (cs : List (List (List Job))) :
    run (stuck m k ([[⟨[0], none⟩]] :: cs)) quietCall = some (stuck m (k + 1) cs) := by
  simp only [quietCall, run, step, stuck, List.isEmpty_nil, if_true, List.nil_append, List.length_singleton, List.set,
    List.getElem?_cons_succ, List.getElem?_cons_zero, Option.toList_none, List.append_nil, Nat.sub_self, List.replicate_succ']

/-- **C56 (violated).** For every number `k` of calls there is a schedule with two workers in which the first job fails with
a message and the call that submitted it and `k` further calls of append, each of which runs a job of its own to completion, all
succeed. -/
theorem late_report_violated (m : Text) (k : Nat) :
    ∃ calls s, Reachable 2 calls s ∧ s.failed = [m] ∧ s.results = List.replicate (k + 1) true ∧ s.calls = [] := by
  have many : ∀ j i, ∃ ss, run (stuck m i (List.replicate j [[⟨[0], none⟩]])) ss = some (stuck m (i + j) []) := by
    intro j
    induction j with
    | zero => intro i; exact ⟨[], rfl⟩
    | succ j ih =>
      intro i
      obtain ⟨ss, hss⟩ := ih (i + 1)
      refine ⟨quietCall ++ ss, ?_⟩
      rw [run_append, List.replicate_succ, stuck_step, Option.bind_some, hss]
      congr 2
      omega
  obtain ⟨ss, hss⟩ := many k 1
  refine ⟨[[⟨[0], some m⟩]] :: List.replicate k [[⟨[0], none⟩]], stuck m (1 + k) [],
    ⟨[.call, .batch, .push, .take 0, .count 0, .wait, .ret] ++ ss, ?_⟩, rfl, ?_, rfl⟩
  · rw [run_append, ← hss]
    rfl
  · show List.replicate (1 + k) true = _
    rw [Nat.add_comm]

/-- A job that fails with the message `m`. -/
def failing (m : Text) : Job := ⟨[0], some m⟩

/-- The workers have run the jobs of `done` and not reported them; `todo` are still in the queue. -/
def held (cs : List (List (List Job))) (done todo : List Text) : State where
  calls := cs
  caller := .pushing [] []
  queue := todo.map failing
  latch := todo.length
  workers := done.map (fun m => .counted (failing m)) ++ todo.map fun _ => .idle
  error := []
  results := []
  failed := done
  reported := []

theorem held_run (cs : List (List (List Job))) (done todo : List Text) : ∃ ss, run (held cs done todo) ss = some (held cs (done ++ todo) []) := by
  induction todo generalizing done with
  | nil => exact ⟨[], by simp [run]⟩
  | cons m todo ih =>
    obtain ⟨ss, hss⟩ := ih (done ++ [m])
    refine ⟨.take done.length :: .count done.length :: ss, ?_⟩
    have e : done ++ [m] ++ todo = done ++ m :: todo := by simp
    rw [e] at hss
    rw [← hss]
    simp [run, step, held, failing, List.getElem?_append_right, List.set_append_right]

theorem push_run (cs : List (List (List Job))) (ws : List Worker) (l : Nat) (q js : List Job) : ∃ ss,
    run ⟨cs, .pushing js [], q, l, ws, [], [], [], []⟩ ss = some ⟨cs, .pushing [] [], q ++ js, l, ws, [], [], [], []⟩ := by
  induction js generalizing q with
  | nil => exact ⟨[], by simp [run]⟩
  | cons j js ih =>
    obtain ⟨ss, hss⟩ := ih (q ++ [j])
    refine ⟨.push :: ss, ?_⟩
    have e : q ++ [j] ++ js = q ++ j :: js := by simp
    rw [e] at hss
    rw [← hss]
    simp [run, step]

/-- **C56 (violated), exactly how often.** The bound of `many_failures_reported_partial` is the best possible: for every pool, all of its
workers can hold a failure each (with any messages) while any number of calls succeed. -/
theorem unreported_failures_violated (ms : List Text) (k : Nat) :
    ∃ calls s, Reachable ms.length calls s ∧ s.failed = ms ∧ s.results = List.replicate (k + 1) true ∧ s.calls = [] := by
  have idle : ∀ (k : Nat) (w : List Worker) (rs : List Bool), ∃ ss,
      run ⟨List.replicate k [], .outside, [], 0, w, [], rs, ms, []⟩ ss =
        some ⟨[], .outside, [], 0, w, [], rs ++ List.replicate k true, ms, []⟩ := by
    intro k w
    induction k with
    | zero => intro rs; exact ⟨[], by simp [run]⟩
    | succ k ih =>
      intro rs
      obtain ⟨ss, hss⟩ := ih (rs ++ [true])
      refine ⟨.call :: .ret :: ss, ?_⟩
      rw [List.append_assoc, List.singleton_append, ← List.replicate_succ] at hss
      rw [← hss]
      simp [run, step, List.replicate_succ]
  obtain ⟨s1, h1⟩ := push_run (List.replicate k []) (List.replicate ms.length .idle) ms.length [] (ms.map failing)
  obtain ⟨s2, h2⟩ := held_run (List.replicate k []) [] ms
  obtain ⟨s3, h3⟩ := idle k (ms.map fun m => .counted (failing m)) [true]
  refine ⟨[ms.map failing] :: List.replicate k [], ⟨[], .outside, [], 0, ms.map (fun m => .counted (failing m)), [], [true] ++ List.replicate k true, ms, []⟩,
    ⟨[.call, .batch] ++ (s1 ++ (s2 ++ ([.wait, .ret] ++ s3))), ?_⟩, rfl, ?_, rfl⟩
  · rw [run_append]
    have e : run (init ms.length ([ms.map failing] :: List.replicate k [])) [.call, .batch] =
        some ⟨List.replicate k [], .pushing (ms.map failing) [], [], ms.length, List.replicate ms.length .idle, [], [], [], []⟩ := by
      simp [run, step, init]
    rw [e, Option.bind_some, run_append, h1, Option.bind_some, run_append]
    have e2 : (⟨List.replicate k [], .pushing [] [], [] ++ ms.map failing, ms.length, List.replicate ms.length .idle, [], [], [], []⟩ : State) =
        held (List.replicate k []) [] ms := by
      simp [held, List.map_const']
    rw [e2, h2, Option.bind_some, run_append]
    have e3 : run (held (List.replicate k []) ([] ++ ms) []) [.wait, .ret] =
        some ⟨List.replicate k [], .outside, [], 0, ms.map (fun m => .counted (failing m)), [], [true], ms, []⟩ := by
      simp [run, step, held]
    rw [e3, Option.bind_some, h3]
  · dsimp only
    rw [List.singleton_append, ← List.replicate_succ]

/-- Non-vacuity of `quiet_failure_reported_partial` and `many_failures_reported_partial`: two failures with one worker. -/
example : ∃ s s', Reachable 1 [[[⟨[0], some ['x']⟩, ⟨[1], some ['y']⟩]], []] s ∧ Quiet s ∧ s.failed = [['x'], ['y']] ∧
    s.results = [true] ∧ step s .call = some s' ∧ s'.results = [true, false] :=
  ⟨_, _, ⟨[.call, .batch, .push, .push, .take 0, .count 0, .report 0, .take 0, .count 0, .wait, .report 0, .ret], rfl⟩,
    by unfold Quiet; decide, rfl, rfl, rfl, rfl⟩

/-! ### C58: the error message itself -/

/-- **C58 (part).** As long as no job has failed, no two threads may access the error message at the same time. -/
theorem error_race_free_partial (h : Reachable n calls s) (hf : s.failed = []) : ¬ ErrorRace s := by
  have hi := messages h
  have hw : ∀ w, ¬ WritesError s w := by
    rintro w ⟨j, m, hj, hm⟩
    have : m ∈ s.failed := by
      rw [hi.messages.mem_iff]
      exact List.mem_append_right _ (List.mem_filterMap.2 ⟨_, List.mem_of_getElem? hj, hm⟩)
    rw [hf] at this
    simp at this
  rintro (⟨_, w, h⟩ | ⟨w, _, _, h, _⟩)
  · exact hw w h
  · exact hw w h

/-- **C58 (violated).** With a single worker and a single failing job, the worker may assign the error message while the next
call of append reads it; with two workers and two failing jobs both workers may assign it at once. -/
theorem error_race_violated :
    (∃ calls s, Reachable 1 calls s ∧ ReadsError s ∧ WritesError s 0) ∧
    ∃ calls s, Reachable 2 calls s ∧ WritesError s 0 ∧ WritesError s 1 := by
  refine ⟨⟨[[[⟨[0], some ['x']⟩]], []], _, ⟨[.call, .batch, .push, .take 0, .count 0, .wait, .ret], rfl⟩, ⟨rfl, ?_⟩,
    ⟨⟨[0], some ['x']⟩, ['x'], rfl, rfl⟩⟩,
    ⟨[[[⟨[0], some ['x']⟩, ⟨[1], some ['y']⟩]]], _, ⟨[.call, .batch, .push, .push, .take 0, .take 1, .count 0, .count 1], rfl⟩,
      ⟨⟨[0], some ['x']⟩, ['x'], rfl, rfl⟩, ⟨⟨[1], some ['y']⟩, ['y'], rfl, rfl⟩⟩⟩
  intro h
  cases h

/-! ### C59: a broken stream stays broken -/

/-- **C59 (part).** If no job has failed with an empty message, then after a refused call every later call is refused, too. -/
theorem refused_forever_partial (h : Reachable n calls s) (hm : [] ∉ s.failed) {i k : Nat} (hik : i < k)
    (hi : s.results[i]? = some false) : s.results[k]? ≠ some true := by
  intro hk
  have hp := (messages h).order hm
  rw [List.pairwise_iff_getElem] at hp
  obtain ⟨l1, e1⟩ := List.getElem?_eq_some_iff.1 hi
  obtain ⟨l2, e2⟩ := List.getElem?_eq_some_iff.1 hk
  have := hp i k l1 l2 hik e1
  rw [e2] at this
  cases this

/-- **C59 (violated).** A second failure, with an empty message, makes a refused stream accept data again. -/
theorem refused_then_accepted_violated :
    ∃ calls s, Reachable 2 calls s ∧ s.failed = [['x'], []] ∧ s.results = [true, false, true] :=
  ⟨[[[⟨[0], some ['x']⟩, ⟨[1], some []⟩]], [], []], _,
    ⟨[.call, .batch, .push, .push, .take 0, .take 1, .count 0, .count 1, .wait, .ret, .report 0, .call, .report 1, .call, .ret],
      rfl⟩, rfl, rfl⟩

/-- Non-vacuity of `refused_forever_partial`. -/
example : ∃ s, Reachable 1 [[[⟨[0], some ['x']⟩]], [], []] s ∧ [] ∉ s.failed ∧ s.results = [true, false, false] :=
  ⟨_, ⟨[.call, .batch, .push, .take 0, .count 0, .wait, .report 0, .ret, .call, .call], rfl⟩, by decide, rfl⟩

/-! ### C60: append returns -/

/-- Steps of a batch: start, wait, and push, take, count, report of each job. -/
def batchCost (b : List Job) : Nat := 2 + 4 * b.length
/-- Steps of a call after its start: the batches and the return. -/
def callCost (bs : List (List Job)) : Nat := 1 + (bs.map batchCost).sum

/-- Steps left to a worker. -/
def workerCost : Worker → Nat
  | .idle => 0
  | .running _ => 2
  | .counted _ => 1

/-- Steps left to the current call, those of the queued jobs aside. -/
def callerCost : Caller → Nat
  | .outside => 0
  | .inside bs => callCost bs
  | .pushing todo bs => 1 + 4 * todo.length + callCost bs

/-- The number of steps the program still makes at most. -/
def cost (s : State) : Nat :=
  (s.calls.map fun c => 1 + callCost c).sum + callerCost s.caller + 3 * s.queue.length + (s.workers.map workerCost).sum

theorem sum_set {l : List Worker} {w : Nat} {x y : Worker} (h : l[w]? = some x) :
    ((l.set w y).map workerCost).sum + workerCost x = (l.map workerCost).sum + workerCost y := by
  induction l generalizing w with
  | nil => simp at h
  | cons a l ih =>
    cases w with
    | zero =>
      simp only [List.getElem?_cons_zero, Option.some.injEq] at h
      subst h
      simp only [List.set_cons_zero, List.map_cons, List.sum_cons]
      omega
    | succ w =>
      rw [List.getElem?_cons_succ] at h
      have := ih h
      simp only [List.set_cons_succ, List.map_cons, List.sum_cons]
      omega

theorem cost_step {x : Step} (h : step s x = some s') : cost s' + 1 ≤ cost s := by
  cases x with
  | call =>
    simp only [step] at h
    split at h
    · rename_i c cs hc hcs
      split at h <;> cases h <;> simp only [cost, hc, hcs, callerCost, List.map_cons, List.sum_cons] <;> omega
    · cases h
  | batch =>
    simp only [step] at h
    split at h
    · rename_i b rest hc
      cases h
      simp only [cost, hc, callerCost, callCost, batchCost, List.map_cons, List.sum_cons]
      omega
    · cases h
  | push =>
    simp only [step] at h
    split at h
    · rename_i j js rest hc
      cases h
      simp only [cost, hc, callerCost, List.length_cons, List.length_append, List.length_nil]
      omega
    · cases h
  | wait =>
    simp only [step] at h
    split at h
    · rename_i rest hc
      split at h
      · cases h
        simp only [cost, hc, callerCost, List.length_nil]
        omega
      · cases h
    · cases h
  | ret =>
    simp only [step] at h
    split at h
    · rename_i hc
      cases h
      simp only [cost, hc, callerCost, callCost, List.map_nil, List.sum_nil]
      omega
    · cases h
  | take w =>
    simp only [step] at h
    split at h
    · rename_i j q hw hq
      cases h
      have := sum_set (y := .running j) hw
      simp only [workerCost] at this
      simp only [cost, hq, List.length_cons]
      omega
    · cases h
  | count w =>
    simp only [step] at h
    split at h
    · rename_i j hw
      cases h
      have := sum_set (y := .counted j) hw
      simp only [workerCost] at this
      simp only [cost]
      omega
    · cases h
  | report w =>
    simp only [step] at h
    split at h
    · rename_i j hw
      have := sum_set (y := .idle) hw
      simp only [workerCost] at this
      split at h <;> cases h <;> simp only [cost] <;> omega
    · cases h

/-- **C60 (part 1).** Every schedule is finite: its length is bounded by a number that depends on the calls alone. -/
theorem schedules_bounded (n : Nat) (calls : List (List (List Job))) :
    ∃ N, ∀ ss s, run (init n calls) ss = some s → ss.length ≤ N := by
  refine ⟨cost (init n calls), ?_⟩
  have : ∀ ss t s, run t ss = some s → ss.length + cost s ≤ cost t := by
    intro ss
    induction ss with
    | nil => intro t s h; cases h; simp
    | cons x xs ih =>
      intro t s h
      unfold run at h
      split at h
      · cases h
      · rename_i t' ht'
        have := ih _ _ h
        have := cost_step ht'
        rw [List.length_cons]
        omega
  intro ss s h
  have := this ss _ _ h
  omega

theorem count_results (h : Reachable n calls s) :
    s.results.length + s.calls.length + (if s.caller = .outside then 0 else 1) = calls.length := by
  refine reach_ind (P := fun s => s.results.length + s.calls.length + (if s.caller = .outside then 0 else 1) = calls.length)
    (by simp [init]) ?_ h
  intro s x t hi ht
  cases x <;> simp only [step] at ht <;> split at ht <;> first
    | (cases ht; done)
    | skip
  · rename_i c cs hc hcs
    rw [hc, hcs] at hi
    split at ht <;> cases ht <;> simp_all <;> omega
  · rename_i hc
    rw [hc] at hi
    cases ht
    simpa using hi
  · rename_i hc
    rw [hc] at hi
    cases ht
    simpa using hi
  · rename_i hc
    rw [hc] at hi
    split at ht <;> cases ht
    simpa using hi
  · rename_i hc
    rw [hc] at hi
    cases ht
    simp at hi ⊢
    omega
  · cases ht; exact hi
  · cases ht; exact hi
  · split at ht <;> cases ht <;> exact hi

/-- **C60 (part 2).** No deadlock: with at least one worker, a state in which no thread can move is one in which every call
of append has returned and all workers are idle. -/
theorem no_deadlock (hn : 0 < n) (hw : ∀ c ∈ calls, ∀ b ∈ c, Separate b) (h : Reachable n calls s)
    (hstop : ∀ x, step s x = none) :
    s.results.length = calls.length ∧ s.calls = [] ∧ s.caller = .outside ∧ Quiet s ∧ s.queue = [] := by
  obtain ⟨h1, h2, _, _, _⟩ := inv hw h
  have hq : Quiet s := by
    intro w hw
    obtain ⟨i, hi⟩ := List.mem_iff_getElem?.1 hw
    cases w with
    | idle => rfl
    | running j => have := hstop (.count i); simp [step, hi] at this
    | counted j =>
      have := hstop (.report i)
      simp only [step, hi] at this
      split at this <;> cases this
  have hqueue : s.queue = [] := by
    cases hs : s.queue with
    | nil => rfl
    | cons j q =>
      have h0 : s.workers[0]? = some .idle := by
        have : s.workers ≠ [] := by intro e; rw [e] at h1; simp at h1; omega
        obtain ⟨w, ws, e⟩ := List.exists_cons_of_ne_nil this
        rw [e, List.getElem?_cons_zero, hq w (by rw [e]; exact List.mem_cons_self)]
      have := hstop (.take 0)
      simp [step, h0, hs] at this
  have hact : active s = [] := by
    unfold active
    rw [hqueue, List.nil_append, List.filterMap_eq_nil_iff]
    intro w hw
    rw [hq w hw]
    rfl
  have hcaller : s.caller = .outside := by
    cases hc : s.caller with
    | outside => rfl
    | inside bs =>
      cases bs with
      | nil => have := hstop .ret; simp [step, hc] at this
      | cons b bs => have := hstop .batch; simp [step, hc] at this
    | pushing todo bs =>
      cases todo with
      | nil =>
        rw [hc] at h2
        have hl := h2.1
        rw [hact] at hl
        have := hstop .wait
        simp only [step, hc] at this
        rw [if_pos (by simpa using hl)] at this
        cases this
      | cons j js => have := hstop .push; simp [step, hc] at this
  have hcalls : s.calls = [] := by
    cases hcs : s.calls with
    | nil => rfl
    | cons c cs =>
      have := hstop .call
      simp only [step, hcaller, hcs] at this
      split at this <;> cases this
  have := count_results h
  rw [hcaller, hcalls] at this
  exact ⟨by simpa using this, hcalls, hcaller, hq, hqueue⟩

/-- Non-vacuity: a finished run of two calls with two batches, one of them with a failing job, on one worker. -/
example : ∃ s, Reachable 1 [[perBuffer 2 fun _ => none, perBuffer 1 fun _ => some ['x']], []] s ∧ s.calls = [] ∧
    s.results = [true, false] :=
  ⟨_, ⟨[.call, .batch, .push, .push, .take 0, .count 0, .report 0, .take 0, .count 0, .wait, .batch, .report 0, .push, .take 0,
    .count 0, .wait, .report 0, .ret, .call], rfl⟩, rfl, rfl⟩

/-- Without workers the first batch never ends. -/
example : ∃ s, Reachable 0 [[perBuffer 1 fun _ => none]] s ∧ (∀ x, step s x = none) ∧ s.results = [] := by
  refine ⟨_, ⟨[.call, .batch, .push], rfl⟩, ?_, rfl⟩
  intro x
  cases x <;> rfl

end AZ.Reporting
