import Verif.Spec.LogLines

set_option linter.unusedSimpArgs false

/-! # Logging from several threads (C77, C78) -/

namespace AZ.Log

/-- A step at a time. -/
theorem run_ind {stamp : Nat → Text} {P : State → Prop} (hs : ∀ s x t, P s → step stamp s x = some t → P t) :
    ∀ (xs : List Step) (s s' : State), P s → run stamp s xs = some s' → P s' := by
  intro xs
  induction xs with
  | nil => intro s s' h0 h; simp only [run, Option.some.injEq] at h; exact h ▸ h0
  | cons x xs ih =>
    intro s s' h0 h
    simp only [run] at h
    split at h
    · cases h
    · next t ht => exact ih _ _ (hs _ _ _ h0 ht) h

theorem message_look (stamp : Nat → Text) (i t : Nat) (l : LogLevel) (x : Text) :
    message stamp t l x = Line.look stamp ⟨i, t, l, x⟩ := by
  have h1 : " ".toList = [' '] := by decide
  have h2 : "\n".toList = ['\n'] := by decide
  unfold message Line.look
  dsimp only
  rw [h1, h2, show tag l = levelName l by cases l <;> rfl]
  simp only [List.append_assoc, List.cons_append, List.nil_append]

theorem toErr_error (i t : Nat) (l : LogLevel) (x : Text) : toErr l = Line.error ⟨i, t, l, x⟩ := by
  cases l <;> rfl

/-- The level after a history. -/
def after (cur : LogLevel) : List (Nat × Act) → LogLevel
  | [] => cur
  | (_, .set l) :: h => after l h
  | (_, .log _ _) :: h => after cur h

theorem after_snoc (h : List (Nat × Act)) (x : Nat × Act) (cur : LogLevel) : after cur (h ++ [x]) = after (after cur h) [x] := by
  induction h generalizing cur with
  | nil => rfl
  | cons y h ih =>
    obtain ⟨i, a⟩ := y
    cases a with
    | log l t => exact ih cur
    | set l => exact ih l

theorem shown_snoc (h : List (Nat × Act)) (x : Nat × Act) (cur : LogLevel) :
    shown cur (h ++ [x]) = shown cur h ++ shown (after cur h) [x] := by
  induction h generalizing cur with
  | nil => rfl
  | cons y h ih =>
    obtain ⟨i, a⟩ := y
    cases a with
    | log l t =>
      simp only [List.cons_append, shown, after]
      split
      · rw [ih, List.cons_append]
      · exact ih cur
    | set l => exact ih l

section ofThread
variable {α : Type}

theorem ofThread_append (i : Nat) (a b : List (Nat × α)) : ofThread i (a ++ b) = ofThread i a ++ ofThread i b := by
  simp [ofThread]

theorem ofThread_same (i : Nat) (x : α) : ofThread i [(i, x)] = [x] := by simp [ofThread]

theorem ofThread_other {i j : Nat} (h : i ≠ j) (x : α) : ofThread i [(j, x)] = [] := by
  have : (j == i) = false := by simpa using fun h' => h h'.symm
  simp [ofThread, this]

end ofThread

/-- The messages that passed the level but are not yet formatted. -/
def pending : Phase → List (LogLevel × Text)
  | .passed l t => [(l, t)]
  | .locked l t => [(l, t)]
  | _ => []

def holds : Phase → Bool
  | .locked _ _ => true
  | .writing _ _ => true
  | _ => false

/-- What is left to be written to a stream by a thread in this phase. -/
def left (b : Bool) : Phase → Text
  | .writing b' r => if b' = b then r else []
  | _ => []

/-- What the owner has left to write. -/
def leftNow (b : Bool) (s : State) : Text :=
  match s.owner with
  | none => []
  | some i => match s.threads[i]? with
    | none => []
    | some th => left b th.phase

structure Inv (stamp : Nat → Text) (progs : List (List Act)) (L : LogLevel) (c : Nat) (o e : Text) (s : State)
    (hist : List (Nat × Act)) (lines : List Line) : Prop where
  len : s.threads.length = progs.length
  did : ∀ (i : Nat) (th : Thread), s.threads[i]? = some th → ofThread i hist ++ th.todo = progs.getD i []
  inr : ∀ x ∈ hist, x.1 < progs.length
  lev : s.level = after L hist
  own : ∀ (i : Nat) (th : Thread), s.threads[i]? = some th → (holds th.phase = true ↔ s.owner = some i)
  ownr : ∀ i, s.owner = some i → i < progs.length
  said : ∀ (i : Nat) (th : Thread), s.threads[i]? = some th → ofThread i (lines.map Line.key) ++ pending th.phase = ofThread i (shown L hist)
  linr : ∀ l ∈ lines, l.thread < progs.length
  outp : s.out ++ leftNow false s = o ++ page stamp (lines.filter fun l => !l.error)
  errp : s.err ++ leftNow true s = e ++ page stamp (lines.filter Line.error)
  tail : ∀ (i : Nat) (th : Thread) (b : Bool) (r : Text), s.threads[i]? = some th → th.phase = .writing b r →
    ∃ ls l, lines = ls ++ [l] ∧ l.error = b ∧ r <:+ l.look stamp
  time : lines.Pairwise fun a b => a.time ≤ b.time
  now : ∀ l ∈ lines, c ≤ l.time ∧ l.time ≤ s.clock
  clk : c ≤ s.clock

variable {stamp : Nat → Text} {progs : List (List Act)} {L : LogLevel} {c : Nat} {o e : Text}

theorem inv_start : Inv stamp progs L c o e (start progs L c o e) [] [] := by
  have hth : ∀ (i : Nat) (th : Thread), (start progs L c o e).threads[i]? = some th → ∃ p, progs[i]? = some p ∧ th = ⟨p, .ready⟩ := by
    intro i th h
    rw [start, List.getElem?_map, Option.map_eq_some_iff] at h
    obtain ⟨p, h1, h2⟩ := h
    exact ⟨p, h1, h2.symm⟩
  refine Inv.mk (by simp [start]) ?_ nofun rfl ?_ nofun ?_ nofun ?_ ?_ ?_ List.Pairwise.nil nofun (Nat.le_refl _)
  · intro i th h
    obtain ⟨p, h1, rfl⟩ := hth i th h
    simp [ofThread, List.getD, h1]
  · intro i th h
    obtain ⟨p, h1, rfl⟩ := hth i th h
    simp [holds, start]
  · intro i th h
    obtain ⟨p, h1, rfl⟩ := hth i th h
    simp [ofThread, pending, shown]
  · simp [start, leftNow, page]
  · simp [start, leftNow, page]
  · intro i th b r h hp
    obtain ⟨p, h1, rfl⟩ := hth i th h
    cases hp

theorem getElem?_set_cases {α : Type} {l : List α} {i j : Nat} {x y : α} (h : (l.set i x)[j]? = some y) :
    (j = i ∧ y = x) ∨ (j ≠ i ∧ l[j]? = some y) := by
  by_cases hij : j = i
  · subst hij
    by_cases hl : j < l.length
    · rw [List.getElem?_set_self hl] at h
      exact Or.inl ⟨rfl, (Option.some.inj h).symm⟩
    · rw [List.getElem?_eq_none (by simpa using hl)] at h
      cases h
  · rw [List.getElem?_set_ne (Ne.symm hij)] at h
    exact Or.inr ⟨hij, h⟩

theorem getElem?_set_same {α : Type} {l : List α} {i : Nat} {x y : α} (h : l[i]? = some y) : (l.set i x)[i]? = some x :=
  List.getElem?_set_self (List.getElem?_eq_some_iff.1 h).1

variable {s s' : State} {hist : List (Nat × Act)} {lines : List Line}

theorem Inv.lt (h : Inv stamp progs L c o e s hist lines) {i : Nat} {th : Thread} (hi : s.threads[i]? = some th) : i < progs.length :=
  h.len ▸ (List.getElem?_eq_some_iff.1 hi).1

/-- The owner is in a phase with the mutex: others are not affected by a change of a thread that is not the owner. -/
theorem leftNow_set {b : Bool} {th th' : Thread} {i : Nat} (hi : s.threads[i]? = some th) (hl : left b th'.phase = left b th.phase)
    (w : Option Nat) (hw : s.owner = w) {k : Nat} {ou er : Text} {lv : LogLevel} :
    leftNow b ⟨s.threads.set i th', lv, w, k, ou, er⟩ = leftNow b s := by
  unfold leftNow
  rw [hw]
  dsimp only
  cases w with
  | none => rfl
  | some j =>
    dsimp only
    by_cases hj : j = i
    · subst hj
      rw [getElem?_set_same hi, hi]
      exact hl
    · rw [List.getElem?_set_ne (Ne.symm hj)]

theorem inv_begin {i : Nat} (h : Inv stamp progs L c o e s hist lines) (hs : step stamp s (.begin i) = some s') :
    ∃ hist', Inv stamp progs L c o e s' hist' lines := by
  have key : ∀ a todo ph' lv', s.threads[i]? = some ⟨a :: todo, .ready⟩ → lv' = after s.level [(i, a)] →
      pending ph' = ofThread i (shown s.level [(i, a)]) → (∀ j, j ≠ i → ofThread j (shown s.level [(i, a)]) = []) →
      holds ph' = false → (∀ b, left b ph' = []) →
      Inv stamp progs L c o e ⟨s.threads.set i ⟨todo, ph'⟩, lv', s.owner, s.clock, s.out, s.err⟩ (hist ++ [(i, a)]) lines := by
    intro a todo ph' lv' hi hlv hpe hoth hho hle
    refine ⟨by simpa using h.len, ?_, ?_, ?_, ?_, h.ownr, ?_, h.linr, ?_, ?_, ?_, h.time, h.now, h.clk⟩
    · intro j th hj
      rcases getElem?_set_cases hj with ⟨rfl, rfl⟩ | ⟨hji, hj⟩
      · have := h.did _ _ hi
        rw [← this, ofThread_append, ofThread_same]
        simp
      · rw [ofThread_append, ofThread_other hji, List.append_nil]
        exact h.did j th hj
    · intro x hx
      rcases List.mem_append.1 hx with hx | hx
      · exact h.inr x hx
      · rw [List.mem_singleton.1 hx]; exact h.lt hi
    · rw [after_snoc, ← h.lev]; exact hlv
    · intro j th hj
      rcases getElem?_set_cases hj with ⟨rfl, rfl⟩ | ⟨hji, hj⟩
      · have := h.own _ _ hi
        dsimp only
        rw [hho]
        exact this
      · exact h.own j th hj
    · intro j th hj
      rw [shown_snoc, ← h.lev, ofThread_append]
      rcases getElem?_set_cases hj with ⟨rfl, rfl⟩ | ⟨hji, hj⟩
      · have := h.said _ _ hi
        simp only [pending, List.append_nil] at this
        rw [← this, hpe]
      · rw [hoth j hji, List.append_nil]
        exact h.said j th hj
    · rw [leftNow_set hi (hle false) _ rfl]; exact h.outp
    · rw [leftNow_set hi (hle true) _ rfl]; exact h.errp
    · intro j th b r hj hp
      rcases getElem?_set_cases hj with ⟨rfl, rfl⟩ | ⟨hji, hj⟩
      · have := hho; dsimp only at hp; rw [hp] at this; cases this
      · exact h.tail j th b r hj hp
  simp only [step] at hs
  split at hs
  · next l t todo hi =>
    split at hs
    · next hlt =>
      cases hs
      refine ⟨_, key _ _ .ready _ hi rfl ?_ ?_ rfl (fun _ => rfl)⟩
      · simp [shown, Nat.not_le.2 hlt, pending, ofThread]
      · intro j _; simp [shown, Nat.not_le.2 hlt, ofThread]
    · next hlt =>
      cases hs
      refine ⟨_, key _ _ (.passed l t) _ hi rfl ?_ ?_ rfl (fun _ => rfl)⟩
      · simp only [shown, Nat.not_lt.1 hlt, if_true, ofThread_same]
        rfl
      · intro j hj; simp only [shown, Nat.not_lt.1 hlt, if_true]; exact ofThread_other hj _
  · next l todo hi =>
    cases hs
    exact ⟨_, key _ _ .ready _ hi rfl rfl (fun _ _ => rfl) rfl (fun _ => rfl)⟩
  · cases hs

theorem inv_lock {i : Nat} (h : Inv stamp progs L c o e s hist lines) (hs : step stamp s (.lock i) = some s') :
    Inv stamp progs L c o e s' hist lines := by
  simp only [step] at hs
  split at hs
  · next todo l t hi ho =>
    cases hs
    have hn : ∀ b, leftNow b s = [] := by intro b; simp [leftNow, ho]
    have hn' : ∀ b, leftNow b ⟨s.threads.set i ⟨todo, .locked l t⟩, s.level, some i, s.clock, s.out, s.err⟩ = [] := by
      intro b; simp only [leftNow, getElem?_set_same hi]; rfl
    refine ⟨by simpa using h.len, ?_, h.inr, h.lev, ?_, ?_, ?_, h.linr, ?_, ?_, ?_, h.time, h.now, h.clk⟩
    · intro j th hj
      rcases getElem?_set_cases hj with ⟨rfl, rfl⟩ | ⟨hji, hj⟩
      · have := h.did _ _ hi; exact this
      · exact h.did j th hj
    · intro j th hj
      rcases getElem?_set_cases hj with ⟨rfl, rfl⟩ | ⟨hji, hj⟩
      · simp [holds]
      · have := h.own j th hj
        rw [ho] at this
        simp only [reduceCtorEq, iff_false, Bool.not_eq_true] at this
        simp [this, Ne.symm hji]
    · intro j hj; cases hj; exact h.lt hi
    · intro j th hj
      rcases getElem?_set_cases hj with ⟨rfl, rfl⟩ | ⟨hji, hj⟩
      · have := h.said _ _ hi; exact this
      · exact h.said j th hj
    · have := h.outp; rw [hn] at this; rw [hn']; exact this
    · have := h.errp; rw [hn] at this; rw [hn']; exact this
    · intro j th b r hj hp
      rcases getElem?_set_cases hj with ⟨rfl, rfl⟩ | ⟨hji, hj⟩
      · cases hp
      · exact h.tail j th b r hj hp
  · cases hs

theorem page_snoc (ls : List Line) (l : Line) : page stamp (ls ++ [l]) = page stamp ls ++ l.look stamp := by
  simp [page]

theorem inv_format {i : Nat} (h : Inv stamp progs L c o e s hist lines) (hs : step stamp s (.format i) = some s') :
    ∃ lines', Inv stamp progs L c o e s' hist lines' := by
  simp only [step] at hs
  split at hs
  · next todo l t hi =>
    cases hs
    have ho : s.owner = some i := (h.own _ _ hi).1 rfl
    have hn : ∀ b, leftNow b s = [] := by intro b; simp [leftNow, ho, hi, left]
    have hn' : ∀ b, leftNow b ⟨s.threads.set i ⟨todo, .writing (toErr l) (message stamp s.clock l t)⟩, s.level, s.owner, s.clock, s.out, s.err⟩ =
        if toErr l = b then message stamp s.clock l t else [] := by
      intro b; simp only [leftNow, ho, getElem?_set_same hi]; rfl
    refine ⟨lines ++ [⟨i, s.clock, l, t⟩], by simpa using h.len, ?_, h.inr, h.lev, ?_, h.ownr, ?_, ?_, ?_, ?_, ?_, ?_, ?_, h.clk⟩
    · intro j th hj
      rcases getElem?_set_cases hj with ⟨rfl, rfl⟩ | ⟨hji, hj⟩
      · have := h.did _ _ hi; exact this
      · exact h.did j th hj
    · intro j th hj
      rcases getElem?_set_cases hj with ⟨rfl, rfl⟩ | ⟨hji, hj⟩
      · have := h.own _ _ hi
        exact this
      · exact h.own j th hj
    · intro j th hj
      rw [List.map_append, ofThread_append]
      rcases getElem?_set_cases hj with ⟨rfl, rfl⟩ | ⟨hji, hj⟩
      · have := h.said _ _ hi
        rw [← this]
        simp only [List.map_cons, List.map_nil, Line.key, ofThread_same, pending, List.append_nil]
      · have := h.said j th hj
        simp only [List.map_cons, List.map_nil, Line.key]
        rw [ofThread_other hji, List.append_nil]
        exact this
    · intro x hx
      rcases List.mem_append.1 hx with hx | hx
      · exact h.linr x hx
      · rw [List.mem_singleton.1 hx]; exact h.lt hi
    · have := h.outp
      rw [hn, List.append_nil] at this
      rw [hn', List.filter_append]
      dsimp only
      rw [this]
      cases hb : toErr l
      · have hb' := hb; rw [toErr_error i s.clock l t] at hb'
        rw [List.filter_cons_of_pos (by simp [hb']), List.filter_nil, page_snoc, ← message_look]
        simp
      · have hb' := hb; rw [toErr_error i s.clock l t] at hb'
        rw [List.filter_cons_of_neg (by simp [hb']), List.filter_nil]
        simp
    · have := h.errp
      rw [hn, List.append_nil] at this
      rw [hn', List.filter_append]
      dsimp only
      rw [this]
      cases hb : toErr l
      · have hb' := hb; rw [toErr_error i s.clock l t] at hb'
        rw [List.filter_cons_of_neg (by simp [hb']), List.filter_nil]
        simp
      · have hb' := hb; rw [toErr_error i s.clock l t] at hb'
        rw [List.filter_cons_of_pos (by simp [hb']), List.filter_nil, page_snoc, ← message_look]
        simp
    · intro j th b r hj hp
      rcases getElem?_set_cases hj with ⟨rfl, rfl⟩ | ⟨hji, hj⟩
      · cases hp
        exact ⟨lines, _, rfl, (toErr_error _ _ _ _).symm, by rw [message_look stamp j]; exact List.suffix_refl _⟩
      · have := (h.own j th hj).1 (by rw [hp]; rfl)
        rw [ho] at this
        exact absurd (Option.some.inj this).symm hji
    · refine List.pairwise_append.2 ⟨h.time, List.pairwise_singleton _ _, ?_⟩
      intro a ha b hb
      rw [List.mem_singleton.1 hb]
      exact (h.now a ha).2
    · intro x hx
      rcases List.mem_append.1 hx with hx | hx
      · exact h.now x hx
      · rw [List.mem_singleton.1 hx]; exact ⟨h.clk, Nat.le_refl _⟩
  · cases hs

theorem inv_put {i : Nat} (h : Inv stamp progs L c o e s hist lines) (hs : step stamp s (.put i) = some s') :
    Inv stamp progs L c o e s' hist lines := by
  have key : ∀ todo b r r' ou er, s.threads[i]? = some ⟨todo, .writing b r⟩ → r' <:+ r → 
      ou ++ (if b = false then r' else []) = s.out ++ (if b = false then r else []) →
      er ++ (if b = true then r' else []) = s.err ++ (if b = true then r else []) →
      Inv stamp progs L c o e ⟨s.threads.set i ⟨todo, .writing b r'⟩, s.level, s.owner, s.clock, ou, er⟩ hist lines := by
    intro todo b r r' ou er hi hr hou her
    have ho : s.owner = some i := (h.own _ _ hi).1 rfl
    have hn : ∀ b', leftNow b' s = if b = b' then r else [] := by intro b'; simp [leftNow, ho, hi, left]
    have hn' : ∀ b', leftNow b' ⟨s.threads.set i ⟨todo, .writing b r'⟩, s.level, s.owner, s.clock, ou, er⟩ = if b = b' then r' else [] := by
      intro b'; simp only [leftNow, ho, getElem?_set_same hi]; rfl
    refine ⟨by simpa using h.len, ?_, h.inr, h.lev, ?_, h.ownr, ?_, h.linr, ?_, ?_, ?_, h.time, h.now, h.clk⟩
    · intro j th hj
      rcases getElem?_set_cases hj with ⟨rfl, rfl⟩ | ⟨hji, hj⟩
      · have := h.did _ _ hi; exact this
      · exact h.did j th hj
    · intro j th hj
      rcases getElem?_set_cases hj with ⟨rfl, rfl⟩ | ⟨hji, hj⟩
      · have := h.own _ _ hi; exact this
      · exact h.own j th hj
    · intro j th hj
      rcases getElem?_set_cases hj with ⟨rfl, rfl⟩ | ⟨hji, hj⟩
      · have := h.said _ _ hi; exact this
      · exact h.said j th hj
    · rw [hn']; have := h.outp; rw [hn] at this; rw [← this]; exact hou
    · rw [hn']; have := h.errp; rw [hn] at this; rw [← this]; exact her
    · intro j th b' r'' hj hp
      rcases getElem?_set_cases hj with ⟨rfl, rfl⟩ | ⟨hji, hj⟩
      · cases hp
        obtain ⟨ls, l, e1, e2, e3⟩ := h.tail _ _ _ _ hi rfl
        exact ⟨ls, l, e1, e2, hr.trans e3⟩
      · exact h.tail j th b' r'' hj hp
  simp only [step] at hs
  split at hs
  · next todo ch r hi =>
    cases hs
    exact key _ _ _ _ _ _ hi (List.suffix_cons _ _) (by simp) (by simp)
  · next todo ch r hi =>
    cases hs
    exact key _ _ _ _ _ _ hi (List.suffix_cons _ _) (by simp) (by simp)
  · cases hs

theorem inv_unlock {i : Nat} (h : Inv stamp progs L c o e s hist lines) (hs : step stamp s (.unlock i) = some s') :
    Inv stamp progs L c o e s' hist lines := by
  simp only [step] at hs
  split at hs
  · next todo b hi =>
    cases hs
    have ho : s.owner = some i := (h.own _ _ hi).1 rfl
    have hn : ∀ b', leftNow b' s = [] := by intro b'; simp [leftNow, ho, hi, left]
    have hn' : ∀ b', leftNow b' ⟨s.threads.set i ⟨todo, .ready⟩, s.level, none, s.clock, s.out, s.err⟩ = [] := fun _ => rfl
    refine ⟨by simpa using h.len, ?_, h.inr, h.lev, ?_, nofun, ?_, h.linr, ?_, ?_, ?_, h.time, h.now, h.clk⟩
    · intro j th hj
      rcases getElem?_set_cases hj with ⟨rfl, rfl⟩ | ⟨hji, hj⟩
      · have := h.did _ _ hi; exact this
      · exact h.did j th hj
    · intro j th hj
      rcases getElem?_set_cases hj with ⟨rfl, rfl⟩ | ⟨hji, hj⟩
      · simp [holds]
      · have := h.own j th hj
        rw [ho] at this
        simp only [Option.some.injEq, Ne.symm hji, iff_false, Bool.not_eq_true] at this
        simp [this]
    · intro j th hj
      rcases getElem?_set_cases hj with ⟨rfl, rfl⟩ | ⟨hji, hj⟩
      · have := h.said _ _ hi; exact this
      · exact h.said j th hj
    · have := h.outp; rw [hn] at this; rw [hn']; exact this
    · have := h.errp; rw [hn] at this; rw [hn']; exact this
    · intro j th b r hj hp
      rcases getElem?_set_cases hj with ⟨rfl, rfl⟩ | ⟨hji, hj⟩
      · cases hp
      · exact h.tail j th b r hj hp
  · cases hs

theorem inv_tick (h : Inv stamp progs L c o e s hist lines) (hs : step stamp s .tick = some s') :
    Inv stamp progs L c o e s' hist lines := by
  simp only [step, Option.some.injEq] at hs
  subst hs
  exact ⟨h.len, h.did, h.inr, h.lev, h.own, h.ownr, h.said, h.linr, h.outp, h.errp, h.tail, h.time,
    fun l hl => ⟨(h.now l hl).1, Nat.le_succ_of_le (h.now l hl).2⟩, Nat.le_succ_of_le h.clk⟩

theorem inv_run {xs : List Step} (hr : run stamp (start progs L c o e) xs = some s) :
    ∃ hist lines, Inv stamp progs L c o e s hist lines := by
  refine run_ind (P := fun s => ∃ hist lines, Inv stamp progs L c o e s hist lines) ?_ xs _ _ ⟨[], [], inv_start⟩ hr
  rintro s x t ⟨hist, lines, h⟩ hs
  cases x with
  | begin i => obtain ⟨hist', h'⟩ := inv_begin h hs; exact ⟨hist', lines, h'⟩
  | lock i => exact ⟨hist, lines, inv_lock h hs⟩
  | format i => obtain ⟨lines', h'⟩ := inv_format h hs; exact ⟨hist, lines', h'⟩
  | put i => exact ⟨hist, lines, inv_put h hs⟩
  | unlock i => exact ⟨hist, lines, inv_unlock h hs⟩
  | tick => exact ⟨hist, lines, inv_tick h hs⟩

theorem written_of (h : Inv stamp progs L c o e s hist lines) {b : Bool} {x y : Text}
    (hx : x ++ leftNow b s = y ++ page stamp (lines.filter fun l => l.error == b)) :
    Written stamp y x (lines.filter fun l => l.error == b) := by
  refine ⟨?_, ⟨_, hx⟩⟩
  by_cases hl : leftNow b s = []
  · rw [hl, List.append_nil] at hx
    rw [hx]
    refine (List.prefix_append_right_inj _).2 ?_
    generalize (lines.filter fun l => l.error == b) = ls
    rcases List.eq_nil_or_concat ls with rfl | ⟨l, a, rfl⟩
    · exact List.prefix_refl _
    · rw [List.concat_eq_append, List.dropLast_concat, page_snoc]
      exact List.prefix_append _ _
  · have hex : ∃ (i : Nat) (th : Thread) (r : Text), s.threads[i]? = some th ∧ th.phase = .writing b r ∧ leftNow b s = r := by
      cases ho : s.owner with
      | none => exact absurd (by simp [leftNow, ho]) hl
      | some i =>
        cases hi : s.threads[i]? with
        | none => exact absurd (by simp [leftNow, ho, hi]) hl
        | some th =>
          have he : leftNow b s = left b th.phase := by simp [leftNow, ho, hi]
          rw [he] at hl ⊢
          cases hp : th.phase with
          | ready => rw [hp] at hl; exact absurd rfl hl
          | passed l t => rw [hp] at hl; exact absurd rfl hl
          | locked l t => rw [hp] at hl; exact absurd rfl hl
          | writing b' r =>
            rw [hp] at hl
            by_cases hb : b' = b
            · subst hb
              exact ⟨i, th, r, hi, hp, by simp [left]⟩
            · exact absurd (by simp [left, hb]) hl
    obtain ⟨i, th, r, hi, hp, he⟩ := hex
    rw [he] at hx
    obtain ⟨ls, l, rfl, hb, r', hr⟩ := h.tail i th b r hi hp
    rw [List.filter_append, List.filter_cons_of_pos (by simp [hb]), List.filter_nil] at hx ⊢
    rw [List.dropLast_concat]
    rw [page_snoc, ← hr, ← List.append_assoc, ← List.append_assoc] at hx
    exact ⟨r', (List.append_cancel_right hx).symm⟩

/-- **C77, at any moment.** Threads that log and set levels in any order, under any schedule, down to single characters: what is on
standard output and standard error consists of whole lines, except perhaps the last one. There is an order of the calls, which
respects the order of each thread, such that every line is of a call at or above the level set by the last call before it; the lines
of each thread are in the order of its calls; the lines are in the order of their time stamps. When all threads are done, all lines
are complete and no message at or above the level of its moment is missing. -/
theorem log_whole_lines {xs : List Step} (hr : run stamp (start progs L c o e) xs = some s) :
    ∃ (hist : List (Nat × Act)) (lines : List Line),
      Written stamp o s.out (lines.filter fun l => !l.error) ∧ Written stamp e s.err (lines.filter fun l => l.error) ∧
      (∀ i, ofThread i hist <+: progs.getD i []) ∧
      (∀ i, ofThread i (lines.map Line.key) <+: ofThread i (shown L hist)) ∧
      (lines.Pairwise fun a b => a.time ≤ b.time) ∧ (∀ l ∈ lines, c ≤ l.time ∧ l.time ≤ s.clock) ∧
      (Done s → s.out = o ++ page stamp (lines.filter fun l => !l.error) ∧ s.err = e ++ page stamp (lines.filter fun l => l.error) ∧
        ∀ i, ofThread i hist = progs.getD i [] ∧ ofThread i (lines.map Line.key) = ofThread i (shown L hist)) := by
  obtain ⟨hist, lines, h⟩ := inv_run hr
  have f0 : (fun l : Line => !l.error) = fun l => l.error == false := by funext l; cases l.error <;> rfl
  have f1 : (fun l : Line => l.error) = fun l => l.error == true := by funext l; cases l.error <;> rfl
  have hout := h.outp
  have herr := h.errp
  rw [f0] at hout
  have f1' : Line.error = fun l => l.error == true := f1
  rw [f1'] at herr
  have hnone : ∀ {α : Type} (i : Nat) (l : List (Nat × α)), (∀ x ∈ l, x.1 < progs.length) → progs.length ≤ i → ofThread i l = [] := by
    intro α i l hl hi
    have : (l.filter fun x => x.1 == i) = [] := List.filter_eq_nil_iff.2 fun x hx => by have := hl x hx; simp; omega
    simp [ofThread, this]
  have hsh : ∀ x ∈ shown L hist, x.1 < progs.length := by
    have : ∀ (cur : LogLevel) (hs : List (Nat × Act)), (∀ x ∈ hs, x.1 < progs.length) → ∀ x ∈ shown cur hs, x.1 < progs.length := by
      intro cur hs
      induction hs generalizing cur with
      | nil => intro _ x hx; cases hx
      | cons y hs ih =>
        obtain ⟨i, a⟩ := y
        intro hy x hx
        cases a with
        | set l => exact ih l (fun z hz => hy z (List.mem_cons_of_mem _ hz)) x hx
        | log l t =>
          simp only [shown] at hx
          split at hx
          · rcases List.mem_cons.1 hx with rfl | hx
            · exact hy _ List.mem_cons_self
            · exact ih _ (fun z hz => hy z (List.mem_cons_of_mem _ hz)) x hx
          · exact ih _ (fun z hz => hy z (List.mem_cons_of_mem _ hz)) x hx
    exact this L hist h.inr
  have hkey : ∀ x ∈ lines.map Line.key, x.1 < progs.length := by
    intro x hx
    obtain ⟨l, hl, rfl⟩ := List.mem_map.1 hx
    exact h.linr l hl
  have both : ∀ i, (∃ th, s.threads[i]? = some th) ∨ progs.length ≤ i := by
    intro i
    by_cases hi : i < progs.length
    · exact Or.inl ⟨_, List.getElem?_eq_getElem (by rw [h.len]; exact hi)⟩
    · exact Or.inr (Nat.not_lt.1 hi)
  refine ⟨hist, lines, by rw [f0]; exact written_of h hout, by rw [f1]; exact written_of h herr, ?_, ?_, h.time, h.now, ?_⟩
  · intro i
    rcases both i with ⟨th, hi⟩ | hi
    · exact ⟨_, h.did i th hi⟩
    · rw [hnone i hist h.inr hi]; exact List.nil_prefix
  · intro i
    rcases both i with ⟨th, hi⟩ | hi
    · exact ⟨_, h.said i th hi⟩
    · rw [hnone i _ hkey hi]; exact List.nil_prefix
  · intro hd
    have hl : ∀ b, leftNow b s = [] := by
      intro b
      unfold leftNow
      split
      · rfl
      · split
        · rfl
        · next th hi => rw [hd th (List.mem_of_getElem? hi)]; rfl
    rw [hl, List.append_nil] at hout herr
    refine ⟨by rw [f0]; exact hout, by rw [f1]; exact herr, ?_⟩
    intro i
    rcases both i with ⟨th, hi⟩ | hi
    · have h1 := h.did i th hi
      have h2 := h.said i th hi
      rw [hd th (List.mem_of_getElem? hi)] at h1 h2
      simp only [pending, List.append_nil] at h1 h2
      exact ⟨h1, h2⟩
    · rw [hnone i hist h.inr hi, hnone i _ hkey hi, hnone i _ hsh hi]
      refine ⟨?_, rfl⟩
      simp [List.getD, List.getElem?_eq_none hi]

theorem shown_visible (hist : List (Nat × Act)) (h : ∀ x ∈ hist, ∀ l, x.2 ≠ .set l) (i : Nat) :
    ofThread i (shown L hist) = visible L (ofThread i hist) := by
  induction hist with
  | nil => rfl
  | cons y hist ih =>
    obtain ⟨j, a⟩ := y
    have ih := ih fun x hx => h x (List.mem_cons_of_mem _ hx)
    have hcons : ∀ {α : Type} (x : Nat × α) (l : List (Nat × α)), ofThread i (x :: l) = ofThread i [x] ++ ofThread i l := fun x l =>
      ofThread_append i [x] l
    cases a with
    | set l => exact absurd rfl (h _ List.mem_cons_self l)
    | log l t =>
      simp only [shown]
      rw [hcons]
      by_cases hij : i = j
      · subst hij
        rw [ofThread_same]
        simp only [List.cons_append, List.nil_append, visible]
        split
        · rw [hcons, ofThread_same, ih]; rfl
        · exact ih
      · rw [ofThread_other hij, List.nil_append]
        split
        · rw [hcons, ofThread_other hij, List.nil_append]; exact ih
        · exact ih

/-- **C77, complete.** If no thread changes the level, then when all are done the streams have got, as whole lines in the order of
their time stamps, exactly the messages at or above the level: of each thread all of them, once, in its order. -/
theorem log_complete (hno : ∀ p ∈ progs, ∀ l, Act.set l ∉ p) {xs : List Step} (hr : run stamp (start progs L c o e) xs = some s)
    (hd : Done s) :
    ∃ lines : List Line,
      s.out = o ++ page stamp (lines.filter fun l => !l.error) ∧ s.err = e ++ page stamp (lines.filter fun l => l.error) ∧
      (lines.Pairwise fun a b => a.time ≤ b.time) ∧ ∀ i, ofThread i (lines.map Line.key) = visible L (progs.getD i []) := by
  obtain ⟨hist, lines, _, _, _, _, ht, _, hf⟩ := log_whole_lines hr
  obtain ⟨h1, h2, h3⟩ := hf hd
  refine ⟨lines, h1, h2, ht, fun i => ?_⟩
  have hset : ∀ x ∈ hist, ∀ l, x.2 ≠ .set l := by
    rintro ⟨j, a⟩ hx l rfl
    have hm : Act.set l ∈ ofThread j hist :=
      List.mem_map.2 ⟨_, List.mem_filter.2 ⟨hx, by simp⟩, rfl⟩
    rw [(h3 j).1] at hm
    rw [List.getD] at hm
    cases hp : progs[j]? with
    | none => rw [hp] at hm; cases hm
    | some p =>
      rw [hp] at hm
      exact hno p (List.mem_of_getElem? hp) l hm
  rw [(h3 i).2, shown_visible hist hset, (h3 i).1]

/-- The number of steps a thread may still take, if a time stamp has at most `k` characters. -/
def costAct (k : Nat) : Act → Nat
  | .set _ => 1
  | .log _ t => 16 + k + t.length

def costPhase (k : Nat) : Phase → Nat
  | .ready => 0
  | .passed _ t => 15 + k + t.length
  | .locked _ t => 14 + k + t.length
  | .writing _ r => 1 + r.length

def costThread (k : Nat) (t : Thread) : Nat := (t.todo.map (costAct k)).sum + costPhase k t.phase

def cost (k : Nat) (s : State) : Nat := (s.threads.map (costThread k)).sum

theorem sum_set {l : List Thread} {i : Nat} {x y : Thread} (f : Thread → Nat) (h : l[i]? = some x) :
    ((l.set i y).map f).sum + f x = (l.map f).sum + f y := by
  induction l generalizing i with
  | nil => cases h
  | cons a l ih =>
    cases i with
    | zero => cases h; simp only [List.set_cons_zero, List.map_cons, List.sum_cons]; omega
    | succ i =>
      have := ih (i := i) h
      simp only [List.set_cons_succ, List.map_cons, List.sum_cons]
      omega

theorem message_length {k : Nat} (hk : ∀ t, (stamp t).length ≤ k) (t : Nat) (l : LogLevel) (x : Text) :
    (message stamp t l x).length ≤ 12 + k + x.length := by
  have h1 := hk t
  have h2 : (tag l).length ≤ 10 := by cases l <;> decide
  simp only [message, List.length_append, List.length_cons, List.length_nil]
  omega

theorem cost_step {k : Nat} (hk : ∀ t, (stamp t).length ≤ k) {x : Step} (hs : step stamp s x = some s') (hx : x ≠ .tick) :
    cost k s' < cost k s := by
  have key : ∀ (i : Nat) (th th' : Thread) lv w ou er, s.threads[i]? = some th → costThread k th' < costThread k th →
      cost k ⟨s.threads.set i th', lv, w, s.clock, ou, er⟩ < cost k s := by
    intro i th th' lv w ou er hi hlt
    have := sum_set (y := th') (costThread k) hi
    simp only [cost]
    omega
  cases x with
  | tick => exact absurd rfl hx
  | begin i =>
    simp only [step] at hs
    split at hs
    · next l t todo hi =>
      split at hs
      · cases hs
        refine key i _ _ _ _ _ _ hi ?_
        simp only [costThread, List.map_cons, List.sum_cons, costAct, costPhase]; omega
      · cases hs
        refine key i _ _ _ _ _ _ hi ?_
        simp only [costThread, List.map_cons, List.sum_cons, costAct, costPhase]; omega
    · next l todo hi =>
      cases hs
      refine key i _ _ _ _ _ _ hi ?_
      simp only [costThread, List.map_cons, List.sum_cons, costAct, costPhase]; omega
    · cases hs
  | lock i =>
    simp only [step] at hs
    split at hs
    · next todo l t hi ho =>
      cases hs
      refine key i _ _ _ _ _ _ hi ?_
      simp only [costThread, costPhase]; omega
    · cases hs
  | format i =>
    simp only [step] at hs
    split at hs
    · next todo l t hi =>
      cases hs
      refine key i _ _ _ _ _ _ hi ?_
      have := message_length hk s.clock l t
      simp only [costThread, costPhase]; omega
    · cases hs
  | put i =>
    simp only [step] at hs
    split at hs
    · next todo ch r hi =>
      cases hs
      refine key i _ _ _ _ _ _ hi ?_
      simp only [costThread, costPhase, List.length_cons]; omega
    · next todo ch r hi =>
      cases hs
      refine key i _ _ _ _ _ _ hi ?_
      simp only [costThread, costPhase, List.length_cons]; omega
    · cases hs
  | unlock i =>
    simp only [step] at hs
    split at hs
    · next todo b hi =>
      cases hs
      refine key i _ _ _ _ _ _ hi ?_
      simp only [costThread, costPhase, List.length_nil]; omega
    · cases hs

/-- **C77, finite.** Whatever the schedule, the threads take a bounded number of steps in the logger. -/
theorem log_finite {k : Nat} (hk : ∀ t, (stamp t).length ≤ k) {xs : List Step} (hr : run stamp s xs = some s') :
    (xs.filter fun x => x ≠ .tick).length ≤ cost k s := by
  induction xs generalizing s with
  | nil => exact Nat.zero_le _
  | cons x xs ih =>
    simp only [run] at hr
    split at hr
    · cases hr
    · next t ht =>
      have := ih hr
      by_cases hx : x = .tick
      · subst hx
        rw [List.filter_cons_of_neg (by simp)]
        simp only [step, Option.some.injEq] at ht
        subst ht
        exact this
      · rw [List.filter_cons_of_pos (by simpa using hx)]
        have := cost_step hk ht hx
        simp only [List.length_cons]
        omega

/-- **C77, no deadlock.** As long as some thread is not done, some thread can go on. -/
theorem log_progress {xs : List Step} (hr : run stamp (start progs L c o e) xs = some s) (hd : ¬ Done s) :
    ∃ x s', x ≠ Step.tick ∧ step stamp s x = some s' := by
  obtain ⟨hist, lines, h⟩ := inv_run hr
  have owner : ∀ i, s.owner = some i → ∃ x s', x ≠ Step.tick ∧ step stamp s x = some s' := by
    intro i ho
    have hi : i < s.threads.length := by rw [h.len]; exact h.ownr i ho
    have hi' := List.getElem?_eq_getElem hi
    have hh := (h.own i _ hi').2 ho
    generalize s.threads[i] = th at hi' hh
    obtain ⟨todo, ph⟩ := th
    cases ph with
    | ready => cases hh
    | passed l t => cases hh
    | locked l t => exact ⟨.format i, _, nofun, by simp only [step, hi']; rfl⟩
    | writing b r =>
      cases r with
      | nil => exact ⟨.unlock i, _, nofun, by simp only [step, hi']; rfl⟩
      | cons ch r => cases b <;> exact ⟨.put i, _, nofun, by simp only [step, hi']; rfl⟩
  cases ho : s.owner with
  | some i => exact owner i ho
  | none =>
    have : ∃ th ∈ s.threads, th ≠ ⟨[], .ready⟩ := by
      refine Classical.byContradiction fun hc => hd fun th hth => Classical.byContradiction fun hne => hc ⟨th, hth, hne⟩
    obtain ⟨th, hth, hne⟩ := this
    obtain ⟨i, hi⟩ := List.mem_iff_getElem?.1 hth
    have hh := h.own i th hi
    obtain ⟨todo, ph⟩ := th
    cases ph with
    | ready =>
      cases todo with
      | nil => exact absurd rfl hne
      | cons a todo =>
        cases a with
        | set l => exact ⟨.begin i, _, nofun, by simp only [step, hi]; rfl⟩
        | log l t =>
          by_cases hl : l.num < s.level.num
          · exact ⟨.begin i, _, nofun, by simp only [step, hi, if_pos hl]; rfl⟩
          · exact ⟨.begin i, _, nofun, by simp only [step, hi, if_neg hl]; rfl⟩
    | passed l t => exact ⟨.lock i, _, nofun, by simp only [step, hi, ho]; rfl⟩
    | locked l t => rw [ho] at hh; exact absurd (hh.1 rfl) nofun
    | writing b r => rw [ho] at hh; exact absurd (hh.1 rfl) nofun

/-- **C78, part.** If a thread that changes the level is the only one that uses the logger, or no thread changes it, nothing
happens to the level at the same time. -/
theorem level_race_free_partial (hone : ∀ i j l, i ≠ j → Act.set l ∈ progs.getD i [] → progs.getD j [] = []) {xs : List Step}
    (hr : run stamp (start progs L c o e) xs = some s) : ¬ LevelRace s := by
  obtain ⟨hist, lines, h⟩ := inv_run hr
  rintro ⟨i, j, hij, ⟨l, todo, hi⟩, hj⟩
  have h1 := h.did i _ hi
  have h2 : progs.getD j [] ≠ [] := by
    rcases hj with ⟨l', t', todo', hj⟩ | ⟨l', todo', hj⟩ <;>
    · have h3 := h.did j _ hj
      rw [← h3]
      simp
  exact h2 (hone i j l hij (by rw [← h1]; simp))

/-- **C78 fails.** Nothing orders the threads' accesses to the level, which is a plain variable: if one thread's program has a call
of `Zarr_set_log_level` and another's a message, both with nothing to wait for before them, a schedule lets them meet. -/
theorem level_race_violated (pre post pre' post' : List Act) (l l' : LogLevel) (t : Text)
    (h : ∀ a ∈ pre ++ pre', ∃ m, a = .set m) :
    ∃ xs s, run stamp (start [pre ++ .set l :: post, pre' ++ .log l' t :: post'] L c o e) xs = some s ∧ LevelRace s := by
  have skip : ∀ (q : List Act) (n : Nat) (rest : List Act) (st : State), (∀ a ∈ q, ∃ m, a = Act.set m) →
      st.threads[n]? = some ⟨q ++ rest, .ready⟩ →
      ∃ xs st', run stamp st xs = some st' ∧ st'.threads = st.threads.set n ⟨rest, .ready⟩ := by
    intro q
    induction q with
    | nil =>
      intro n rest st _ hn
      refine ⟨[], st, rfl, ?_⟩
      obtain ⟨hlt, hv⟩ := List.getElem?_eq_some_iff.1 hn
      rw [List.nil_append] at hv
      rw [← hv, List.set_getElem_self]
    | cons a q ih =>
      intro n rest st hq hn
      obtain ⟨m, rfl⟩ := hq a List.mem_cons_self
      have hstep : step stamp st (.begin n) = some { st with threads := st.threads.set n ⟨q ++ rest, .ready⟩, level := m } := by
        simp only [step, hn, List.cons_append]
      obtain ⟨xs, st', h1, h2⟩ := ih n rest { st with threads := st.threads.set n ⟨q ++ rest, .ready⟩, level := m }
        (fun b hb => hq b (List.mem_cons_of_mem _ hb)) (getElem?_set_same hn)
      refine ⟨.begin n :: xs, st', ?_, ?_⟩
      · simp only [run, hstep]; exact h1
      · rw [h2]; simp [List.set_set]
  obtain ⟨xs, s1, r1, t1⟩ := skip pre 0 (.set l :: post) (start [pre ++ .set l :: post, pre' ++ .log l' t :: post'] L c o e)
    (fun a ha => h a (List.mem_append_left _ ha)) rfl
  obtain ⟨ys, s2, r2, t2⟩ := skip pre' 1 (.log l' t :: post') s1 (fun a ha => h a (List.mem_append_right _ ha)) (by rw [t1]; rfl)
  have hrun : ∀ (xs ys : List Step) (a : State), run stamp a (xs ++ ys) = (run stamp a xs).bind fun b => run stamp b ys := by
    intro xs
    induction xs with
    | nil => intro ys a; rfl
    | cons x xs ih =>
      intro ys a
      simp only [List.cons_append, run]
      cases step stamp a x with
      | none => rfl
      | some b => exact ih ys b
  refine ⟨xs ++ ys, s2, by rw [hrun, r1]; exact r2, 0, 1, by decide, ⟨l, post, ?_⟩, Or.inl ⟨l', t, post', ?_⟩⟩
  · rw [t2, t1]; rfl
  · rw [t2, t1]; rfl

/-- **C78 fails (2).** A message can still be written after `Zarr_set_log_level` has returned, though it is below the new level and
nobody asked for it after that: for every message that was shown before, a schedule in which all of it comes afterwards. -/
theorem late_line_violated (l l' : LogLevel) (t : Text) (hl : L.num ≤ l.num) (hl' : l.num < l'.num) :
    ∃ xs ys s s', run stamp (start [[.log l t], [.set l']] L c o e) xs = some s ∧ s.threads[1]? = some ⟨[], .ready⟩ ∧ s.level = l' ∧
      s.out = o ∧ s.err = e ∧ run stamp s ys = some s' ∧ s'.level = l' ∧ s'.out.length + s'.err.length ≠ o.length + e.length := by
  have hmsg : ∃ ch r, message stamp c l t = ch :: r := by
    cases hm : message stamp c l t with
    | nil => simp [message] at hm
    | cons ch r => exact ⟨ch, r, rfl⟩
  obtain ⟨ch, r, hm⟩ := hmsg
  refine ⟨[.begin 0, .begin 1], [.lock 0, .format 0, .put 0], ⟨[⟨[], .passed l t⟩, ⟨[], .ready⟩], l', none, c, o, e⟩, ?_⟩
  cases hb : toErr l
  · refine ⟨⟨[⟨[], .writing false r⟩, ⟨[], .ready⟩], l', some 0, c, o ++ [ch], e⟩, ?_, rfl, rfl, rfl, rfl, ?_, rfl, ?_⟩
    · simp [run, step, start, Nat.not_lt.2 hl]
    · simp [run, step, hm, hb]
    · simp only [List.length_append, List.length_cons, List.length_nil]; omega
  · refine ⟨⟨[⟨[], .writing true r⟩, ⟨[], .ready⟩], l', some 0, c, o, e ++ [ch]⟩, ?_, rfl, rfl, rfl, rfl, ?_, rfl, ?_⟩
    · simp [run, step, start, Nat.not_lt.2 hl]
    · simp [run, step, hm, hb]
    · simp only [List.length_append, List.length_cons, List.length_nil]; omega

/-! ### A concrete case -/

/-- Two threads that log an error and two information messages, one of them below the level of the moment. -/
def sampleProgs : List (List Act) := [[.log .error "E".toList, .log .info "I".toList], [.log .debug "D".toList, .log .warning "W".toList]]

def sampleStamp (t : Nat) : Text := if t = 0 then ['0'] else ['1']

def sampleSteps : List Step :=
  [.begin 1, .begin 0, .begin 1, .lock 0, .tick, .format 0] ++ List.replicate 11 (.put 0) ++ [.put 0, .unlock 0, .lock 1, .format 1] ++
  List.replicate 14 (.put 1) ++ [.unlock 1, .begin 0, .lock 0, .format 0] ++ List.replicate 11 (.put 0) ++ [.unlock 0]

example : (run sampleStamp (start sampleProgs .info 0 [] []) sampleSteps).map (fun s => (String.ofList s.out, String.ofList s.err)) =
    some ("1 [WARNING] W\n1 [INFO] I\n", "1 [ERROR] E\n") := by decide +kernel

example : ∃ s, run sampleStamp (start sampleProgs .info 0 [] []) sampleSteps = some s ∧ Done s := by
  refine ⟨_, rfl, ?_⟩
  unfold Done
  decide +kernel

end AZ.Log
