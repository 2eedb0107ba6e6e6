import Verif.Lemmas.ClosedStream

set_option linter.unusedSimpArgs false

/-! # Which sinks are open

A stream remembers every sink it has opened and not closed: the documents of the root, the sinks of the current group of each
array, and the sink of each array document. -/

namespace AZ
open Spec
namespace Exc

variable {env : Env} {cfg : WConfig} {cs : List WConfig}

theorem openAfter_append (p : Text) (a b : List Ev) (x : Bool) : openAfter p x (a ++ b) = openAfter p (openAfter p x a) b := by
  induction a generalizing x with
  | nil => rfl
  | cons e es ih => cases e <;> exact ih _

theorem openAfter_quiet {p : Text} {evs : List Ev} (h : ∀ e ∈ evs, ∃ q o d, e = Ev.wrote q o d) (x : Bool) : openAfter p x evs = x := by
  induction evs generalizing x with
  | nil => rfl
  | cons e es ih =>
    obtain ⟨q, o, d, rfl⟩ := h e (by simp)
    exact ih (fun e he => h e (by simp [he])) x

theorem openAfter_opened (p : Text) (ps : List Text) (x : Bool) : openAfter p x (ps.map Ev.opened) = (x || decide (p ∈ ps)) := by
  induction ps generalizing x with
  | nil => simp [openAfter]
  | cons q ps ih =>
    rw [List.map_cons, openAfter, ih]
    by_cases h : q = p
    · subst h; simp
    · have : p ≠ q := fun e => h e.symm
      simp [h, this]

theorem openAfter_finalized (p : Text) (ps : List Text) (x : Bool) : openAfter p x (ps.map Ev.finalized) = (x && !decide (p ∈ ps)) := by
  induction ps generalizing x with
  | nil => simp [openAfter]
  | cons q ps ih =>
    rw [List.map_cons, openAfter, ih]
    by_cases h : q = p
    · subst h; simp
    · have : p ≠ q := fun e => h e.symm
      simp [h, this]

theorem openAfter_dropped (p : Text) (ps : List Text) (x : Bool) : openAfter p x (ps.map Ev.dropped) = (x && !decide (p ∈ ps)) := by
  induction ps generalizing x with
  | nil => simp [openAfter]
  | cons q ps ih =>
    rw [List.map_cons, openAfter, ih]
    by_cases h : q = p
    · subst h; simp
    · have : p ≠ q := fun e => h e.symm
      simp [h, this]

/-- The sinks a writer still holds. -/
def XW.Holds (cfg : WConfig) (w : XW) (p : Text) : Prop :=
  p ∈ w.st.dataSinks.drop w.nulls ∨ (w.st.metaSink = true ∧ p = arrayMetaPath cfg)

/-- Data objects of one group of an array. -/
def perGroup (cfg : WConfig) : Nat := prod (cfg.dims.tailDims.map (partsAlong cfg.version))

/-- A step of a writer: what is open afterwards is held, and there are not too many sinks. -/
structure Keeps (cfg : WConfig) (a b : XW) : Prop where
  evs : ∃ evs, b.st.trace = a.st.trace ++ evs ∧ ∀ p x, (x = true → a.Holds cfg p) → openAfter p x evs = true → b.Holds cfg p
  few : a.st.dataSinks.length ≤ perGroup cfg → b.st.dataSinks.length ≤ perGroup cfg

theorem Keeps.trans {a b c : XW} (h1 : Keeps cfg a b) (h2 : Keeps cfg b c) : Keeps cfg a c := by
  obtain ⟨⟨e1, t1, k1⟩, f1⟩ := h1
  obtain ⟨⟨e2, t2, k2⟩, f2⟩ := h2
  refine ⟨⟨e1 ++ e2, by rw [t2, t1, List.append_assoc], ?_⟩, fun h => f2 (f1 h)⟩
  intro p x hx ho
  rw [openAfter_append] at ho
  exact k2 p _ (k1 p x hx) ho

theorem Keeps.of_eq {a b : XW} (h1 : b.st.trace = a.st.trace) (h2 : b.st.dataSinks = a.st.dataSinks)
    (h3 : b.nulls = a.nulls) (h4 : b.st.metaSink = a.st.metaSink) : Keeps cfg a b := by
  refine ⟨⟨[], by simp [h1], ?_⟩, by rw [h2]; exact id⟩
  intro p x hx ho
  have := hx ho
  unfold XW.Holds at this ⊢
  rw [h2, h3, h4]
  exact this

theorem Keeps.refl (a : XW) : Keeps cfg a a := .of_eq rfl rfl rfl rfl

theorem Keeps.writes {a b : XW} {evs : List Ev} (h1 : b.st.trace = a.st.trace ++ evs) (hq : ∀ e ∈ evs, ∃ q o d, e = Ev.wrote q o d)
    (h2 : b.st.dataSinks = a.st.dataSinks) (h3 : b.nulls = a.nulls) (h4 : b.st.metaSink = a.st.metaSink) : Keeps cfg a b := by
  refine ⟨⟨evs, h1, ?_⟩, by rw [h2]; exact id⟩
  intro p x hx ho
  rw [openAfter_quiet hq] at ho
  have := hx ho
  unfold XW.Holds at this ⊢
  rw [h2, h3, h4]
  exact this

theorem dataPaths_length {g : Nat} {ps : List Text} (h : dataPaths cfg g = some ps) : ps.length = perGroup cfg := by
  have hpos : ∀ d ∈ cfg.dims.tailDims, 0 < partsAlong cfg.version d := by
    unfold dataPaths at h
    exact dataPathsFrom_pos h
  rw [dataPaths_eq cfg g hpos] at h
  cases h
  simp [perGroup]

theorem keeps_make {a : WState} {k : Nat} {b : WState} (he : a.dataSinks = []) (h : makeDataSinks env cfg a = some b) :
    Keeps cfg ⟨a, k⟩ ⟨b, 0⟩ := by
  unfold makeDataSinks at h
  split at h
  · simp at h
  · rename_i paths hp
    split at h
    · cases h
      refine ⟨⟨_, rfl, ?_⟩, fun _ => Nat.le_of_eq (dataPaths_length hp)⟩
      intro p x hx ho
      rw [openAfter_opened] at ho
      simp only [Bool.or_eq_true, decide_eq_true_eq] at ho
      rcases ho with ho | ho
      · rcases hx ho with h | h
        · rw [he] at h; simp at h
        · exact .inr h
      · exact .inl ho
    · simp at h

theorem chunkJob_wrote {p : Text} {b : Bytes} {e : Ev} (h : e ∈ (chunkJob env p b).1) : ∃ q o d, e = Ev.wrote q o d := by
  unfold chunkJob at h
  split at h
  · simp at h; exact ⟨_, _, _, h⟩
  · simp at h
  · simp at h
  · simp at h

theorem shardLoop_wrote {D : ArrayDims} {p : Text} {bufs : List Bytes} (cs : List Nat) (j : ShardJob)
    (hj : ∀ e ∈ j.trace, ∃ q o d, e = Ev.wrote q o d) : ∀ e ∈ (shardLoop env D p bufs cs j).trace, ∃ q o d, e = Ev.wrote q o d := by
  induction cs generalizing j with
  | nil => exact hj
  | cons ci cs ih =>
    have hk : ∀ (wr : WriteOut) (c : Bytes) (e : Ev),
        e ∈ j.trace ++ (if wr = .stored then [Ev.wrote p j.offset c] else []) → ∃ q o d, e = Ev.wrote q o d := by
      intro wr c e he
      rcases List.mem_append.1 he with he | he
      · exact hj e he
      · split at he
        · simp at he; exact ⟨_, _, _, he⟩
        · simp at he
    rw [shardLoop]
    split
    · exact hj
    · split
      · exact hj
      · exact hj
      · dsimp only
        split
        · exact ih _ (hk _ _)
        · exact hk _ _

theorem shardJob_wrote {D : ArrayDims} {p : Text} {bufs : List Bytes} {cs : List Nat} {t : List Nat} {o : Nat} {wt : Bool} :
    ∀ e ∈ (shardJob env D p bufs cs t o wt).trace, ∃ q o d, e = Ev.wrote q o d := by
  have hl := shardLoop_wrote (env := env) (D := D) (p := p) (bufs := bufs) cs ⟨t, o, false, false, [], []⟩ (by simp)
  unfold shardJob
  dsimp only
  split
  · split
    · exact hl
    · exact hl
    · intro e he
      rcases List.mem_append.1 he with he | he
      · exact hl e he
      · simp at he; exact ⟨_, _, _, he⟩
    · exact hl
  · exact hl

theorem keeps_flushV2 {a b : WState} {k : Nat} (h : flushImplV2 env cfg a = .ok b) : Keeps cfg ⟨a, k⟩ ⟨b, 0⟩ := by
  unfold flushImplV2 at h
  obtain ⟨_, he, h⟩ := Res.bind_eq_ok.1 h
  have he := List.isEmpty_iff.1 (check_eq_ok.1 he)
  split at h
  · simp at h
  · rename_i st1 hm
    obtain ⟨_, _, h⟩ := Res.bind_eq_ok.1 h
    simp only [Res.pure_eq, Res.ok.injEq] at h
    subst h
    refine (keeps_make he hm).trans (.writes rfl ?_ rfl rfl rfl)
    intro e he
    obtain ⟨r, hr, her⟩ := List.mem_flatMap.1 he
    obtain ⟨⟨p, b⟩, hz, rfl⟩ := List.mem_map.1 hr
    exact chunkJob_wrote her

theorem keeps_flushV3 {a b : WState} (h : flushImplV3 env cfg a = .ok b) : Keeps cfg ⟨a, 0⟩ ⟨b, 0⟩ := by
  unfold flushImplV3 at h
  dsimp only at h
  split at h
  · simp at h
  · rename_i st1 hm
    have h1 : Keeps cfg ⟨a, 0⟩ ⟨st1, 0⟩ := by
      split at hm
      · rename_i he
        exact keeps_make (List.isEmpty_iff.1 he) hm
      · cases hm; exact .refl _
    obtain ⟨_, hl, h⟩ := Res.bind_eq_ok.1 h
    split at h
    · simp at h
    · obtain ⟨r, _, h⟩ := Res.bind_eq_ok.1 h
      obtain ⟨_, _, h⟩ := Res.bind_eq_ok.1 h
      simp only [Res.pure_eq, Res.ok.injEq] at h
      subst h
      refine h1.trans (.writes rfl ?_ rfl rfl rfl)
      intro e he
      obtain ⟨j, hj, hej⟩ := List.mem_flatMap.1 he
      obtain ⟨i, hi, rfl⟩ := List.mem_map.1 hj
      exact shardJob_wrote e hej

theorem keeps_open {a b : XW}
    (h : b = if !a.st.dataSinks.isEmpty then a else match makeDataSinks env cfg a.st with | none => a | some s => ⟨s, 0⟩) :
    Keeps cfg a b := by
  split at h
  · subst h; exact .refl _
  · rename_i hemp
    split at h
    · subst h; exact .refl _
    · rename_i s hs
      subst h
      exact keeps_make (List.isEmpty_iff.1 (by simpa using hemp)) hs

theorem keeps_flushImpl {a b : XW} (h : (flushImpl env cfg a).Leaves b) : Keeps cfg a b := by
  unfold flushImpl at h
  split at h
  · rcases leaves_of h with h | ⟨_, h⟩
    · obtain ⟨s, h1, h⟩ := Res.bind_eq_ok.1 h
      cases h
      exact keeps_flushV2 h1
    · exact keeps_open h
  · split at h
    · rcases h with ⟨_, h⟩ | h <;> simp at h
    · rename_i h0
      rcases leaves_of h with h | ⟨_, h⟩
      · obtain ⟨s, h1, h⟩ := Res.bind_eq_ok.1 h
        cases h
        obtain ⟨ast, an⟩ := a
        have h0 : an = 0 := by simpa using h0
        subst h0
        exact keeps_flushV3 h1
      · exact keeps_open h

theorem mem_split_takeWhile {α : Type} {x : α} (f : α → Bool) {l : List α} (h : x ∈ l) :
    x ∈ l.takeWhile f ∨ x ∈ l.drop (l.takeWhile f).length := by
  induction l with
  | nil => simp at h
  | cons y l ih =>
    cases hy : f y with
    | false => rw [List.takeWhile_cons_of_neg (by simp [hy])]; exact .inr (by simpa using h)
    | true =>
      rw [List.takeWhile_cons_of_pos hy, List.length_cons, List.drop_succ_cons]
      rcases List.mem_cons.1 h with rfl | h
      · simp
      · rcases ih h with h | h
        · simp [h]
        · exact .inr h

theorem keeps_rollover {a b : XW} (h0 : a.nulls = 0) (h : (rolloverX env a).Leaves b) : Keeps cfg a b := by
  unfold rolloverX at h
  dsimp only at h
  rcases leaves_of h with h | ⟨_, h⟩
  · obtain ⟨s, h1, h⟩ := Res.bind_eq_ok.1 h
    cases h
    unfold rollover at h1
    obtain ⟨evs, h2, h1⟩ := Res.bind_eq_ok.1 h1
    simp only [Res.pure_eq, Res.ok.injEq] at h1
    subst h1
    rw [finalizeSinks_paths h2]
    refine ⟨⟨_, rfl, ?_⟩, fun _ => Nat.zero_le _⟩
    intro p x hx ho
    rw [openAfter_finalized] at ho
    simp only [Bool.and_eq_true, Bool.not_eq_true', decide_eq_false_iff_not] at ho
    rcases hx ho.1 with h | h
    · exact absurd (List.mem_of_mem_drop h) ho.2
    · exact .inr h
  · subst h
    refine ⟨⟨_, rfl, ?_⟩, id⟩
    intro p x hx ho
    rw [openAfter_finalized] at ho
    simp only [Bool.and_eq_true, Bool.not_eq_true', decide_eq_false_iff_not] at ho
    rcases hx ho.1 with h | h
    · rw [h0, List.drop_zero] at h
      left
      dsimp only
      rcases mem_split_takeWhile env.finalize h with h | h
      · exact absurd h ho.2
      · exact h
    · exact .inr h

theorem keeps_meta {a b : XW} (h : (writeArrayMetadataX env cfg a).Leaves b) : Keeps cfg a b := by
  have hopen : ∀ s : WState, s.trace = a.st.trace ++ [.opened (arrayMetaPath cfg)] → s.dataSinks = a.st.dataSinks → s.metaSink = true →
      Keeps cfg a { a with st := s } := by
    intro s t1 t2 t3
    refine ⟨⟨_, t1, ?_⟩, by dsimp only; rw [t2]; exact id⟩
    intro p x hx ho
    have := openAfter_opened p [arrayMetaPath cfg] x
    rw [List.map_singleton] at this
    rw [this] at ho
    simp only [List.mem_singleton, Bool.or_eq_true, decide_eq_true_eq] at ho
    rcases ho with ho | ho
    · rcases hx ho with h | h
      · left; dsimp only; rw [t2]; exact h
      · exact .inr ⟨t3, h.2⟩
    · exact .inr ⟨t3, ho⟩
  unfold writeArrayMetadataX at h
  dsimp only at h
  rcases leaves_of h with h | ⟨_, h⟩
  · obtain ⟨s, h1, h⟩ := Res.bind_eq_ok.1 h
    cases h
    unfold writeArrayMetadata at h1
    obtain ⟨_, _, h1⟩ := Res.bind_eq_ok.1 h1
    obtain ⟨n, _, h1⟩ := Res.bind_eq_ok.1 h1
    generalize hx : (if a.st.metaSink then a.st else { a.st with metaSink := true, trace := a.st.trace ++ [.opened (arrayMetaPath cfg)] } : WState) = x at h1
    have hx' : Keeps cfg a { a with st := x } := by
      rw [← hx]
      split
      · exact .of_eq rfl rfl rfl rfl
      · exact hopen _ rfl rfl rfl
    split at h1
    · cases h1
      refine hx'.trans (.writes rfl ?_ rfl rfl rfl)
      intro e he
      simp at he; exact ⟨_, _, _, he⟩
    · cases h1
      exact hx'
    · simp at h1
    · simp at h1
  · subst h
    split
    · exact hopen _ rfl rfl rfl
    · exact .of_eq rfl rfl rfl rfl

theorem keeps_flush {a b : XW} (h : (flushX env cfg a).Leaves b) : Keeps cfg a b := by
  unfold flushX at h
  split at h
  · rcases h with ⟨_, h⟩ | h
    · cases h; exact .refl _
    · simp at h
  · dsimp only at h
    have hc : Keeps cfg a { a with st := compressBuffers env cfg a.st } := by
      refine Keeps.of_eq ?_ ?_ rfl ?_ <;> unfold compressBuffers <;> dsimp only <;> split <;> rfl
    generalize { a with st := compressBuffers env cfg a.st } = c at h hc
    rcases Out.leaves_bind h with h | ⟨_, d, h1, h⟩
    · exact hc.trans (keeps_flushImpl (.inr h))
    · have hd0 := flushImpl_nulls h1
      have had := hc.trans (keeps_flushImpl (.inl ⟨_, h1⟩))
      split at h
      · rcases h with ⟨_, h⟩ | h
        · simp at h
        · cases h; exact had
      · rcases h with ⟨_, h⟩ | h <;> simp at h
      · rename_i roll _
        have hroll : ∀ e, Out.Leaves (if roll = true then rolloverX env d else .ok () d) e → Keeps cfg d e := by
          intro e he
          split at he
          · exact keeps_rollover hd0 he
          · rcases he with ⟨_, he⟩ | he
            · cases he; exact .refl _
            · simp at he
        rcases Out.leaves_bind h with h | ⟨_, e, h2, h⟩
        · exact had.trans (hroll b (.inr h))
        · have hae := had.trans (hroll e (.inl ⟨_, h2⟩))
          have hmeta : ∀ f, Out.Leaves (if (roll || e.st.finalizing) = true then writeArrayMetadataX env cfg e else .ok () e) f →
              Keeps cfg e f := by
            intro f hf
            split at hf
            · exact keeps_meta hf
            · rcases hf with ⟨_, hf⟩ | hf
              · cases hf; exact .refl _
              · simp at hf
          rcases Out.leaves_bind h with h | ⟨_, f, h3, h⟩
          · exact hae.trans (hmeta b (.inr h))
          · have haf := hae.trans (hmeta f (.inl ⟨_, h3⟩))
            rcases h with ⟨_, h⟩ | h
            · cases h
              refine haf.trans ?_
              exact .of_eq rfl rfl rfl rfl
            · simp at h

theorem keeps_writeFrame {a b : XW} {data : Bytes} (h : (writeFrameX env cfg data a).Leaves b) : Keeps cfg a b := by
  have eqs : ∀ s : WState, s.trace = a.st.trace → s.dataSinks = a.st.dataSinks → s.metaSink = a.st.metaSink →
      Keeps cfg a { a with st := s } := fun s t1 t2 t3 => .of_eq t1 t2 rfl t3
  unfold writeFrameX at h
  split at h
  · rcases h with ⟨_, h⟩ | h
    · cases h; exact .refl _
    · simp at h
  · dsimp only at h
    generalize hx : (if a.st.bufs.isEmpty = true then { a.st with bufs := makeBuffers cfg.dims } else a.st : WState) = x at h
    have hx' : x.trace = a.st.trace ∧ x.dataSinks = a.st.dataSinks ∧ x.metaSink = a.st.metaSink := by
      rw [← hx]; split <;> exact ⟨rfl, rfl, rfl⟩
    obtain ⟨x1, x2, x3⟩ := hx'
    split at h
    · rcases h with ⟨_, h⟩ | h
      · simp at h
      · cases h; exact eqs _ x1 x2 x3
    · rcases h with ⟨_, h⟩ | h <;> simp at h
    · rename_i bufs n _
      split at h
      · rcases h with ⟨_, h⟩ | h
        · simp at h
        · cases h
          exact eqs { x with bufs := bufs } x1 x2 x3
      · generalize hy : ({ x with bufs := bufs, bytesToFlush := u64 (x.bytesToFlush + n),
                                  framesWritten := u32 (x.framesWritten + 1) } : WState) = y at h
        have hty : Keeps cfg a { a with st := y } := by
          rw [← hy]; exact eqs _ x1 x2 x3
        split at h
        · rcases h with ⟨_, h⟩ | h
          · simp at h
          · cases h; exact hty
        · rcases h with ⟨_, h⟩ | h <;> simp at h
        · rename_i fl _
          have hfl : ∀ e, Out.Leaves (if fl = true then flushX env cfg { a with st := y } else .ok () { a with st := y }) e →
              Keeps cfg { a with st := y } e := by
            intro e he
            split at he
            · exact keeps_flush he
            · rcases he with ⟨_, he⟩ | he
              · cases he; exact .refl _
              · simp at he
          rcases Out.leaves_bind h with h | ⟨_, e, h2, h⟩
          · exact hty.trans (hfl b (.inr h))
          · rcases h with ⟨_, h⟩ | h
            · cases h
              exact hty.trans (hfl b (.inl ⟨_, h2⟩))
            · simp at h

/-- Closing an array closes everything it holds. -/
theorem finish_open {a b : XW} {u : Unit} (h : finalizeArrayX env cfg a = .ok u b) (p : Text) {x : Bool} (hx : x = true → a.Holds cfg p) :
    openAfter p x (newEvents a b) = false := by
  unfold finalizeArrayX at h
  obtain ⟨v, c, h1, h⟩ := bind_ok h
  obtain ⟨e1, t1, k1⟩ := (keeps_flush (.inl ⟨_, h1⟩)).evs
  have hc : openAfter p x e1 = true → c.Holds cfg p := k1 p x hx
  have t1 : c.st.trace = a.st.trace ++ e1 := t1
  dsimp only at h
  split at h
  · split at h
    · cases h
      rw [newEvents_eq (evs := e1 ++ ([.finalized (arrayMetaPath cfg)] ++ (c.st.dataSinks.drop c.nulls).map Ev.dropped)) (by
        dsimp only; rw [t1]; simp only [List.append_assoc])]
      have := openAfter_finalized p [arrayMetaPath cfg]
      rw [List.map_singleton] at this
      rw [openAfter_append, openAfter_append, openAfter_dropped, this]
      generalize hy : openAfter p x e1 = y at hc ⊢
      cases y
      · simp
      · rcases hc rfl with h | h
        · simp [h]
        · simp [h.2]
    · simp at h
  · rename_i hm
    cases h
    rw [newEvents_eq (evs := e1 ++ ((c.st.dataSinks.drop c.nulls).map Ev.dropped)) (by
      dsimp only; rw [t1]; simp only [List.append_assoc])]
    rw [openAfter_append, openAfter_dropped]
    generalize hy : openAfter p x e1 = y at hc ⊢
    cases y
    · simp
    · rcases hc rfl with h | h
      · simp [h]
      · exact absurd h.1 hm

/-! ### The stream -/

/-- Everything open is held by an array writer, or satisfies `R` (the documents of the root); the writers hold few sinks. -/
structure Held (R : Text → Prop) (cs : List WConfig) (levels : List XLevel) (tr : List Ev) : Prop where
  known : ∀ p, openAfter p false tr = true → R p ∨ ∃ lv ∈ levels, lv.w.Holds lv.cfg p
  few : ∀ lv ∈ levels, lv.w.st.dataSinks.length ≤ perGroup lv.cfg
  cfgs : levels.map (·.cfg) = cs

theorem Keeps.newEvents {a b : XW} (h : Keeps cfg a b) (p : Text) {x : Bool} (hx : x = true → a.Holds cfg p)
    (ho : openAfter p x (Exc.newEvents a b) = true) : b.Holds cfg p := by
  obtain ⟨evs, t, k⟩ := h.evs
  rw [newEvents_eq t] at ho
  exact k p x hx ho

theorem Held.update {R : Text → Prop} {cs : List WConfig} {pre post : List XLevel} {lv : XLevel} {w' : XW} {sv : Option (List Nat)} {tr : List Ev}
    (h : Held R cs (pre ++ lv :: post) tr) (hk : Keeps lv.cfg lv.w w') :
    Held R cs (pre ++ { lv with w := w', saved := sv } :: post) (tr ++ newEvents lv.w w') := by
  refine ⟨?_, ?_, by rw [← h.cfgs]; simp⟩
  · intro p ho
    rw [openAfter_append] at ho
    by_cases hc : openAfter p false tr = true → lv.w.Holds lv.cfg p
    · exact .inr ⟨{ lv with w := w', saved := sv }, by simp, hk.newEvents p hc ho⟩
    · have ht : openAfter p false tr = true := by
        by_contra hn
        exact hc fun h => absurd h hn
      rcases h.known p ht with hr | ⟨l, hl, hh⟩
      · exact .inl hr
      · rcases List.mem_append.1 hl with hl | hl
        · exact .inr ⟨l, by simp [hl], hh⟩
        · rcases List.mem_cons.1 hl with rfl | hl
          · exact absurd (fun _ => hh) hc
          · exact .inr ⟨l, by simp [hl], hh⟩
  · intro l hl
    rcases List.mem_append.1 hl with hl | hl
    · exact h.few l (by simp [hl])
    · rcases List.mem_cons.1 hl with rfl | hl
      · exact hk.few (h.few lv (by simp))
      · exact h.few l (by simp [hl])

theorem Held.saved {R : Text → Prop} {cs : List WConfig} {pre post : List XLevel} {lv : XLevel} {sv : Option (List Nat)} {tr : List Ev}
    (h : Held R cs (pre ++ lv :: post) tr) : Held R cs (pre ++ { lv with saved := sv } :: post) tr := by
  refine ⟨?_, ?_, by rw [← h.cfgs]; simp⟩
  · intro p ho
    rcases h.known p ho with hr | ⟨l, hl, hh⟩
    · exact .inl hr
    · rcases List.mem_append.1 hl with hl | hl
      · exact .inr ⟨l, by simp [hl], hh⟩
      · rcases List.mem_cons.1 hl with rfl | hl
        · exact .inr ⟨{ l with saved := sv }, by simp, hh⟩
        · exact .inr ⟨l, by simp [hl], hh⟩
  · intro l hl
    rcases List.mem_append.1 hl with hl | hl
    · exact h.few l (by simp [hl])
    · rcases List.mem_cons.1 hl with rfl | hl
      · exact h.few lv (by simp)
      · exact h.few l (by simp [hl])

theorem held_pyramid {R : Text → Prop} {cs : List WConfig} {t : DType} {rest : List XLevel} {data : Bytes} {iw ih : Nat} {p : XPyramid} {pre : List XLevel}
    {tr : List Ev} (h : Held R cs (pre ++ rest) tr) (hp : (pyramidLoopX env t rest data iw ih).Leaves p) :
    Held R cs (pre ++ p.levels) (tr ++ p.events) := by
  induction rest generalizing data iw ih pre tr p with
  | nil =>
    unfold pyramidLoopX at hp
    rcases hp with ⟨_, hp⟩ | hp
    · cases hp
      simpa using h
    · simp at hp
  | cons lv rest IH =>
    unfold pyramidLoopX at hp
    split at hp
    · rcases hp with ⟨_, hp⟩ | hp
      · simp at hp
      · cases hp
        simpa using h
    · rcases hp with ⟨_, hp⟩ | hp <;> simp at hp
    · rename_i s hs
      split at hp
      · rcases hp with ⟨_, hp⟩ | hp
        · cases hp
          simpa using h.saved
        · simp at hp
      · rename_i px hpx
        dsimp only at hp
        split at hp
        · rcases hp with ⟨_, hp⟩ | hp <;> simp at hp
        · rename_i w' hw
          rcases hp with ⟨_, hp⟩ | hp
          · simp at hp
          · cases hp
            exact h.update (keeps_writeFrame (.inr hw))
        · rename_i n w' hw
          have ht := keeps_writeFrame (.inl ⟨_, hw⟩)
          split at hp
          · rcases hp with ⟨_, hp⟩ | hp
            · simp at hp
            · cases hp
              exact h.update ht
          · have hu' : Held R cs ((pre ++ [{ lv with w := w', saved := none }]) ++ rest) (tr ++ newEvents lv.w w') := by
              simpa using h.update (sv := none) ht
            split at hp
            · rcases hp with ⟨_, hp⟩ | hp <;> simp at hp
            · rename_i q hq
              rcases hp with ⟨_, hp⟩ | hp
              · simp at hp
              · cases hp
                simpa using IH hu' (.inr hq)
            · rename_i q hq
              rcases hp with ⟨_, hp⟩ | hp
              · cases hp
                simpa using IH hu' (.inl ⟨_, hq⟩)
              · simp at hp

/-- `Held` for the stream `st`, whose root documents are those of `cfg`. -/
structure HeldBy (c : WConfig) (cs : List WConfig) (st : XStream) : Prop where
  cfg : st.cfg = c
  held : Held (fun p => p ∈ (metaKeys c.version).map (metaSinkPath c)) cs st.levels st.trace

theorem HeldBy.with {st : XStream} (h : HeldBy cfg cs st) {buf : Bytes} {o : Nat} : HeldBy cfg cs { st with buf := buf, offset := o } :=
  ⟨h.cfg, h.held⟩

theorem held_level0 {st st' : XStream} {data : Bytes} (h : HeldBy cfg cs st) (hs : (writeLevel0X env st data).Leaves st') :
    HeldBy cfg cs st' := by
  unfold writeLevel0X at hs
  cases hl : st.levels with
  | nil =>
    rw [hl] at hs
    rcases hs with ⟨_, hs⟩ | hs <;> simp at hs
  | cons l0 rest =>
    rw [hl] at hs
    dsimp only at hs
    have hi := h.held
    rw [hl] at hi
    have main : ∀ w, (writeFrameX env l0.cfg data l0.w).Leaves w → st' = st.afterLevel0 l0 rest w → HeldBy cfg cs st' := by
      intro w hw he
      subst he
      have hu := Held.update (pre := []) (sv := l0.saved) (by simpa using hi) (keeps_writeFrame hw)
      exact ⟨h.cfg, by simpa [XStream.afterLevel0] using hu⟩
    split at hs
    · rcases hs with ⟨_, hs⟩ | hs <;> simp at hs
    · rename_i w hw
      rcases hs with ⟨_, hs⟩ | hs
      · simp at hs
      · cases hs; exact main w (.inr hw) rfl
    · rename_i n w hw
      rcases hs with ⟨_, hs⟩ | hs
      · cases hs; exact main w (.inl ⟨_, hw⟩) rfl
      · simp at hs

theorem held_multiscale {st st' : XStream} {data : Bytes} (h : HeldBy cfg cs st) (hs : (writeMultiscaleX env st data).Leaves st') :
    HeldBy cfg cs st' := by
  unfold writeMultiscaleX at hs
  split at hs
  · rcases hs with ⟨_, hs⟩ | hs
    · cases hs; exact h
    · simp at hs
  · cases hl : st.levels with
    | nil =>
      rw [hl] at hs
      rcases hs with ⟨_, hs⟩ | hs
      · cases hs; exact h
      · simp at hs
    | cons l0 rest =>
      rw [hl] at hs
      dsimp only at hs
      have hi := h.held
      rw [hl] at hi
      have main : ∀ p, (pyramidLoopX env st.cfg.dims.dtype rest data st.cfg.dims.width.arraySize
          st.cfg.dims.height.arraySize).Leaves p → st' = st.afterPyramid l0 p → HeldBy cfg cs st' := by
        intro p hp he
        subst he
        have := held_pyramid (pre := [l0]) (by simpa using hi) hp
        exact ⟨h.cfg, by simpa [XStream.afterPyramid] using this⟩
      split at hs
      · rcases hs with ⟨_, hs⟩ | hs <;> simp at hs
      · rename_i p hp
        rcases hs with ⟨_, hs⟩ | hs
        · simp at hs
        · cases hs; exact main p (.inr hp) rfl
      · rename_i p hp
        rcases hs with ⟨_, hs⟩ | hs
        · cases hs; exact main p (.inl ⟨_, hp⟩) rfl
        · simp at hs

theorem held_loop (data : Bytes) (fuel : Nat) {ptr bw : Nat} {st st' : XStream} {o : Out XStream Nat} (h : HeldBy cfg cs st)
    (hr : appendLoopX env data fuel ptr bw st = some o) (hs : o.Leaves st') : HeldBy cfg cs st' := by
  have nub : ∀ {s : XStream}, ¬ (Out.ub : Out XStream Nat).Leaves s := by
    intro s hh; rcases hh with ⟨_, hh⟩ | hh <;> simp at hh
  have thr : ∀ {s s' : XStream}, (Out.throw s : Out XStream Nat).Leaves s' → s = s' := by
    intro s s' hh
    rcases hh with ⟨_, hh⟩ | hh
    · simp at hh
    · cases hh; rfl
  have okk : ∀ {s s' : XStream} {n : Nat}, (Out.ok n s : Out XStream Nat).Leaves s' → s = s' := by
    intro s s' n hh
    rcases hh with ⟨_, hh⟩ | hh
    · cases hh; rfl
    · simp at hh
  induction fuel generalizing ptr bw st with
  | zero =>
    unfold appendLoopX at hr
    split at hr
    · cases hr
      cases okk hs; exact h
    · simp at hr
  | succ fuel ih =>
    unfold appendLoopX at hr
    split at hr
    · cases hr
      cases okk hs; exact h
    · dsimp only at hr
      split at hr
      · split at hr
        · cases hr; exact absurd hs nub
        · split at hr
          · split at hr
            · cases hr; exact absurd hs nub
            · split at hr
              · rename_i s hw
                cases hr
                cases thr hs
                exact held_level0 h.with (.inr hw)
              · cases hr; exact absurd hs nub
              · rename_i k st2 hw
                have h2 := held_level0 h.with (.inl ⟨_, hw⟩)
                split at hr
                · cases hr
                  cases okk hs
                  exact h2
                · exact ih (st := { st2 with offset := 0 }) ⟨h2.cfg, h2.held⟩ hr
          · exact ih h.with hr
      · split at hr
        · split at hr
          · cases hr; exact absurd hs nub
          · exact ih h.with hr
        · split at hr
          · cases hr; exact absurd hs nub
          · split at hr
            · rename_i s hw
              cases hr
              cases thr hs
              exact held_level0 h (.inr hw)
            · cases hr; exact absurd hs nub
            · rename_i k st2 hw
              have h2 := held_level0 h (.inl ⟨_, hw⟩)
              split at hr
              · cases hr
                cases okk hs
                exact h2
              · split at hr
                · rename_i s hm
                  cases hr
                  cases thr hs
                  exact held_multiscale h2 (.inr hm)
                · cases hr; exact absurd hs nub
                · rename_i st3 hm
                  exact ih (held_multiscale h2 (.inl ⟨_, hm⟩)) hr

theorem held_append {st st' : XStream} {data : Bytes} {o : Out XStream Nat} (h : HeldBy cfg cs st)
    (hr : appendX env data st = some o) (hs : o.Leaves st') : HeldBy cfg cs st' := by
  unfold appendX at hr
  split at hr
  · cases hr
    rcases hs with ⟨_, hs⟩ | hs
    · simp at hs
    · cases hs; exact h
  · exact held_loop data _ h hr hs

theorem held_calls {calls : List (Env × Bytes)} {st st' : XStream} {rs : List Status} (h : HeldBy cfg cs st)
    (hr : callsX calls st = some (st', rs)) : HeldBy cfg cs st' := by
  induction calls generalizing st rs with
  | nil => cases hr; exact h
  | cons c cs ih =>
    obtain ⟨env, d⟩ := c
    unfold callsX at hr
    split at hr
    · simp at hr
    · simp at hr
    · rename_i s ha
      obtain ⟨⟨s', rs'⟩, h2, he⟩ := Option.map_eq_some_iff.1 hr
      cases he
      exact ih (held_append h ha (.inr rfl)) h2
    · rename_i n s ha
      obtain ⟨⟨s', rs'⟩, h2, he⟩ := Option.map_eq_some_iff.1 hr
      cases he
      exact ih (held_append h ha (.inl ⟨_, rfl⟩)) h2

theorem writeDoc_wrote {p : Text} {doc : Bytes} {evs : List Ev} (h : writeDoc env p doc = .ok evs) :
    ∀ e ∈ evs, ∃ q o d, e = Ev.wrote q o d := by
  unfold writeDoc at h
  split at h
  · cases h; intro e he; simp at he; exact ⟨_, _, _, he⟩
  · cases h; simp
  · simp at h
  · simp at h

theorem held_created {w : World} {fuel : Nat} {S : Settings} {s0 : SState} (h : createStream w env fuel (some S) = some (.ok s0)) :
    HeldBy s0.cfg ((XStream.of s0).levels.map (·.cfg)) (XStream.of s0) := by
  obtain ⟨cfg, cfgs, hc⟩ := createStream_ok h
  refine ⟨rfl, ?_, ?_, rfl⟩
  rotate_left
  · intro lv hlv
    unfold XStream.of at hlv
    rw [hc.slevels, List.map_map] at hlv
    obtain ⟨c, _, rfl⟩ := List.mem_map.1 hlv
    exact Nat.zero_le _
  obtain ⟨e1, e2, e3, ht, h1, h2, h3⟩ := hc.docs
  intro p ho
  left
  have h3 : ∀ e ∈ e3, ∃ q o d, e = Ev.wrote q o d := by
    split at h3
    · rw [h3]; simp
    · exact writeDoc_wrote h3
  have : (XStream.of s0).trace = s0.trace := rfl
  rw [this, ht, openAfter_append, openAfter_append, openAfter_append, openAfter_quiet h3, openAfter_quiet (writeDoc_wrote h2),
    openAfter_quiet (writeDoc_wrote h1), openAfter_opened] at ho
  rw [hc.scfg]
  simpa using ho

/-- Closing the arrays: afterwards nothing held by an array is open. -/
theorem levels_open {levels : List XLevel} {evs : List Ev} (h : finalizeLevelsX env levels = some (evs, true)) (p : Text) {x : Bool}
    (hx : x = true → ∃ lv ∈ levels, lv.w.Holds lv.cfg p) : openAfter p x evs = false := by
  induction levels generalizing evs x with
  | nil =>
    cases h
    cases x
    · rfl
    · obtain ⟨_, hm, _⟩ := hx rfl
      simp at hm
  | cons lv rest ih =>
    unfold finalizeLevelsX at h
    split at h
    · simp at h
    · simp at h
    · rename_i u w hw
      obtain ⟨⟨e2, b2⟩, h2, he⟩ := Option.map_eq_some_iff.1 h
      cases he
      rw [openAfter_append]
      refine ih h2 ?_
      intro ho
      by_cases hc : x = true → lv.w.Holds lv.cfg p
      · rw [finish_open hw p hc] at ho
        simp at ho
      · have hxt : x = true := by
          by_contra hn
          exact hc fun h => absurd h hn
        obtain ⟨l, hl, hh⟩ := hx hxt
        rcases List.mem_cons.1 hl with rfl | hl
        · exact absurd (fun _ => hh) hc
        · exact ⟨l, hl, hh⟩

/-- Closing the stream. -/
theorem destroy_open {st : XStream} {tr : List Ev} (h : HeldBy cfg cs st) (hd : destroyX env st = some (tr, true)) :
    NothingOpen tr ∧ ∀ k ∈ metaKeys cfg.version, Ev.finalized (metaSinkPath cfg k) ∈ tr := by
  unfold destroyX at hd
  rw [h.cfg] at hd
  dsimp only at hd
  split at hd
  · simp at hd
  · simp at hd
  · rename_i e1 h1
    split at hd
    · simp at hd
    · simp at hd
    · rename_i e2 h2
      obtain ⟨⟨e3, b3⟩, h3, he⟩ := Option.map_eq_some_iff.1 hd
      cases he
      rw [finalizeSinks_paths h2]
      refine ⟨?_, ?_⟩
      · intro p
        rw [openAfter_append]
        refine levels_open h3 p ?_
        rw [openAfter_append, openAfter_append, openAfter_quiet (writeDoc_wrote h1), openAfter_finalized]
        intro ho
        simp only [Bool.and_eq_true, Bool.not_eq_true', decide_eq_false_iff_not] at ho
        rcases h.held.known p ho.1 with hr | hr
        · exact absurd hr ho.2
        · exact hr
      · intro k hk
        simp only [List.mem_append]
        exact .inl (.inr (List.mem_map_of_mem (List.mem_map_of_mem hk)))

end Exc
end AZ
