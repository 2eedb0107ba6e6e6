import Verif.Lemmas.Exceptions
import Verif.Lemmas.Confined
import Verif.Props.Schedule
import Verif.Spec.Closed

set_option linter.unusedSimpArgs false

/-! # Whatever fails, a writer leaves the objects it has finished alone -/

namespace AZ
namespace Exc
open Spec

variable {env : Env} {cfg : WConfig}

/-- The outcome left the object in state `s`. -/
def Out.Leaves {σ α : Type} (o : Out σ α) (s : σ) : Prop := (∃ a, o = .ok a s) ∨ o = .throw s

theorem Out.leaves_bind {σ α β : Type} {o : Out σ α} {f : α → σ → Out σ β} {s : σ} (h : (o.bind f).Leaves s) :
    o = .throw s ∨ ∃ a t, o = .ok a t ∧ (f a t).Leaves s := by
  cases o with
  | ok a t => exact .inr ⟨a, t, rfl, h⟩
  | throw t =>
    rcases h with ⟨_, h⟩ | h
    · simp [Out.bind] at h
    · simp [Out.bind] at h; subst h; exact .inl rfl
  | ub => rcases h with ⟨_, h⟩ | h <;> simp [Out.bind] at h

/-- Event `b` comes after event `a`: if `a` closed an object, `b` does not concern it. -/
def Apart (a b : Ev) : Prop := ∀ p, a = .finalized p → b.path ≠ p

theorem closed_iff {tr : List Ev} : ClosedForGood tr ↔ tr.Pairwise Apart := by
  constructor
  · intro h
    induction tr with
    | nil => exact List.Pairwise.nil
    | cons e es ih =>
      refine List.Pairwise.cons ?_ (ih ?_)
      · intro b hb p he
        exact h [] p es (by rw [he]; rfl) b hb
      · intro pre p post heq
        exact h (e :: pre) p post (by rw [heq]; rfl)
  · intro h pre p post heq e he
    rw [heq] at h
    exact (List.pairwise_cons.1 (List.pairwise_append.1 h).2.1).1 e he p rfl

/-- The open sinks belong to the current chunk group. -/
structure Current (cfg : WConfig) (st : WState) : Prop where
  nodup : st.dataSinks.Nodup
  group : ∀ p ∈ st.dataSinks, ∃ l, p = objectPath cfg st.appendIdx l

theorem Current.of_eq {a b : WState} (h : Current cfg a) (h1 : b.dataSinks = a.dataSinks) (h2 : b.appendIdx = a.appendIdx) :
    Current cfg b := by
  obtain ⟨x, y⟩ := h
  rw [← h1] at x y
  rw [← h2] at y
  exact ⟨x, y⟩

/-- Only objects of the current group were opened and written. -/
structure Fill (cfg : WConfig) (a b : WState) : Prop where
  trace : ∃ evs, b.trace = a.trace ++ evs ∧ ∀ e ∈ evs, (∃ l, e.path = objectPath cfg a.appendIdx l) ∧ ∀ p, e ≠ .finalized p
  idx : b.appendIdx = a.appendIdx
  cur : Current cfg b

theorem fill_makeDataSinks {a b : WState} (h : makeDataSinks env cfg a = some b) : Fill cfg a b := by
  have hn := makeDataSinks_nodup h
  unfold makeDataSinks at h
  split at h
  · simp at h
  · rename_i paths hp
    split at h
    · cases h
      refine ⟨⟨_, rfl, ?_⟩, rfl, hn, ?_⟩
      · intro e he
        obtain ⟨p, hpm, rfl⟩ := List.mem_map.1 he
        exact ⟨mem_dataPaths hp hpm, by simp⟩
      · intro p hpm
        exact mem_dataPaths hp hpm
    · simp at h

theorem chunkJob_ev {p : Text} {b : Bytes} {e : Ev} (h : e ∈ (chunkJob env p b).1) :
    e.path = p ∧ ∀ q, e ≠ .finalized q := by
  unfold chunkJob at h
  split at h
  · simp at h; subst h; exact ⟨rfl, by simp⟩
  · simp at h
  · simp at h
  · simp at h

theorem fill_flushImplV2 {a b : WState} (h : flushImplV2 env cfg a = .ok b) : Fill cfg a b ∧ a.dataSinks = [] := by
  unfold flushImplV2 at h
  obtain ⟨_, he, h⟩ := Res.bind_eq_ok.1 h
  split at h
  · simp at h
  · rename_i st1 hm
    obtain ⟨⟨evs, t1, t2⟩, h2, h3⟩ := fill_makeDataSinks hm
    obtain ⟨_, _, h⟩ := Res.bind_eq_ok.1 h
    simp only [Res.pure_eq, Res.ok.injEq] at h
    subst h
    refine ⟨⟨⟨evs ++ _, by rw [t1, List.append_assoc], ?_⟩, h2, by exact h3.of_eq rfl rfl⟩, ?_⟩
    · intro e he
      rcases List.mem_append.1 he with he | he
      · exact t2 e he
      · obtain ⟨r, hr, her⟩ := List.mem_flatMap.1 he
        obtain ⟨⟨p, b⟩, hz, rfl⟩ := List.mem_map.1 hr
        obtain ⟨c1, c2⟩ := chunkJob_ev her
        rw [c1, ← h2]
        exact ⟨h3.group p (List.of_mem_zip hz).1, c2⟩
    · have := check_eq_ok.1 he
      exact List.isEmpty_iff.1 this

theorem shardLoop_ev {D : ArrayDims} {p : Text} {bufs : List Bytes} (cs : List Nat) (j : ShardJob)
    (hj : ∀ e ∈ j.trace, ∀ q, e ≠ .finalized q) : ∀ e ∈ (shardLoop env D p bufs cs j).trace, ∀ q, e ≠ .finalized q := by
  induction cs generalizing j with
  | nil => exact hj
  | cons ci cs ih =>
    have hk : ∀ (wr : WriteOut) (c : Bytes) (e : Ev),
        e ∈ j.trace ++ (if wr = .stored then [Ev.wrote p j.offset c] else []) → ∀ q, e ≠ .finalized q := by
      intro wr c e he
      rcases List.mem_append.1 he with he | he
      · exact hj e he
      · split at he
        · simp at he; subst he; simp
        · simp at he
    rw [shardLoop]
    split
    · exact hj
    · split
      · exact hj
      · exact hj
      · dsimp only
        split
        · exact ih _ (hk _ _)
        · exact hk _ _

theorem shardJob_ev {D : ArrayDims} {p : Text} {bufs : List Bytes} {cs : List Nat} {t : List Nat} {o : Nat} {wt : Bool} :
    ∀ e ∈ (shardJob env D p bufs cs t o wt).trace, ∀ q, e ≠ .finalized q := by
  have hl := shardLoop_ev (env := env) (D := D) (p := p) (bufs := bufs) cs ⟨t, o, false, false, [], []⟩ (by simp)
  unfold shardJob
  dsimp only
  split
  · split
    · exact hl
    · exact hl
    · intro e he
      rcases List.mem_append.1 he with he | he
      · exact hl e he
      · simp at he; subst he; simp
    · exact hl
  · exact hl

theorem fill_flushImplV3 {a b : WState} (ha : Current cfg a) (h : flushImplV3 env cfg a = .ok b) : Fill cfg a b := by
  unfold flushImplV3 at h
  dsimp only at h
  split at h
  · simp at h
  · rename_i st1 hm
    have h1 : Fill cfg a st1 := by
      split at hm
      · exact fill_makeDataSinks hm
      · cases hm; exact ⟨⟨[], by simp⟩, rfl, ha⟩
    obtain ⟨⟨evs, t1, t2⟩, h2, h3⟩ := h1
    obtain ⟨_, hl, h⟩ := Res.bind_eq_ok.1 h
    have hl := check_eq_ok.1 hl
    simp only [beq_iff_eq] at hl
    split at h
    · simp at h
    · obtain ⟨r, _, h⟩ := Res.bind_eq_ok.1 h
      obtain ⟨_, _, h⟩ := Res.bind_eq_ok.1 h
      simp only [Res.pure_eq, Res.ok.injEq] at h
      subst h
      refine ⟨⟨evs ++ _, by rw [t1, List.append_assoc], ?_⟩, h2, by exact h3.of_eq rfl rfl⟩
      intro e he
      rcases List.mem_append.1 he with he | he
      · exact t2 e he
      · obtain ⟨j, hj, hej⟩ := List.mem_flatMap.1 he
        obtain ⟨i, hi, rfl⟩ := List.mem_map.1 hj
        refine ⟨?_, shardJob_ev e hej⟩
        rw [shardJob_path e hej, ← h2]
        apply h3.group
        have hi' : i < st1.dataSinks.length := by rw [hl]; exact List.mem_range.1 hi
        have : st1.dataSinks.getD i [] = st1.dataSinks[i] := by
          rw [List.getD_eq_getElem?_getD, List.getElem?_eq_getElem hi']; rfl
        rw [this]
        exact List.getElem_mem hi'

/-- A writer state: the open sinks are current; null sinks only if the vector is not empty. -/
structure Good (cfg : WConfig) (w : XW) : Prop where
  cur : Current cfg w.st
  stuck : 0 < w.nulls → w.st.dataSinks ≠ []

/-- The closed objects of the current group: those in front of the vector whose sinks were destroyed. -/
def XW.closed (w : XW) : List Text := w.st.dataSinks.take w.nulls

/-- A step of a writer: `k` bounds the number of chunk groups it finished. -/
structure Tr (cfg : WConfig) (k : Nat) (a b : XW) : Prop where
  good : Good cfg b
  lo : a.st.appendIdx ≤ b.st.appendIdx
  hi : b.st.appendIdx ≤ a.st.appendIdx + k
  evs : ∃ evs, b.st.trace = a.st.trace ++ evs ∧
    (∀ e ∈ evs, e.path = arrayMetaPath cfg ∨ ∃ g l, e.path = objectPath cfg g l ∧ a.st.appendIdx ≤ g) ∧
    (∀ p, Ev.finalized p ∈ evs → ∃ g l, p = objectPath cfg g l ∧ (g < b.st.appendIdx ∨ p ∈ b.closed)) ∧
    evs.Pairwise Apart ∧
    (0 < a.nulls → evs = [] ∧ b.st.appendIdx = a.st.appendIdx ∧ b.st.dataSinks = a.st.dataSinks ∧ b.nulls = a.nulls)

theorem Tr.of_eq {a b : XW} (h : Good cfg a) (h1 : b.st.trace = a.st.trace) (h2 : b.st.appendIdx = a.st.appendIdx)
    (h3 : b.st.dataSinks = a.st.dataSinks) (h4 : b.nulls = a.nulls) : Tr cfg 0 a b :=
  ⟨⟨h.cur.of_eq h3 h2, by rw [h3, h4]; exact h.stuck⟩, by rw [h2], by rw [h2]; exact Nat.le_refl _,
    [], by simp [h1], by simp, by simp, List.Pairwise.nil, fun _ => ⟨rfl, h2, h3, h4⟩⟩

theorem closed_pos {w : XW} {p : Text} (h : p ∈ w.closed) : 0 < w.nulls := by
  unfold XW.closed at h
  by_contra hn
  have : w.nulls = 0 := by omega
  rw [this] at h
  simp at h

theorem Tr.trans {a b c : XW} {k k' : Nat} (h1 : Tr cfg k a b) (h2 : Tr cfg k' b c) : Tr cfg (k + k') a c := by
  obtain ⟨g1, l1, u1, e1, t1, p1, f1, c1, s1⟩ := h1
  obtain ⟨g2, l2, u2, e2, t2, p2, f2, c2, s2⟩ := h2
  refine ⟨g2, by omega, by omega, e1 ++ e2, by rw [t2, t1, List.append_assoc], ?_, ?_, ?_, ?_⟩
  · intro e he
    rcases List.mem_append.1 he with he | he
    · exact p1 e he
    · rcases p2 e he with h | ⟨g, l, h, hg⟩
      · exact .inl h
      · exact .inr ⟨g, l, h, by omega⟩
  · intro p hp
    rcases List.mem_append.1 hp with hp | hp
    · obtain ⟨g, l, h, hg⟩ := f1 p hp
      refine ⟨g, l, h, ?_⟩
      rcases hg with hg | hg
      · exact .inl (by omega)
      · obtain ⟨_, _, q2, q3⟩ := s2 (closed_pos hg)
        refine .inr ?_
        unfold XW.closed at hg ⊢
        rw [q2, q3]; exact hg
    · exact f2 p hp
  · refine List.pairwise_append.2 ⟨c1, c2, ?_⟩
    intro x hx y hy p hp
    subst hp
    obtain ⟨g, l, rfl, hg⟩ := f1 p hx
    intro he
    rcases hg with hg | hg
    · rcases p2 y hy with h | ⟨g', l', h, hg'⟩
      · exact objectPath_ne_metaPath (SameStore.refl cfg) g l (he.symm.trans h)
      · obtain ⟨_, q, _⟩ := objectPath_inj_level (SameStore.refl cfg) (he.symm.trans h)
        omega
    · have := (s2 (closed_pos hg)).1
      rw [this] at hy
      simp at hy
  · intro hn
    obtain ⟨rfl, q1, q2, q3⟩ := s1 hn
    obtain ⟨rfl, q1', q2', q3'⟩ := s2 (by omega)
    exact ⟨rfl, q1'.trans q1, q2'.trans q2, q3'.trans q3⟩

theorem Tr.mono {a b : XW} {k k' : Nat} (h : Tr cfg k a b) (hk : k ≤ k') : Tr cfg k' a b :=
  ⟨h.good, h.lo, h.hi.trans (by omega), h.evs⟩

theorem Fill.tr {a b : WState} (h : Fill cfg a b) : Tr cfg 0 ⟨a, 0⟩ ⟨b, 0⟩ := by
  obtain ⟨⟨evs, t1, t2⟩, h2, h3⟩ := h
  refine ⟨⟨h3, by simp⟩, by simp [h2], by simp [h2], evs, t1, ?_, ?_, ?_, by simp⟩
  · intro e he
    obtain ⟨l, hl⟩ := (t2 e he).1
    exact .inr ⟨_, l, hl, Nat.le_refl _⟩
  · intro p hp
    exact absurd rfl ((t2 _ hp).2 p)
  · refine List.pairwise_iff_forall_sublist.2 ?_
    intro x y hxy p hp
    exact absurd hp ((t2 x (hxy.subset (by simp))).2 p)

theorem leaves_of {σ : Type} {r : Res σ} {t s : σ} (h : (Out.of r t).Leaves s) : r = .ok s ∨ (r = .throw ∧ s = t) := by
  cases r with
  | ok x => rcases h with ⟨_, h⟩ | h <;> simp [Out.of] at h; exact .inl (by rw [h])
  | throw => rcases h with ⟨_, h⟩ | h <;> simp [Out.of] at h; exact .inr ⟨rfl, h.symm⟩
  | ub => rcases h with ⟨_, h⟩ | h <;> simp [Out.of] at h

theorem of_ok {σ : Type} {r : Res σ} {t s : σ} {u : Unit} (h : Out.of r t = .ok u s) : r = .ok s := by
  cases r <;> simp [Out.of] at h; rw [h]

theorem tr_open {a b : XW} (ha : Good cfg a)
    (h : b = if !a.st.dataSinks.isEmpty then a else match makeDataSinks env cfg a.st with | none => a | some s => ⟨s, 0⟩) :
    Tr cfg 0 a b := by
  split at h
  · subst h; exact Tr.of_eq ha rfl rfl rfl rfl
  · rename_i hemp
    split at h
    · subst h; exact Tr.of_eq ha rfl rfl rfl rfl
    · rename_i s hs
      subst h
      have h0 : a.nulls = 0 := by
        by_contra hn
        exact ha.stuck (by omega) (by simpa using hemp)
      obtain ⟨ast, an⟩ := a
      simp only at h0
      subst h0
      exact (fill_makeDataSinks hs).tr

theorem tr_flushImpl {a b : XW} (ha : Good cfg a) (h : (flushImpl env cfg a).Leaves b) : Tr cfg 0 a b := by
  unfold flushImpl at h
  split at h
  · rcases leaves_of h with h | ⟨_, h⟩
    · obtain ⟨s, h1, h⟩ := Res.bind_eq_ok.1 h
      cases h
      obtain ⟨hf, hemp⟩ := fill_flushImplV2 h1
      have h0 : a.nulls = 0 := by
        by_contra hn
        exact ha.stuck (by omega) hemp
      obtain ⟨ast, an⟩ := a
      simp only at h0
      subst h0
      exact hf.tr
    · exact tr_open ha h
  · split at h
    · rcases h with ⟨_, h⟩ | h <;> simp at h
    · rename_i h0
      rcases leaves_of h with h | ⟨_, h⟩
      · obtain ⟨s, h1, h⟩ := Res.bind_eq_ok.1 h
        cases h
        obtain ⟨ast, an⟩ := a
        have h0 : an = 0 := by simpa using h0
        subst h0
        exact (fill_flushImplV3 ha.cur h1).tr
      · exact tr_open ha h

theorem flushImpl_nulls {a b : XW} {u : Unit} (h : flushImpl env cfg a = .ok u b) : b.nulls = 0 := by
  unfold flushImpl at h
  split at h
  · obtain ⟨s, h1, h⟩ := Res.bind_eq_ok.1 (of_ok h)
    cases h; rfl
  · split at h
    · simp at h
    · obtain ⟨s, h1, h⟩ := Res.bind_eq_ok.1 (of_ok h)
      cases h; rfl

theorem finalized_apart {ps : List Text} (h : ps.Nodup) : (ps.map Ev.finalized).Pairwise Apart := by
  rw [List.pairwise_map]
  refine List.Pairwise.imp ?_ h
  intro a b hab p hp
  cases hp
  exact fun he => hab he.symm

theorem tr_rollover {a b : XW} (ha : Good cfg a) (h0 : a.nulls = 0) (hi : a.st.appendIdx + 1 < 2 ^ 32)
    (h : (rolloverX env a).Leaves b) : Tr cfg 1 a b := by
  unfold rolloverX at h
  rcases leaves_of h with h | ⟨_, h⟩
  · obtain ⟨s, h1, h⟩ := Res.bind_eq_ok.1 h
    cases h
    unfold rollover at h1
    obtain ⟨evs, h3, h2⟩ := Res.bind_eq_ok.1 h1
    have he := finalizeSinks_paths h3
    subst he
    cases h2
    have hu : u32 (a.st.appendIdx + 1) = a.st.appendIdx + 1 := Nat.mod_eq_of_lt hi
    refine ⟨⟨⟨by simp, by simp⟩, by simp⟩, by dsimp only; omega, by dsimp only; omega, _, rfl, ?_, ?_, finalized_apart ha.cur.nodup, by omega⟩
    · intro e he
      obtain ⟨p, hp, rfl⟩ := List.mem_map.1 he
      obtain ⟨l, rfl⟩ := ha.cur.group p hp
      exact .inr ⟨_, l, rfl, Nat.le_refl _⟩
    · intro p hp
      obtain ⟨q, hq, e⟩ := List.mem_map.1 hp
      cases e
      obtain ⟨l, rfl⟩ := ha.cur.group p hq
      exact ⟨_, l, rfl, .inl (by dsimp only; omega)⟩
  · subst h
    have hpre : (a.st.dataSinks.takeWhile env.finalize) <+: a.st.dataSinks := List.takeWhile_prefix _
    refine ⟨⟨ha.cur.of_eq rfl rfl, ?_⟩, Nat.le_refl _, Nat.le_succ _, _, rfl, ?_, ?_,
      finalized_apart (ha.cur.nodup.sublist hpre.sublist), by omega⟩
    · intro hpos he
      dsimp only at hpos he
      rw [he] at hpos
      simp at hpos
    · intro e he
      obtain ⟨p, hp, rfl⟩ := List.mem_map.1 he
      obtain ⟨l, rfl⟩ := ha.cur.group p (hpre.subset hp)
      exact .inr ⟨_, l, rfl, Nat.le_refl _⟩
    · intro p hp
      obtain ⟨q, hq, e⟩ := List.mem_map.1 hp
      cases e
      obtain ⟨l, hl⟩ := ha.cur.group p (hpre.subset hq)
      refine ⟨_, l, hl, .inr ?_⟩
      unfold XW.closed
      dsimp only
      rw [← List.prefix_iff_eq_take.1 hpre]
      exact hq

theorem tr_meta {a b : XW} (ha : Good cfg a) (h0 : a.nulls = 0) (h : (writeArrayMetadataX env cfg a).Leaves b) :
    Tr cfg 0 a b := by
  have key : ∀ (s : WState) (evs : List Ev), s.trace = a.st.trace ++ evs → s.appendIdx = a.st.appendIdx →
      s.dataSinks = a.st.dataSinks → (∀ e ∈ evs, e.path = arrayMetaPath cfg ∧ ∀ p, e ≠ .finalized p) →
      Tr cfg 0 a { a with st := s } := by
    intro s evs t1 t2 t3 t4
    refine ⟨⟨ha.cur.of_eq t3 t2, by dsimp only; omega⟩, by dsimp only; omega, by dsimp only; omega, evs, t1, fun e he => .inl (t4 e he).1,
      fun p hp => absurd rfl ((t4 _ hp).2 p), ?_, by omega⟩
    refine List.pairwise_iff_forall_sublist.2 ?_
    intro x y hxy p hp
    exact absurd hp ((t4 x (hxy.subset (by simp))).2 p)
  unfold writeArrayMetadataX at h
  dsimp only at h
  rcases leaves_of h with h | ⟨_, h⟩
  · obtain ⟨s, h1, h⟩ := Res.bind_eq_ok.1 h
    cases h
    unfold writeArrayMetadata at h1
    obtain ⟨_, _, h1⟩ := Res.bind_eq_ok.1 h1
    obtain ⟨n, _, h1⟩ := Res.bind_eq_ok.1 h1
    generalize hx : (if a.st.metaSink then a.st else { a.st with metaSink := true, trace := a.st.trace ++ [.opened (arrayMetaPath cfg)] } : WState) = x at h1
    have hx' : ∃ e0, x.trace = a.st.trace ++ e0 ∧ x.appendIdx = a.st.appendIdx ∧ x.dataSinks = a.st.dataSinks ∧
        ∀ e ∈ e0, e.path = arrayMetaPath cfg ∧ ∀ p, e ≠ .finalized p := by
      rw [← hx]
      split
      · exact ⟨[], by simp, rfl, rfl, by simp⟩
      · refine ⟨_, rfl, rfl, rfl, ?_⟩
        intro e he
        simp at he; subst he; exact ⟨rfl, by simp⟩
    obtain ⟨e0, x1, x2, x3, x4⟩ := hx'
    split at h1
    · cases h1
      refine key _ (e0 ++ [.wrote (arrayMetaPath cfg) 0 (metaDoc cfg n)]) (by dsimp only; rw [x1, List.append_assoc]) x2 x3 ?_
      intro e he
      rcases List.mem_append.1 he with he | he
      · exact x4 e he
      · simp at he; subst he; exact ⟨rfl, by simp⟩
    · cases h1
      exact key _ e0 x1 x2 x3 x4
    · simp at h1
    · simp at h1
  · subst h
    split
    · refine key _ _ rfl rfl rfl ?_
      intro e he
      simp at he; subst he; exact ⟨rfl, by simp⟩
    · exact Tr.of_eq ha rfl rfl rfl rfl

theorem tr_flush {a b : XW} (ha : Good cfg a) (hi : a.st.appendIdx + 1 < 2 ^ 32) (h : (flushX env cfg a).Leaves b) :
    Tr cfg 1 a b := by
  unfold flushX at h
  split at h
  · rcases h with ⟨_, h⟩ | h
    · cases h; exact (Tr.of_eq ha rfl rfl rfl rfl).mono (by omega)
    · simp at h
  · dsimp only at h
    have hc : Tr cfg 0 a { a with st := compressBuffers env cfg a.st } := by
      refine Tr.of_eq ha ?_ ?_ ?_ rfl <;> unfold compressBuffers <;> dsimp only <;> split <;> rfl
    generalize { a with st := compressBuffers env cfg a.st } = c at h hc
    rcases Out.leaves_bind h with h | ⟨_, d, h1, h⟩
    · exact (hc.trans (tr_flushImpl hc.good (.inr h))).mono (by omega)
    · have hd := tr_flushImpl hc.good (.inl ⟨_, h1⟩)
      have hd0 := flushImpl_nulls h1
      have had := hc.trans hd
      split at h
      · rcases h with ⟨_, h⟩ | h
        · simp at h
        · cases h; exact had.mono (by omega)
      · rcases h with ⟨_, h⟩ | h <;> simp at h
      · rename_i roll _
        have hroll : ∀ e, Out.Leaves (if roll = true then rolloverX env d else .ok () d) e → Tr cfg 1 d e := by
          intro e he
          split at he
          · exact tr_rollover hd.good hd0 (by have := hc.hi; have := hd.hi; omega) he
          · rcases he with ⟨_, he⟩ | he
            · cases he; exact (Tr.of_eq hd.good rfl rfl rfl rfl).mono (by omega)
            · simp at he
        rcases Out.leaves_bind h with h | ⟨_, e, h2, h⟩
        · exact (had.trans (hroll b (.inr h))).mono (by omega)
        · have hde := hroll e (.inl ⟨_, h2⟩)
          have hae := had.trans hde
          have he0 : e.nulls = 0 := by
            split at h2
            · unfold rolloverX at h2
              obtain ⟨s, _, h⟩ := Res.bind_eq_ok.1 (of_ok h2)
              cases h; rfl
            · cases h2; exact hd0
          have hmeta : ∀ f, Out.Leaves (if (roll || e.st.finalizing) = true then writeArrayMetadataX env cfg e else .ok () e) f →
              Tr cfg 0 e f := by
            intro f hf
            split at hf
            · exact tr_meta hde.good he0 hf
            · rcases hf with ⟨_, hf⟩ | hf
              · cases hf; exact Tr.of_eq hde.good rfl rfl rfl rfl
              · simp at hf
          rcases Out.leaves_bind h with h | ⟨_, f, h3, h⟩
          · exact (hae.trans (hmeta b (.inr h))).mono (by omega)
          · have haf := hae.trans (hmeta f (.inl ⟨_, h3⟩))
            rcases h with ⟨_, h⟩ | h
            · cases h
              have hlast : Tr cfg 0 f { f with st := { f.st with bufs := makeBuffers cfg.dims, bytesToFlush := 0 } } :=
                Tr.of_eq haf.good rfl rfl rfl rfl
              exact (haf.trans hlast).mono (by omega)
            · simp at h

theorem tr_writeFrame {a b : XW} {data : Bytes} (ha : Good cfg a) (hi : a.st.appendIdx + 1 < 2 ^ 32)
    (h : (writeFrameX env cfg data a).Leaves b) : Tr cfg 1 a b := by
  have eqs : ∀ s : WState, s.trace = a.st.trace → s.appendIdx = a.st.appendIdx → s.dataSinks = a.st.dataSinks →
      Tr cfg 0 a { a with st := s } := fun s t1 t2 t3 => Tr.of_eq ha t1 t2 t3 rfl
  unfold writeFrameX at h
  split at h
  · rcases h with ⟨_, h⟩ | h
    · cases h; exact (Tr.of_eq ha rfl rfl rfl rfl).mono (by omega)
    · simp at h
  · dsimp only at h
    generalize hx : (if a.st.bufs.isEmpty = true then { a.st with bufs := makeBuffers cfg.dims } else a.st : WState) = x at h
    have hx' : x.trace = a.st.trace ∧ x.appendIdx = a.st.appendIdx ∧ x.dataSinks = a.st.dataSinks := by
      rw [← hx]; split <;> exact ⟨rfl, rfl, rfl⟩
    obtain ⟨x1, x2, x3⟩ := hx'
    split at h
    · rcases h with ⟨_, h⟩ | h
      · simp at h
      · cases h; exact (eqs _ x1 x2 x3).mono (by omega)
    · rcases h with ⟨_, h⟩ | h <;> simp at h
    · rename_i bufs n _
      split at h
      · rcases h with ⟨_, h⟩ | h
        · simp at h
        · cases h
          exact (eqs { x with bufs := bufs } x1 x2 x3).mono (by omega)
      · generalize hy : ({ x with bufs := bufs, bytesToFlush := u64 (x.bytesToFlush + n),
                                  framesWritten := u32 (x.framesWritten + 1) } : WState) = y at h
        have hty : Tr cfg 0 a { a with st := y } := by
          rw [← hy]; exact eqs _ x1 x2 x3
        split at h
        · rcases h with ⟨_, h⟩ | h
          · simp at h
          · cases h; exact hty.mono (by omega)
        · rcases h with ⟨_, h⟩ | h <;> simp at h
        · rename_i fl _
          have hfl : ∀ e, Out.Leaves (if fl = true then flushX env cfg { a with st := y } else .ok () { a with st := y }) e →
              Tr cfg 1 { a with st := y } e := by
            intro e he
            split at he
            · exact tr_flush hty.good (by have := hty.hi; omega) he
            · rcases he with ⟨_, he⟩ | he
              · cases he; exact (Tr.of_eq hty.good rfl rfl rfl rfl).mono (by omega)
              · simp at he
          rcases Out.leaves_bind h with h | ⟨_, e, h2, h⟩
          · exact (hty.trans (hfl b (.inr h))).mono (by omega)
          · rcases h with ⟨_, h⟩ | h
            · cases h
              exact (hty.trans (hfl b (.inl ⟨_, h2⟩))).mono (by omega)
            · simp at h

/-- What closing an array adds to the history. -/
theorem finish {a b : XW} (ha : Good cfg a) (hi : a.st.appendIdx + 1 < 2 ^ 32) (h : (finalizeArrayX env cfg a).Leaves b) :
    ∃ evs, b.st.trace = a.st.trace ++ evs ∧ evs.Pairwise Apart ∧ (∀ e ∈ evs, Owned cfg e.path) ∧
      ∀ g l, (g < a.st.appendIdx ∨ objectPath cfg g l ∈ a.closed) → ∀ e ∈ evs, e.path ≠ objectPath cfg g l := by
  unfold finalizeArrayX at h
  have h0 : Tr cfg 0 a { a with st := { a.st with finalizing := true } } := Tr.of_eq ha rfl rfl rfl rfl
  -- what the flush contributes
  have part : ∀ c, Tr cfg 1 a c → ∀ tail, tail.Pairwise Apart → (∀ e ∈ tail, Owned cfg e.path) →
      (∀ g l, (g < c.st.appendIdx ∨ objectPath cfg g l ∈ c.closed) → ∀ e ∈ tail, e.path ≠ objectPath cfg g l) →
      b.st.trace = c.st.trace ++ tail → 
      ∃ evs, b.st.trace = a.st.trace ++ evs ∧ evs.Pairwise Apart ∧ (∀ e ∈ evs, Owned cfg e.path) ∧
        ∀ g l, (g < a.st.appendIdx ∨ objectPath cfg g l ∈ a.closed) → ∀ e ∈ evs, e.path ≠ objectPath cfg g l := by
    intro c hc tail k1 k2 k3 k4
    obtain ⟨g1, l1, u1, e1, t1, p1, f1, c1, s1⟩ := hc
    refine ⟨e1 ++ tail, by rw [k4, t1, List.append_assoc], ?_, ?_, ?_⟩
    · refine List.pairwise_append.2 ⟨c1, k1, ?_⟩
      intro x hx y hy p hp
      subst hp
      obtain ⟨g, l, rfl, hg⟩ := f1 p hx
      exact k3 g l hg y hy
    · intro e he
      rcases List.mem_append.1 he with he | he
      · rcases p1 e he with h | ⟨g, l, h, _⟩
        · exact .inl h
        · exact .inr ⟨g, l, h⟩
      · exact k2 e he
    · intro g l hg e he
      rcases List.mem_append.1 he with he | he
      · rcases hg with hg | hg
        · intro hp
          rcases p1 e he with h | ⟨g', l', h, hg'⟩
          · exact objectPath_ne_metaPath (SameStore.refl cfg) g l (hp.symm.trans h)
          · obtain ⟨_, q, _⟩ := objectPath_inj_level (SameStore.refl cfg) (hp.symm.trans h)
            omega
        · rw [(s1 (closed_pos hg)).1] at he
          simp at he
      · refine k3 g l ?_ e he
        rcases hg with hg | hg
        · exact .inl (by omega)
        · obtain ⟨_, _, q2, q3⟩ := s1 (closed_pos hg)
          refine .inr ?_
          unfold XW.closed at hg ⊢
          rw [q2, q3]; exact hg
  rcases Out.leaves_bind h with h | ⟨_, c, h1, h⟩
  · have hc := (h0.trans (tr_flush h0.good (by have := h0.hi; omega) (.inr h))).mono (k' := 1) (by omega)
    exact part b hc [] List.Pairwise.nil (by simp) (by simp) (by simp)
  · have hc := (h0.trans (tr_flush h0.good (by have := h0.hi; omega) (.inl ⟨_, h1⟩))).mono (k' := 1) (by omega)
    -- the sinks that are dropped
    have hdrop : ((c.st.dataSinks.drop c.nulls).map Ev.dropped).Pairwise Apart := by
      refine List.pairwise_iff_forall_sublist.2 ?_
      intro x y hxy p hp
      have := hxy.subset (show x ∈ [x, y] by simp)
      obtain ⟨q, _, rfl⟩ := List.mem_map.1 this
      cases hp
    have howned : ∀ e ∈ (c.st.dataSinks.drop c.nulls).map Ev.dropped, ∃ l, e.path = objectPath cfg c.st.appendIdx l := by
      intro e he
      obtain ⟨q, hq, rfl⟩ := List.mem_map.1 he
      exact hc.good.cur.group q (List.mem_of_mem_drop hq)
    have hfresh : ∀ g l, (g < c.st.appendIdx ∨ objectPath cfg g l ∈ c.closed) →
        ∀ e ∈ (c.st.dataSinks.drop c.nulls).map Ev.dropped, e.path ≠ objectPath cfg g l := by
      intro g l hg e he hp
      rcases hg with hg | hg
      · obtain ⟨l', h⟩ := howned e he
        obtain ⟨_, q, _⟩ := objectPath_inj_level (SameStore.refl cfg) (hp.symm.trans h)
        omega
      · obtain ⟨q, hq, rfl⟩ := List.mem_map.1 he
        have hq' : q = objectPath cfg g l := hp
        subst hq'
        have hn := hc.good.cur.nodup
        rw [← List.take_append_drop c.nulls c.st.dataSinks] at hn
        exact (List.nodup_append.1 hn).2.2 _ hg _ hq rfl
    dsimp only at h
    split at h
    · split at h
      · rcases h with ⟨_, h⟩ | h
        · cases h
          refine part c hc ([.finalized (arrayMetaPath cfg)] ++ (c.st.dataSinks.drop c.nulls).map Ev.dropped) ?_ ?_ ?_
            (by dsimp only; rw [List.append_assoc])
          · refine List.pairwise_append.2 ⟨List.pairwise_singleton _ _, hdrop, ?_⟩
            intro x hx y hy p hp
            simp at hx
            subst hx
            cases hp
            obtain ⟨l, hl⟩ := howned y hy
            rw [hl]
            exact objectPath_ne_metaPath (SameStore.refl cfg) _ _
          · intro e he
            rcases List.mem_append.1 he with he | he
            · simp at he; subst he; exact .inl rfl
            · obtain ⟨l, hl⟩ := howned e he
              exact .inr ⟨_, l, hl⟩
          · intro g l hg e he
            rcases List.mem_append.1 he with he | he
            · simp at he; subst he
              exact (objectPath_ne_metaPath (SameStore.refl cfg) _ _).symm
            · exact hfresh g l hg e he
        · simp at h
      · rcases h with ⟨_, h⟩ | h
        · simp at h
        · cases h
          exact part _ hc [] List.Pairwise.nil (by simp) (by simp) (by simp)
    · rcases h with ⟨_, h⟩ | h
      · cases h
        refine part c hc _ hdrop ?_ hfresh rfl
        intro e he
        obtain ⟨l, hl⟩ := howned e he
        exact .inr ⟨_, l, hl⟩
      · simp at h

end Exc
end AZ
