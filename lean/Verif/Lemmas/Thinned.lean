import Verif.Lemmas.Honest
import Verif.Lemmas.Exceptions

set_option linter.unusedSimpArgs false
set_option linter.unusedVariables false

/-! # Streams on storage that fails

A session whose calls do not throw does what the session on perfect storage does, except that some writes are missing: version 2, and version 3 with one layer of chunks in
a shard (with more layers a lost chunk moves the chunks of later layers in their shard). -/

namespace AZ
open Exc

/-- `a` is `b` with some of the writes missing. -/
inductive Thinned : List Ev → List Ev → Prop
  | nil : Thinned [] []
  | keep {a b : List Ev} (e : Ev) : Thinned a b → Thinned (e :: a) (e :: b)
  | lost {a b : List Ev} (p : Text) (off : Nat) (d : Bytes) : Thinned a b → Thinned a (.wrote p off d :: b)

theorem Thinned.refl : ∀ a, Thinned a a
  | [] => .nil
  | e :: a => .keep e (refl a)

theorem Thinned.append {a b c d : List Ev} (h : Thinned a b) (h' : Thinned c d) : Thinned (a ++ c) (b ++ d) := by
  induction h with
  | nil => exact h'
  | keep e _ ih => exact .keep e ih
  | lost p o x _ ih => exact .lost p o x ih

theorem Thinned.about {a b : List Ev} (h : Thinned a b) (p : Text) : Thinned (about p a) (about p b) := by
  induction h with
  | nil => exact .nil
  | @keep a b e _ ih =>
    unfold AZ.about at ih ⊢
    by_cases he : e.path = p
    · rw [List.filter_cons_of_pos (by simpa using he), List.filter_cons_of_pos (by simpa using he)]
      exact .keep e ih
    · rw [List.filter_cons_of_neg (by simpa using he), List.filter_cons_of_neg (by simpa using he)]
      exact ih
  | @lost a b q o d _ ih =>
    unfold AZ.about at ih ⊢
    by_cases he : (Ev.wrote q o d).path = p
    · rw [List.filter_cons_of_pos (p := fun e : Ev => decide (e.path = p)) (by simpa using he)]
      exact .lost q o d ih
    · rw [List.filter_cons_of_neg (p := fun e : Ev => decide (e.path = p)) (by simpa using he)]
      exact ih

/-- `a` is the beginning of `b` with some of the writes missing. -/
def Cut (a b : List Ev) : Prop := ∃ pre, pre <+: b ∧ Thinned a pre

theorem Thinned.cut {a b : List Ev} (h : Thinned a b) : Cut a b := ⟨b, List.prefix_rfl, h⟩

theorem Thinned.cut_append {a b c d : List Ev} (h : Thinned a b) (h' : Cut c d) : Cut (a ++ c) (b ++ d) := by
  obtain ⟨pre, ⟨r, hr⟩, ht⟩ := h'
  exact ⟨b ++ pre, ⟨r, by rw [List.append_assoc, hr]⟩, h.append ht⟩

theorem Cut.right {a b c : List Ev} (h : Cut a b) : Cut a (b ++ c) := by
  obtain ⟨pre, hp, ht⟩ := h
  exact ⟨pre, hp.trans (List.prefix_append ..), ht⟩

theorem Cut.about {a b : List Ev} (h : Cut a b) (p : Text) : Cut (about p a) (about p b) := by
  obtain ⟨pre, hp, ht⟩ := h
  exact ⟨AZ.about p pre, hp.filter _, ht.about p⟩

/-! ### One array -/

/-- The same writer but for its history and messages. -/
def Twin (a b : WState) : Prop := b = { a with trace := b.trace, errors := b.errors }

/-- What the writer `a` did compared with what the writer `b` did. -/
def Moves (a a' b b' : WState) : Prop :=
  Twin a' b' ∧ ∃ e e', a'.trace = a.trace ++ e ∧ b'.trace = b.trace ++ e' ∧ Thinned e e'

theorem Twin.refl (a : WState) : Twin a a := rfl

theorem Moves.none {a b : WState} (h : Twin a b) : Moves a a b b := ⟨h, [], [], by simp, by simp, .nil⟩

theorem Moves.trans {a a' a'' b b' b'' : WState} (h : Moves a a' b b') (h' : Moves a' a'' b' b'') : Moves a a'' b b'' := by
  obtain ⟨_, e, f, h1, h2, h3⟩ := h
  obtain ⟨t, e', f', h1', h2', h3'⟩ := h'
  exact ⟨t, e ++ e', f ++ f', by rw [h1', h1, List.append_assoc], by rw [h2', h2, List.append_assoc], h3.append h3'⟩

variable {env : Env} {cfg : WConfig} {a a' b b' : WState}

theorem thin_compress (h : Twin a b) : Moves a (compressBuffers env cfg a) b (compressBuffers (perfect env) cfg b) := by
  unfold compressBuffers
  cases cfg.compression with
  | none => exact .none h
  | some p =>
    unfold Twin at h
    rw [h]
    exact ⟨rfl, [], [], by simp, by simp, .nil⟩

theorem thin_chunkJobs (l : List (Text × Bytes)) :
    Thinned ((l.map fun x => chunkJob env x.1 x.2).flatMap (·.1)) ((l.map fun x => chunkJob (perfect env) x.1 x.2).flatMap (·.1)) := by
  induction l with
  | nil => exact .nil
  | cons x l ih =>
    simp only [List.map_cons, List.flatMap_cons]
    refine Thinned.append ?_ ih
    unfold chunkJob
    have : (perfect env).write x.1 0 x.2 = .stored := rfl
    rw [this]
    dsimp only
    cases env.write x.1 0 x.2 with
    | stored => exact .refl _
    | silent => exact .lost _ _ _ .nil
    | failed => exact .lost _ _ _ .nil
    | threw => exact .lost _ _ _ .nil

/-- Version 2, or version 3 with one layer of chunks in a shard. -/
def OneLayer (cfg : WConfig) : Prop :=
  cfg.version = .v2 ∨ (cfg.version = .v3 ∧ cfg.dims.append.shardSize = 1 ∧ cfg.dims.append.chunkSize < 2 ^ 32)

/-- The writer is about to complete its shards. -/
def Due (cfg : WConfig) (a : WState) : Prop := a.finalizing = true ∨ shouldRollover cfg a = .ok true

theorem due_of_flush (hV : OneLayer cfg) (h : shouldFlush cfg.dims a = .ok true) : Due cfg a := by
  right
  unfold shouldRollover
  rcases hV with hV | ⟨hV, h1, h2⟩
  · rw [hV]
  · rw [hV]
    dsimp only
    have : u32 (cfg.dims.append.chunkSize * cfg.dims.append.shardSize) = cfg.dims.append.chunkSize := by
      rw [h1, Nat.mul_one]
      exact Nat.mod_eq_of_lt h2
    rw [this]
    exact h

theorem thin_flushImplV2 (hV : cfg.version = .v2) (h : AZ.flushImpl env cfg a = .ok a') (ht : Twin a b) :
    ∃ b', AZ.flushImpl (perfect env) cfg b = .ok b' ∧ Moves a a' b b' := by
  unfold Twin at ht
  rw [ht]
  simp only [AZ.flushImpl, hV] at h ⊢
  unfold flushImplV2 at h ⊢
  obtain ⟨u, hu, h⟩ := Res.bind_eq_ok.1 h
  dsimp only
  rw [hu, Res.bind_ok]
  unfold makeDataSinks at h ⊢
  dsimp only
  split at h
  · simp at h
  · rename_i s1 hs
    split at hs
    · simp at hs
    · rename_i paths hp
      split at hs
      · cases hs
        obtain ⟨u', hu', h⟩ := Res.bind_eq_ok.1 h
        simp only [perfect, if_true]
        dsimp only at hu'
        rw [hu', Res.bind_ok]
        cases h
        refine ⟨_, rfl, rfl, (paths.map Ev.opened) ++ _, (paths.map Ev.opened) ++ _, by simp only [List.append_assoc]; rfl,
          by simp only [List.append_assoc]; rfl, ?_⟩
        exact (Thinned.refl _).append (thin_chunkJobs _)
      · simp at hs

/-- A loop over the chunks of a shard, compared with perfect storage. -/
theorem thin_shardLoop (D : ArrayDims) (p : Text) (bufs : List Bytes) (cs : List Nat) {j k : ShardJob}
    (ht : k.table = j.table) (ho : k.offset = j.offset) (he : k.err = j.err) (hs : j.success = true → k.success = true)
    (ht0 : Thinned j.trace k.trace) :
    Thinned (shardLoop env D p bufs cs j).trace (shardLoop (perfect env) D p bufs cs k).trace ∧
    ((shardLoop env D p bufs cs j).err = [] → (shardLoop env D p bufs cs j).success = true →
      (shardLoop (perfect env) D p bufs cs k).table = (shardLoop env D p bufs cs j).table ∧
      (shardLoop (perfect env) D p bufs cs k).offset = (shardLoop env D p bufs cs j).offset ∧
      (shardLoop (perfect env) D p bufs cs k).err = [] ∧ (shardLoop (perfect env) D p bufs cs k).success = true) := by
  have grow : ∀ (cs : List Nat) (k : ShardJob), ∀ a, Thinned a k.trace → Thinned a (shardLoop (perfect env) D p bufs cs k).trace := by
    intro cs
    induction cs with
    | nil => intro k a h; exact h
    | cons c cs ih =>
      intro k a h
      unfold shardLoop
      cases bufs[c]? with
      | none => exact h
      | some chunk =>
        have hw : (perfect env).write p k.offset chunk = .stored := rfl
        simp only [hw, if_true]
        have h' : Thinned a (k.trace ++ [Ev.wrote p k.offset chunk]) := by
          have := h.append (.lost p k.offset chunk .nil)
          rwa [List.append_nil] at this
        split
        · exact ih _ _ h'
        · exact h'
  induction cs generalizing j k with
  | nil => exact ⟨ht0, fun h1 h2 => ⟨ht, ho, by rw [show (shardLoop (perfect env) D p bufs [] k).err = k.err from rfl, he]; exact h1, hs h2⟩⟩
  | cons c cs ih =>
    have hg := grow (c :: cs) k
    unfold shardLoop at hg ⊢
    cases hb : bufs[c]? with
    | none => exact ⟨ht0, fun h1 => absurd h1 (by simp)⟩
    | some chunk =>
      have hw : (perfect env).write p k.offset chunk = .stored := rfl
      simp only [hb, hw, if_true] at hg ⊢
      have key : ∀ evs, Thinned evs [Ev.wrote p k.offset chunk] →
          Thinned (j.trace ++ evs) (k.trace ++ [Ev.wrote p k.offset chunk]) := fun evs h => ht0.append h
      rw [ho, ht] at *
      cases hwr : env.write p j.offset chunk with
      | threw => exact ⟨hg _ ht0, fun h1 => absurd h1 (by simp)⟩
      | failed => exact ⟨hg _ ht0, fun _ h2 => absurd h2 (by simp)⟩
      | stored =>
        simp only [if_true]
        split
        · exact ih rfl rfl he (fun _ => rfl) (key _ (.refl _))
        · exact ⟨key _ (.refl _), fun h1 => absurd h1 (by simp)⟩
      | silent =>
        simp only [reduceCtorEq, if_false]
        split
        · exact ih rfl rfl he (fun _ => rfl) (key _ (.lost _ _ _ .nil))
        · exact ⟨key _ (.lost _ _ _ .nil), fun h1 => absurd h1 (by simp)⟩

theorem thin_shardJob (D : ArrayDims) (p : Text) (bufs : List Bytes) (cs table : List Nat) (offset : Nat) (wt : Bool) :
    Thinned (shardJob env D p bufs cs table offset wt).trace (shardJob (perfect env) D p bufs cs table offset wt).trace := by
  obtain ⟨h1, h2⟩ := thin_shardLoop (env := env) D p bufs cs (j := ⟨table, offset, false, false, [], []⟩)
    (k := ⟨table, offset, false, false, [], []⟩) rfl rfl rfl id .nil
  unfold shardJob
  dsimp only
  generalize shardLoop env D p bufs cs ⟨table, offset, false, false, [], []⟩ = j at *
  generalize shardLoop (perfect env) D p bufs cs ⟨table, offset, false, false, [], []⟩ = k at *
  have hw : ∀ d, (perfect env).write p k.offset d = .stored := fun _ => rfl
  simp only [hw]
  have more : ∀ d, Thinned j.trace (k.trace ++ [Ev.wrote p k.offset d]) := by
    intro d
    have := h1.append (.lost p k.offset d .nil)
    rwa [List.append_nil] at this
  by_cases hc : (j.err.isEmpty && j.success && wt) = true
  · rw [if_pos hc]
    simp only [Bool.and_eq_true, List.isEmpty_iff] at hc
    obtain ⟨e1, e2, e3, e4⟩ := h2 hc.1.1 hc.1.2
    rw [if_pos (by simp [e3, e4, hc.2])]
    cases hwr : env.write p j.offset (j.table.flatMap u64le) with
    | stored => dsimp only; rw [e1, e2]; exact h1.append (.refl _)
    | silent => exact more _
    | failed => exact more _
    | threw => exact more _
  · rw [if_neg hc]
    split
    · exact more _
    · exact h1

theorem thin_flatMap {α : Type} {f g : α → List Ev} (l : List α) (h : ∀ x, Thinned (f x) (g x)) : Thinned (l.flatMap f) (l.flatMap g) := by
  induction l with
  | nil => exact .nil
  | cons x l ih => rw [List.flatMap_cons, List.flatMap_cons]; exact (h x).append ih

theorem thin_flushImplV3 (hV : cfg.version = .v3) (hdue : Due cfg a) (h : AZ.flushImpl env cfg a = .ok a') (ht : Twin a b) :
    ∃ b', AZ.flushImpl (perfect env) cfg b = .ok b' ∧ Moves a a' b b' := by
  simp only [AZ.flushImpl, hV] at h ⊢
  unfold flushImplV3 at h ⊢
  obtain ⟨s1, hs1, h⟩ : ∃ s1, (if a.dataSinks.isEmpty then makeDataSinks env cfg a else some a) = some s1 ∧
      (do check (s1.dataSinks.length == cfg.dims.numberOfShards)
          if !shardIndicesOk cfg.dims s1.bufs.length then .ub else
          let rollover ← shouldRollover cfg s1
          let writeTable := s1.finalizing || rollover
          check (s1.shardTables.length == cfg.dims.numberOfShards && s1.shardOffsets.length == cfg.dims.numberOfShards)
          let jobs := (List.range cfg.dims.numberOfShards).map fun i =>
            shardJob env cfg.dims (s1.dataSinks.getD i []) s1.bufs (chunksInShard cfg.dims s1.bufs.length i)
              (s1.shardTables.getD i []) (s1.shardOffsets.getD i 0) writeTable
          pure { s1 with
            trace := s1.trace ++ jobs.flatMap (·.trace)
            errors := s1.errors ++ jobs.flatMap fun j => if j.success then [] else [j.err]
            shardTables := if writeTable then s1.shardTables.map fun _ => emptyTable cfg.dims
              else jobs.map (·.table)
            shardOffsets := if writeTable then s1.shardOffsets.map fun _ => 0 else jobs.map (·.offset) }) = Res.ok a' := by
    dsimp only at h
    split at h
    · cases h
    · rename_i s1 hs
      exact ⟨s1, hs, h⟩
  obtain ⟨t1, ht1, m1⟩ : ∃ t1, (if b.dataSinks.isEmpty then makeDataSinks (perfect env) cfg b else some b) = some t1 ∧ Moves a s1 b t1 := by
    have e : b.dataSinks = a.dataSinks := by rw [ht]
    rw [e]
    split at hs1
    · rename_i hc
      rw [if_pos hc]
      unfold makeDataSinks at hs1 ⊢
      have e1 : b.appendIdx = a.appendIdx := by rw [ht]
      simp only [e1]
      split at hs1
      · simp at hs1
      · rename_i paths hp
        split at hs1
        · cases hs1
          simp only [perfect, if_true]
          refine ⟨_, rfl, ?_, paths.map Ev.opened, paths.map Ev.opened, rfl, rfl, .refl _⟩
          unfold Twin at ht ⊢
          rw [ht]
        · simp at hs1
    · rename_i hc
      rw [if_neg hc]
      cases hs1
      exact ⟨_, rfl, .none ht⟩
  have hsame : s1.finalizing = a.finalizing ∧ s1.framesWritten = a.framesWritten := by
    split at hs1
    · unfold makeDataSinks at hs1
      split at hs1
      · simp at hs1
      · split at hs1
        · cases hs1; exact ⟨rfl, rfl⟩
        · simp at hs1
    · cases hs1; exact ⟨rfl, rfl⟩
  have tw := m1.1
  dsimp only
  rw [ht1]
  dsimp only
  obtain ⟨u, hu, h⟩ := Res.bind_eq_ok.1 h
  split at h
  · cases h
  · rename_i hok
    obtain ⟨roll, hr, h⟩ := Res.bind_eq_ok.1 h
    obtain ⟨u', hu', h⟩ := Res.bind_eq_ok.1 h
    have hwt : (s1.finalizing || roll) = true := by
      rcases hdue with hd | hd
      · rw [hsame.1, hd]; rfl
      · have : shouldRollover cfg s1 = shouldRollover cfg a := by
          unfold shouldRollover
          rw [hsame.2]
        rw [this, hd] at hr
        cases hr
        simp
    unfold Twin at tw
    generalize t1.trace = tt at tw m1 ⊢
    generalize t1.errors = te at tw m1 ⊢
    subst tw
    dsimp only at *
    rw [hu, Res.bind_ok, if_neg hok]
    have hr' : shouldRollover cfg { s1 with trace := tt, errors := te } = .ok roll := hr
    rw [hr', Res.bind_ok, hu', Res.bind_ok]
    simp only [hwt, if_true] at h ⊢
    cases h
    refine ⟨_, rfl, m1.trans ⟨rfl, _, _, rfl, rfl, ?_⟩⟩
    simp only [List.flatMap_map]
    exact thin_flatMap _ fun i => thin_shardJob ..

theorem thin_flushImpl (hV : OneLayer cfg) (hdue : Due cfg a) (h : AZ.flushImpl env cfg a = .ok a') (ht : Twin a b) :
    ∃ b', AZ.flushImpl (perfect env) cfg b = .ok b' ∧ Moves a a' b b' := by
  rcases hV with hV | ⟨hV, _⟩
  · exact thin_flushImplV2 hV h ht
  · exact thin_flushImplV3 hV hdue h ht

theorem due_compress (h : Due cfg a) : Due cfg (compressBuffers env cfg a) := by
  unfold compressBuffers
  cases cfg.compression with
  | none => exact h
  | some p => exact h

theorem thin_rollover (h : rollover env a = .ok a') (ht : Twin a b) :
    ∃ b', rollover (perfect env) b = .ok b' ∧ Moves a a' b b' := by
  unfold Twin at ht
  rw [ht]
  unfold rollover at h ⊢
  obtain ⟨evs, hr, h⟩ := Res.bind_eq_ok.1 h
  dsimp only
  rw [finalizeSinks_perfect hr, Res.bind_ok]
  cases h
  exact ⟨_, rfl, rfl, evs, evs, rfl, rfl, .refl _⟩

theorem thin_meta (h : writeArrayMetadata env cfg a = .ok a') (ht : Twin a b) :
    ∃ b', writeArrayMetadata (perfect env) cfg b = .ok b' ∧ Moves a a' b b' := by
  unfold Twin at ht
  rw [ht]
  unfold writeArrayMetadata at h ⊢
  dsimp only at h ⊢
  obtain ⟨u, hu, h⟩ := Res.bind_eq_ok.1 h
  have : check (a.metaSink || (perfect env).makeMetaSink (arrayMetaPath cfg)) = .ok () := by
    simp [perfect, check]
  rw [this]
  simp only [Res.bind_ok]
  obtain ⟨n, hn, h⟩ := Res.bind_eq_ok.1 h
  have hw : (perfect env).write (arrayMetaPath cfg) 0 (metaDoc cfg n) = .stored := rfl
  cases hm : a.metaSink with
  | true =>
    simp only [hm, if_true] at h hn ⊢
    rw [hn, Res.bind_ok, hw]
    dsimp only
    split at h
    · cases h
      refine ⟨_, rfl, ?_, _, _, rfl, rfl, .refl _⟩
      simp [Twin, hm]
    · cases h
      refine ⟨_, rfl, ?_, [], _, by simp, rfl, .lost _ _ _ .nil⟩
      simp [Twin, hm]
    · cases h
    · cases h
  | false =>
    simp only [hm, Bool.false_eq_true, if_false] at h hn ⊢
    rw [hn, Res.bind_ok, hw]
    dsimp only
    split at h
    · cases h
      exact ⟨_, rfl, rfl, _, _, List.append_assoc .., List.append_assoc .., .refl _⟩
    · cases h
      exact ⟨_, rfl, rfl, _, _, rfl, List.append_assoc .., .keep _ (.lost _ _ _ .nil)⟩
    · cases h
    · cases h

theorem thin_shouldRollover (ht : Twin a b) : shouldRollover cfg b = shouldRollover cfg a := by
  unfold Twin at ht
  rw [ht]
  rfl

theorem thin_flush (hV : OneLayer cfg) (hdue : Due cfg a) (h : flush env cfg a = .ok a') (ht : Twin a b) :
    ∃ b', flush (perfect env) cfg b = .ok b' ∧ Moves a a' b b' := by
  rw [flush_seq] at h ⊢
  have hb : b.bytesToFlush = a.bytesToFlush := by rw [ht]
  rw [hb]
  split at h
  · rename_i hc
    rw [if_pos hc]
    cases h
    exact ⟨_, rfl, .none ht⟩
  · rename_i hc
    rw [if_neg hc]
    obtain ⟨a2, h2, h⟩ := Res.bind_eq_ok.1 h
    obtain ⟨roll, hr, h⟩ := Res.bind_eq_ok.1 h
    obtain ⟨a3, h3, h⟩ := Res.bind_eq_ok.1 h
    obtain ⟨a4, h4, h⟩ := Res.bind_eq_ok.1 h
    have m1 := thin_compress (env := env) (cfg := cfg) ht
    obtain ⟨b2, k2, m2⟩ := thin_flushImpl hV (due_compress hdue) h2 m1.1
    rw [k2, Res.bind_ok, thin_shouldRollover m2.1, hr, Res.bind_ok]
    obtain ⟨b3, k3, m3⟩ : ∃ b3, (if roll then rollover (perfect env) b2 else .ok b2) = .ok b3 ∧ Moves a2 a3 b2 b3 := by
      cases roll with
      | true => exact thin_rollover h3 m2.1
      | false => cases h3; exact ⟨_, rfl, .none m2.1⟩
    rw [k3, Res.bind_ok]
    have hfin : b3.finalizing = a3.finalizing := by rw [m3.1]
    obtain ⟨b4, k4, m4⟩ : ∃ b4, (if roll || b3.finalizing then writeArrayMetadata (perfect env) cfg b3 else .ok b3) = .ok b4 ∧
        Moves a3 a4 b3 b4 := by
      rw [hfin]
      split at h4
      · rename_i hc
        rw [if_pos hc]
        exact thin_meta h4 m3.1
      · rename_i hc
        rw [if_neg hc]
        cases h4; exact ⟨_, rfl, .none m3.1⟩
    rw [k4, Res.bind_ok]
    cases h
    obtain ⟨t, e, e', q1, q2, q3⟩ := ((m1.trans m2).trans m3).trans m4
    refine ⟨_, rfl, ?_, e, e', q1, q2, q3⟩
    unfold Twin at t ⊢
    rw [t]

theorem thin_writeFrame (hV : OneLayer cfg) {data : Bytes} {n : Nat} (h : writeFrame env cfg data a = .ok (a', n)) (ht : Twin a b) :
    ∃ b', writeFrame (perfect env) cfg data b = .ok (b', n) ∧ Moves a a' b b' := by
  rw [writeFrame_seq] at h ⊢
  split at h
  · rename_i hc
    rw [if_pos hc]
    cases h
    exact ⟨_, rfl, .none ht⟩
  · rename_i hc
    rw [if_neg hc]
    dsimp only at h ⊢
    have hb : b.bufs = a.bufs := by rw [ht]
    rw [hb]
    have m0 : Moves a (if a.bufs.isEmpty then { a with bufs := makeBuffers cfg.dims } else a) b
        (if a.bufs.isEmpty then { b with bufs := makeBuffers cfg.dims } else b) := by
      split
      · refine ⟨?_, [], [], by simp, by simp, .nil⟩
        unfold Twin at ht ⊢
        rw [ht]
      · exact .none ht
    generalize (if a.bufs.isEmpty then { a with bufs := makeBuffers cfg.dims } else a) = a0 at h m0 ⊢
    generalize (if a.bufs.isEmpty then { b with bufs := makeBuffers cfg.dims } else b) = b0 at m0 ⊢
    have t0 := m0.1
    obtain ⟨r, h1, h⟩ := Res.bind_eq_ok.1 h
    obtain ⟨u, h2, h⟩ := Res.bind_eq_ok.1 h
    obtain ⟨fl, h3, h⟩ := Res.bind_eq_ok.1 h
    obtain ⟨a2, h4, h⟩ := Res.bind_eq_ok.1 h
    have e1 : b0.framesWritten = a0.framesWritten := by rw [t0]
    have e2 : b0.bufs = a0.bufs := by rw [t0]
    have e3 : b0.bytesToFlush = a0.bytesToFlush := by rw [t0]
    rw [e1, e2, e3, h1, Res.bind_ok, h2, Res.bind_ok]
    have m1 : Moves a0 { a0 with bufs := r.1, bytesToFlush := u64 (a0.bytesToFlush + r.2), framesWritten := u32 (a0.framesWritten + 1) }
        b0 { b0 with bufs := r.1, bytesToFlush := u64 (a0.bytesToFlush + r.2), framesWritten := u32 (a0.framesWritten + 1) } := by
      refine ⟨?_, [], [], by simp, by simp, .nil⟩
      unfold Twin at t0 ⊢
      rw [t0]
    have hsf : shouldFlush cfg.dims { b0 with bufs := r.1, bytesToFlush := u64 (a0.bytesToFlush + r.2), framesWritten := u32 (a0.framesWritten + 1) }
        = .ok fl := by
      rw [← h3]; rfl
    rw [hsf, Res.bind_ok]
    cases h
    cases fl with
    | false =>
      simp only [Bool.false_eq_true, if_false] at h4 ⊢
      cases h4
      exact ⟨_, rfl, m0.trans m1⟩
    | true =>
      simp only [if_true] at h4 ⊢
      obtain ⟨b2, k, m2⟩ := thin_flush hV (due_of_flush hV h3) h4 m1.1
      rw [k, Res.bind_ok]
      exact ⟨_, rfl, (m0.trans m1).trans m2⟩

/-! ### The stream -/

/-- The same level but for the history and messages of its writer. -/
def LevelTwin (x y : Level) : Prop := y.cfg = x.cfg ∧ y.saved = x.saved ∧ Twin x.st y.st

/-- The same levels. -/
inductive LevelsTwin : List Level → List Level → Prop
  | nil : LevelsTwin [] []
  | cons {x y : Level} {xs ys : List Level} : LevelTwin x y → LevelsTwin xs ys → LevelsTwin (x :: xs) (y :: ys)

theorem LevelsTwin.refl : ∀ l, LevelsTwin l l
  | [] => .nil
  | _ :: l => .cons ⟨rfl, rfl, .refl _⟩ (refl l)

/-- The same stream but for history and messages. -/
structure StreamTwin (s t : SState) : Prop where
  cfg : t.cfg = s.cfg
  multiscale : t.multiscale = s.multiscale
  buf : t.buf = s.buf
  offset : t.offset = s.offset
  levels : LevelsTwin s.levels t.levels
  trace : Thinned s.trace t.trace

theorem thin_writerStep {x x' y : Level} (hV : OneLayer x.cfg) {data : Bytes} {n : Nat} {evs : List Ev} {errs : List Text}
    (h : writerStep env x data = .ok (x', n, evs, errs)) (ht : LevelTwin x y) :
    ∃ y' evs' errs', writerStep (perfect env) y data = .ok (y', n, evs', errs') ∧ LevelTwin x' y' ∧ Thinned evs evs' := by
  obtain ⟨t1, t2, t3⟩ := ht
  unfold writerStep at h ⊢
  obtain ⟨⟨s, k⟩, h1, h⟩ := Res.bind_eq_ok.1 h
  cases h
  obtain ⟨b', k1, m, e, e', q1, q2, q3⟩ := thin_writeFrame hV h1 t3
  rw [t1, k1, Res.bind_ok]
  dsimp only
  refine ⟨_, _, _, rfl, ⟨rfl, t2, m⟩, ?_⟩
  rw [q1, q2, List.drop_left, List.drop_left]
  exact q3

theorem thin_pyramidLoop {t : DType} {xs xs' ys : List Level} (hV : ∀ lv ∈ xs, OneLayer lv.cfg)
    {data : Bytes} {w h : Nat} {evs : List Ev} {errs : List Text}
    (hl : pyramidLoop env t xs data w h = .ok (xs', evs, errs)) (ht : LevelsTwin xs ys) :
    ∃ ys' evs' errs', pyramidLoop (perfect env) t ys data w h = .ok (ys', evs', errs') ∧ LevelsTwin xs' ys' ∧ Thinned evs evs' := by
  induction ht generalizing xs' data w h evs errs with
  | nil =>
    unfold pyramidLoop at hl ⊢
    cases hl
    exact ⟨_, _, _, rfl, .nil, .nil⟩
  | @cons x y xs ys hxy hrest ih =>
    unfold pyramidLoop at hl ⊢
    obtain ⟨sc, hs, hl⟩ := Res.bind_eq_ok.1 hl
    rw [hs, Res.bind_ok, hxy.2.1]
    cases hsv : x.saved with
    | none =>
      rw [hsv] at hl
      cases hl
      refine ⟨_, _, _, rfl, .cons ⟨hxy.1, rfl, hxy.2.2⟩ hrest, .nil⟩
    | some px =>
      rw [hsv] at hl
      dsimp only at hl ⊢
      obtain ⟨⟨l1, n, e1, m1⟩, h1, hl⟩ := Res.bind_eq_ok.1 hl
      obtain ⟨u, h2, hl⟩ := Res.bind_eq_ok.1 hl
      obtain ⟨⟨r2, e2, m2⟩, h3, hl⟩ := Res.bind_eq_ok.1 hl
      cases hl
      obtain ⟨y', v1, v2, k1, k2, k3⟩ := thin_writerStep (y := { y with saved := none }) (by exact hV x (by simp)) h1 ⟨hxy.1, rfl, hxy.2.2⟩
      obtain ⟨ys', w1, w2, j1, j2, j3⟩ := ih (fun l hl => hV l (by simp [hl])) h3
      dsimp only at h2
      rw [k1, Res.bind_ok]
      dsimp only
      rw [h2, Res.bind_ok, j1, Res.bind_ok]
      exact ⟨_, _, _, rfl, .cons k2 j2, k3.append j3⟩

variable {s s' t : SState}

/-- All levels write version 2 or have one layer of chunks in a shard. -/
def AllOneLayer (s : SState) : Prop := ∀ lv ∈ s.levels, OneLayer lv.cfg

theorem AllOneLayer.cfgs (h : AllOneLayer s) (k : s'.levels.map (·.cfg) = s.levels.map (·.cfg)) : AllOneLayer s' := by
  intro lv hl
  have : lv.cfg ∈ s'.levels.map (·.cfg) := List.mem_map_of_mem hl
  rw [k] at this
  obtain ⟨l2, h2, e⟩ := List.mem_map.1 this
  rw [← e]
  exact h l2 h2

theorem AllOneLayer.keeps (h : AllOneLayer s) (k : Keeps s s') : AllOneLayer s' := h.cfgs k.cfgs

theorem thin_writeLevel0 (hV : AllOneLayer s) {data : Bytes} {k : Nat} (h : writeLevel0 env s data = .ok (s', k)) (ht : StreamTwin s t) :
    ∃ t', writeLevel0 (perfect env) t data = .ok (t', k) ∧ StreamTwin s' t' := by
  unfold writeLevel0 at h ⊢
  have hlv := ht.levels
  cases hl : s.levels with
  | nil => rw [hl] at h; cases h
  | cons x xs =>
    rw [hl] at h hlv
    cases hr : t.levels with
    | nil => rw [hr] at hlv; cases hlv
    | cons y ys =>
      rw [hr] at hlv
      cases hlv with
      | cons hxy hrest =>
        dsimp only at h ⊢
        obtain ⟨⟨l1, n, e1, m1⟩, h1, h⟩ := Res.bind_eq_ok.1 h
        cases h
        obtain ⟨y', v1, v2, k1, k2, k3⟩ := thin_writerStep (hV x (by simp [hl])) h1 hxy
        rw [k1, Res.bind_ok]
        exact ⟨_, rfl, ht.cfg, ht.multiscale, ht.buf, ht.offset, .cons k2 hrest, ht.trace.append k3⟩

theorem thin_writeMultiscale (hV : AllOneLayer s) {data : Bytes} (h : writeMultiscale env s data = .ok s') (ht : StreamTwin s t) :
    ∃ t', writeMultiscale (perfect env) t data = .ok t' ∧ StreamTwin s' t' := by
  unfold writeMultiscale at h ⊢
  rw [ht.multiscale, ht.cfg]
  split at h
  · rename_i hc
    rw [if_pos hc]
    cases h
    exact ⟨_, rfl, ht⟩
  · rename_i hc
    rw [if_neg hc]
    have hlv := ht.levels
    cases hl : s.levels with
    | nil =>
      rw [hl] at h hlv
      cases h
      cases hr : t.levels with
      | nil => exact ⟨_, rfl, ht⟩
      | cons y ys => rw [hr] at hlv; cases hlv
    | cons x xs =>
      rw [hl] at h hlv
      cases hr : t.levels with
      | nil => rw [hr] at hlv; cases hlv
      | cons y ys =>
        rw [hr] at hlv
        cases hlv with
        | cons hxy hrest =>
          dsimp only at h ⊢
          obtain ⟨⟨l1, e1, m1⟩, h1, h⟩ := Res.bind_eq_ok.1 h
          cases h
          obtain ⟨ys', w1, w2, j1, j2, j3⟩ := thin_pyramidLoop (fun l hm => hV l (by simp [hl, hm])) h1 hrest
          rw [j1, Res.bind_ok]
          exact ⟨_, rfl, rfl, rfl, ht.buf, ht.offset, .cons hxy j2, ht.trace.append j3⟩

theorem thin_appendLoop (data : Bytes) (fuel : Nat) {ptr bw n : Nat} (hV : AllOneLayer s)
    (h : appendLoop env data fuel ptr bw s = some (.ok (s', n))) (ht : StreamTwin s t) :
    ∃ t', appendLoop (perfect env) data fuel ptr bw t = some (.ok (t', n)) ∧ StreamTwin s' t' := by
  induction fuel generalizing ptr bw s t with
  | zero =>
    unfold appendLoop at h ⊢
    split at h
    · rename_i hc
      rw [if_pos hc]
      cases h
      exact ⟨_, rfl, ht⟩
    · simp at h
  | succ fuel ih =>
    unfold appendLoop at h ⊢
    by_cases hb : bw ≥ data.length
    · rw [if_pos hb] at h ⊢
      cases h
      exact ⟨_, rfl, ht⟩
    · rw [if_neg hb] at h ⊢
      dsimp only at h ⊢
      rw [ht.buf, ht.offset]
      by_cases ho : s.offset > 0
      · rw [if_pos ho] at h ⊢
        split at h
        · simp at h
        · rename_i c1
          rw [if_neg c1]
          split at h
          · rename_i c2
            rw [if_pos c2]
            split at h
            · simp at h
            · rename_i c3
              rw [if_neg c3]
              split at h
              · simp at h
              · simp at h
              · rename_i s2 k hw
                obtain ⟨t2, z1, z2⟩ := thin_writeLevel0 (t := { t with
                    buf := pwrite s.buf s.offset (slice data (ptr + bw) (min (s.buf.length - s.offset) (data.length - bw)))
                    offset := s.offset + min (s.buf.length - s.offset) (data.length - bw) }) (by exact hV) hw
                  ⟨ht.cfg, ht.multiscale, rfl, rfl, ht.levels, ht.trace⟩
                rw [z1]
                dsimp only
                by_cases hk : k = 0
                · rw [if_pos hk] at h ⊢
                  cases h
                  exact ⟨_, rfl, z2⟩
                · rw [if_neg hk] at h ⊢
                  have hv2 : AllOneLayer s2 := AllOneLayer.keeps (by exact hV) (writeLevel0_keeps hw)
                  exact ih (by exact hv2) h ⟨z2.cfg, z2.multiscale, z2.buf, rfl, z2.levels, z2.trace⟩
          · rename_i c2
            rw [if_neg c2]
            exact ih (t := { t with buf := _, offset := _ }) (by exact hV) h ⟨ht.cfg, ht.multiscale, rfl, rfl, ht.levels, ht.trace⟩
      · rw [if_neg ho] at h ⊢
        split at h
        · rename_i c1
          rw [if_pos c1]
          split at h
          · simp at h
          · rename_i c2
            rw [if_neg c2]
            exact ih (by exact hV) h ⟨ht.cfg, ht.multiscale, rfl, rfl, ht.levels, ht.trace⟩
        · rename_i c1
          rw [if_neg c1]
          split at h
          · simp at h
          · rename_i c2
            rw [if_neg c2]
            split at h
            · simp at h
            · simp at h
            · rename_i s2 k hw
              obtain ⟨t2, z1, z2⟩ := thin_writeLevel0 (by exact hV) hw ht
              rw [z1]
              dsimp only
              by_cases hk : k = 0
              · rw [if_pos hk] at h ⊢
                cases h
                exact ⟨_, rfl, z2⟩
              · rw [if_neg hk] at h ⊢
                have hv2 : AllOneLayer s2 := AllOneLayer.keeps (by exact hV) (writeLevel0_keeps hw)
                split at h
                · simp at h
                · simp at h
                · rename_i s3 hm
                  have hv3 : AllOneLayer s3 := AllOneLayer.keeps hv2 (writeMultiscale_keeps hm)
                  obtain ⟨t3, x1, x2⟩ := thin_writeMultiscale hv2 hm z2
                  rw [x1]
                  exact ih hv3 h x2

/-- A call that returns, compared with the same call on perfect storage (unless that stream has an error pending). -/
theorem thin_append {data : Bytes} {fuel n : Nat} (hV : AllOneLayer s) (h : append env fuel data s = some (.ok (s', n)))
    (ht : StreamTwin s t) (he : t.error = []) :
    ∃ t', append (perfect env) fuel data t = some (.ok (t', n)) ∧ StreamTwin s' t' := by
  unfold append at h ⊢
  split at h
  · simp at h
  · rw [if_neg (by simp [he])]
    exact thin_appendLoop data fuel hV h ht

theorem thin_writeDoc {p : Text} {doc : Bytes} {evs : List Ev} (h : writeDoc env p doc = .ok evs) :
    ∃ evs', writeDoc (perfect env) p doc = .ok evs' ∧ Thinned evs evs' := by
  refine ⟨[.wrote p 0 doc], rfl, ?_⟩
  unfold writeDoc at h
  split at h
  · cases h; exact .refl _
  · cases h; exact .lost _ _ _ .nil
  · cases h
  · cases h

/-- The stream after `create`. -/
theorem thin_create {w : World} {fuel : Nat} {S : Settings} (h : createStream w env fuel (some S) = some (.ok s)) :
    ∃ t, createStream w (perfect env) fuel (some S) = some (.ok t) ∧ StreamTwin s t ∧ t.error = [] := by
  unfold createStream at h ⊢
  split at h
  · simp at h
  · simp at h
  · simp at h
  · simp at h
  · rename_i s' hv hs
    cases hs
    split at h
    · simp at h
    · simp at h
    · rename_i cfg hc
      split at h
      · simp at h
      · rename_i hst
        split at h
        · simp at h
        · simp at h
        · simp at h
        · rename_i cfgs hl
          simp only [hv, hc, hl]
          rw [if_neg hst]
          simp only [Option.some.injEq] at h ⊢
          obtain ⟨_, _, h⟩ := Res.bind_eq_ok.1 h
          obtain ⟨e1, h1, h⟩ := Res.bind_eq_ok.1 h
          obtain ⟨e2, h2, h⟩ := Res.bind_eq_ok.1 h
          have hcheck : check (((metaKeys cfg.version).map (metaSinkPath cfg)).all (perfect env).makeMetaSink) = .ok () := by
            rw [check_eq_ok, List.all_eq_true]
            intro _ _; rfl
          obtain ⟨f1, k1, t1⟩ := thin_writeDoc h1
          obtain ⟨f2, k2, t2⟩ := thin_writeDoc h2
          rw [hcheck, Res.bind_ok, k1, Res.bind_ok, k2, Res.bind_ok]
          have hlv := LevelsTwin.refl (cfgs.map fun c => ⟨c, WState.init c, none⟩)
          cases hext : externalDoc w S with
          | none =>
            rw [hext] at h
            cases h
            refine ⟨_, rfl, ⟨rfl, rfl, rfl, rfl, hlv, ?_⟩, rfl⟩
            exact ((((Thinned.refl _).append t1).append t2).append .nil)
          | some doc =>
            rw [hext] at h
            obtain ⟨e3, h3, h⟩ := Res.bind_eq_ok.1 h
            obtain ⟨f3, k3, t3⟩ := thin_writeDoc h3
            dsimp only
            rw [k3]
            cases h
            refine ⟨_, rfl, ⟨rfl, rfl, rfl, rfl, hlv, ?_⟩, rfl⟩
            exact (((Thinned.refl _).append t1).append t2).append t3

end AZ
