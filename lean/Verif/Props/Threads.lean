import Verif.Lemmas.Concurrent
import Verif.Props.Crash

set_option linter.unusedSimpArgs false

/-! # The worker threads do not matter (C28, session) -/

namespace AZ.Conc
open Spec

/-- `K` contains at most one of the root documents. -/
def RootSingle (K : Text → Bool) (cfg : WConfig) : Prop :=
  ∀ k ∈ metaKeys cfg.version, ∀ k' ∈ metaKeys cfg.version, K (metaSinkPath cfg k) = true → K (metaSinkPath cfg k') = true → k = k'

theorem sep_root {K : Text → Bool} {cfg : WConfig} (hK : RootSingle K cfg) (f : Text → Ev) (hf : ∀ p, (f p).path = p) :
    Sep K ((((metaKeys cfg.version).map (metaSinkPath cfg)).map f).map fun e => [e]) := by
  intro i j l l' hi hj hne e he e' he' k1 k2
  rw [List.map_map, List.map_map, List.getElem?_map, Option.map_eq_some_iff] at hi hj
  obtain ⟨x, hx, rfl⟩ := hi
  obtain ⟨y, hy, rfl⟩ := hj
  simp only [Function.comp_apply, List.mem_singleton] at he he'
  subst he he'
  rw [hf] at k1 k2
  have hxy := hK x (List.mem_of_getElem? hx) y (List.mem_of_getElem? hy) k1 k2
  subst hxy
  have hnd : (metaKeys cfg.version).Nodup := by cases cfg.version <;> decide
  have := (List.getElem?_inj (List.getElem?_eq_some_iff.1 hx).1 hnd).1 (hx.trans hy.symm)
  exact hne this

section
variable {n : Nat} {σ : Sched} {w : World} {env : Env} {fuel : Nat} {s : Settings} {K : Text → Bool}

theorem both_session (hσ : σ.By n) (hK : ∀ cfg cfgs, commitSettings s = .ok cfg → levelConfigs fuel s.multiscale cfg = some (.ok cfgs) →
      (∀ c ∈ cfgs, Single K c) ∧ RootSingle K cfg) (calls : List Bytes) :
    BothO (fun x y => y.1 = { x.1 with trace := y.1.trace } ∧ y.2.1 = x.2.1 ∧ within K y.2.2 = within K x.2.2 ∧
        within K y.1.trace = within K x.1.trace)
      (AZ.runStream w env fuel s calls) (runStream σ w env fuel s calls) := by
  unfold AZ.runStream runStream createStream
  cases hcr : AZ.createStream w env fuel (some s) with
  | none => trivial
  | some r =>
    cases r with
    | throw => trivial
    | ub => trivial
    | ok st =>
      dsimp only
      obtain ⟨cfg, cfgs, hc⟩ := createStream_ok hcr
      obtain ⟨k1, k2⟩ := hK cfg cfgs hc.commit hc.levels
      obtain ⟨e1, e2, e3, ht, _⟩ := hc.docs
      have hs : Sim K st { st with trace := (σ [] ((st.trace.take (metaKeys st.cfg.version).length).map fun e => [e]) ++ st.trace.drop (metaKeys st.cfg.version).length) } := by
        refine ⟨rfl, ?_, ?_⟩
        · dsimp only
          have hn : (metaKeys st.cfg.version).length = (((metaKeys cfg.version).map (metaSinkPath cfg)).map Ev.opened).length := by
            rw [hc.scfg]; simp
          have h1 : st.trace.take (metaKeys st.cfg.version).length = ((metaKeys cfg.version).map (metaSinkPath cfg)).map Ev.opened := by
            rw [hn, ht, List.append_assoc, List.append_assoc, List.take_left]
          rw [h1, within_append, interleaving_sep (hσ _ _).interleaving (sep_root k2 _ fun _ => rfl), flatten_singletons, ← h1,
            ← within_append, List.take_append_drop]
        · intro lv hlv
          rw [hc.slevels] at hlv
          obtain ⟨c, hcm, rfl⟩ := List.mem_map.1 hlv
          exact ⟨⟨List.nodup_nil, by simp [WState.init]⟩, k1 c hcm⟩
      generalize hst2 : ({ st with trace := (σ [] ((st.trace.take (metaKeys st.cfg.version).length).map fun e => [e]) ++ st.trace.drop (metaKeys st.cfg.version).length) } : SState) = st2 at hs
      show Both _ _ _
      have hb := both_appends (env := env) hσ calls hs
      refine Both.bind hb ?_
      rintro ⟨a, ns⟩ ⟨b, ns'⟩ ha ⟨hab, hns⟩
      dsimp only at hns hab ⊢
      subst hns
      have hac : a.cfg = cfg := ((traceOk_appends hc.traceOk ha).2.1).trans hc.scfg
      refine Both.bind (R := fun x y => within K y = within K x) ?_ ?_
      · obtain ⟨g1, g2, g3⟩ := hab
        generalize b.trace = tb at g1 g2
        subst g1
        unfold AZ.destroyStream destroyStream
        dsimp only
        refine Both.bind (R := fun x y => x = y) (Both.same fun _ _ => rfl) ?_
        rintro v1 _ _ rfl
        refine Both.bind (R := fun x y => x = y) (Both.same fun _ _ => rfl) ?_
        rintro v2 _ hv2 rfl
        refine Both.bind (both_finalize hσ g3 _) ?_
        intro x y _ hxy
        show within K _ = within K _
        have hp := finalizeSinks_paths hv2
        rw [hac] at hp
        rw [within_append, within_append, within_append, interleaving_sep (hσ _ _).interleaving (by
            rw [hp]
            exact sep_root k2 _ fun _ => rfl), flatten_singletons, hxy, g2, within_append, within_append, within_append]
      · intro x y _ hxy
        exact ⟨hab.eq, rfl, hxy, hab.tr⟩

/-- The files `p` and the array document `d` of a level, as a set: they are never touched by two jobs of one phase. -/
theorem pair_single {cfg : WConfig} {cfgs : List WConfig} (hl : levelConfigs fuel s.multiscale cfg = some (.ok cfgs)) {c : WConfig}
    (hc : c ∈ cfgs) (p : Text) :
    (∀ c' ∈ cfgs, Single (fun q => decide (q = p ∨ q = arrayMetaPath c)) c') ∧ RootSingle (fun q => decide (q = p ∨ q = arrayMetaPath c)) cfg := by
  have hsame : ∀ c' ∈ cfgs, SameStore cfg c' := by
    intro c' hc'
    obtain ⟨i, hi⟩ := List.mem_iff_getElem?.1 hc'
    exact (levelConfigs_inherits hl hi).1.same
  refine ⟨?_, ?_⟩
  · rintro c' hc' p1 p2 ⟨g, l, rfl⟩ ⟨g', l', rfl⟩ k1 k2
    have hne : ∀ g l, objectPath c' g l ≠ arrayMetaPath c := objectPath_ne_metaPath ((hsame c' hc').symm.trans (hsame c hc))
    simp only [decide_eq_true_eq, hne, or_false] at k1 k2
    rw [k1, k2]
  · intro k hk k' hk' k1 k2
    have hne : ∀ k ∈ metaKeys cfg.version, metaSinkPath cfg k ≠ arrayMetaPath c := fun k hk => metaSinkPath_ne_meta (hsame c hc) hk
    simp only [decide_eq_true_eq, hne k hk, hne k' hk', or_false] at k1 k2
    exact metaSinkPath_inj (k1.trans k2.symm)

theorem one_single {cfg : WConfig} {cfgs : List WConfig} (p : Text) :
    (∀ c' ∈ cfgs, Single (fun q => decide (q = p)) c') ∧ RootSingle (fun q => decide (q = p)) cfg := by
  refine ⟨?_, ?_⟩
  · rintro c' hc' p1 p2 _ _ k1 k2
    simp only [decide_eq_true_eq] at k1 k2
    rw [k1, k2]
  · intro k hk k' hk' k1 k2
    simp only [decide_eq_true_eq] at k1 k2
    exact metaSinkPath_inj (k1.trans k2.symm)

/-- **C28, the outcome of a session.** With any number of worker threads and any schedule of their storage steps, a session (create,
any append calls, destroy) succeeds exactly if it does when all jobs run one after the other, with the same `bytes_out` values. -/
theorem threads_outcome (hσ : σ.By n) (calls : List Bytes) (ns : List Nat) :
    (∃ st' tr', runStream σ w env fuel s calls = some (.ok (st', ns, tr'))) ↔
    ∃ st tr, AZ.runStream w env fuel s calls = some (.ok (st, ns, tr)) := by
  have := both_session (w := w) (env := env) (fuel := fuel) (s := s) hσ (K := fun q => decide (q = [])) (fun _ _ _ _ => one_single _) calls
  rcases this.casesO with ⟨h1, h2⟩ | ⟨h1, h2⟩ | ⟨h1, h2⟩ | ⟨⟨st, n1, tr⟩, ⟨st', n2, tr'⟩, h1, h2, _, h3, _⟩
  · simp [h1, h2]
  · simp [h1, h2]
  · simp [h1, h2]
  · dsimp only at h3
    subst h3
    rw [h1, h2]
    simp

/-- **C28, the store after a session.** With any number of worker threads and any schedule, every file has the same content at the end
as when all jobs run one after the other; the events of each file happen in the same order, also relative to the events of each array
document (`SameOrder`), as the theorems about crashes assume. -/
theorem threads_irrelevant (hσ : σ.By n) {calls : List Bytes} {ns : List Nat} {st st' : SState} {tr tr' : List Ev}
    (h' : runStream σ w env fuel s calls = some (.ok (st', ns, tr'))) (h : AZ.runStream w env fuel s calls = some (.ok (st, ns, tr))) :
    st'.error = st.error ∧ (∀ cfg p, fileInStore w cfg p tr' = fileInStore w cfg p tr) ∧ (∀ p, about p tr' = about p tr) ∧
    ∀ cfg cfgs, commitSettings s = .ok cfg → levelConfigs fuel s.multiscale cfg = some (.ok cfgs) → ∀ c ∈ cfgs,
      SameOrder (arrayMetaPath c) tr tr' ∧ SameOrder (arrayMetaPath c) st.trace st'.trace := by
  have one : ∀ p, st'.error = st.error ∧ about p tr' = about p tr := by
    intro p
    have := both_session (w := w) (env := env) (fuel := fuel) (s := s) hσ (K := fun q => decide (q = p)) (fun _ _ _ _ => one_single p) calls
    rw [h, h'] at this
    obtain ⟨e1, _, e3, _⟩ := this
    have e4 := congrArg SState.error e1
    exact ⟨e4, e3⟩
  refine ⟨(one []).1, ?_, fun p => (one p).2, ?_⟩
  · intro cfg p
    unfold fileInStore
    dsimp only
    rw [foldl_stepFile_filter, foldl_stepFile_filter p tr]
    congr 1
    exact (one p).2
  · intro cfg cfgs hcm hlv c hc
    have two : ∀ p, tr'.filter (fun e => decide (e.path = p ∨ e.path = arrayMetaPath c)) =
          tr.filter (fun e => decide (e.path = p ∨ e.path = arrayMetaPath c)) ∧
        st'.trace.filter (fun e => decide (e.path = p ∨ e.path = arrayMetaPath c)) =
          st.trace.filter (fun e => decide (e.path = p ∨ e.path = arrayMetaPath c)) := by
      intro p
      have := both_session (w := w) (env := env) (fuel := fuel) (s := s) hσ (K := fun q => decide (q = p ∨ q = arrayMetaPath c))
        (fun cfg1 cfgs1 g1 g2 => by
          rw [hcm] at g1
          cases g1
          rw [hlv] at g2
          cases g2
          exact pair_single hlv hc p) calls
      rw [h, h'] at this
      obtain ⟨_, _, e3, e4⟩ := this
      exact ⟨e3, e4⟩
    exact ⟨fun p => (two p).1, fun p => (two p).2⟩

variable {cfg : WConfig} {cfgs : List WConfig} {a y x : DimProps} {inner : List DimProps} {root : Text} {calls : List (List Bytes)}
  {st' : SState} {ns : List Nat} {tr' : List Ev}

/-- **C01 with threads.** However the worker threads are scheduled: the session succeeds, and every pixel reads back. -/
theorem threads_pixel_reads_back (hσ : σ.By n) (h : Setup w fuel s cfg cfgs) (hE : StorageOk env s) (hV : s.version = 2)
    (hcomp : s.compression = none)
    (hd : s.dimensions = some (a :: (inner ++ [y, x]))) (hr : StoredAt s root) (hfr : Fresh w s root)
    (hn : calls.flatten.length < 2 ^ 32)
    (hf : ∀ c ∈ calls, ∀ f ∈ c, f.length = y.arraySize * x.arraySize * itemSize s.dataType) :
    ∃ st tr, runStream σ w env fuel s (calls.map List.flatten) =
        some (.ok (st, calls.map (fun c => c.flatten.length), tr)) ∧ st.error = [] ∧
      ∀ (t : Nat) (i : List Nat) (py px : Nat) (f : Bytes), InBounds (inner.map (·.arraySize)) i →
        py < y.arraySize → px < x.arraySize →
        calls.flatten[t * prod (inner.map (·.arraySize)) + ravel (inner.map (·.arraySize)) i]? = some f →
        readV2 (fun p => fileInStore w cfg p tr) (levelDir root 0) some
          ((a :: (inner ++ [y, x])).map (·.chunkSize)) (itemSize s.dataType) (t :: (i ++ [py, px])) =
        some (pixelOf f x.arraySize (itemSize s.dataType) py px) := by
  obtain ⟨st0, tr0, h1, h2, h3⟩ := v2_pixel_reads_back h hE hV hcomp hd hr hfr hn hf
  obtain ⟨st, tr, h4⟩ := (threads_outcome (n := n) hσ _ _).2 ⟨st0, tr0, h1⟩
  obtain ⟨e1, e2, _⟩ := threads_irrelevant hσ h4 h1
  refine ⟨st, tr, h4, by rw [e1, h2], ?_⟩
  intro t i py px f hi hy hx hfm
  rw [← h3 t i py px f hi hy hx hfm]
  congr 1
  funext p
  exact e2 cfg p

/-- **C34 with threads, version 2.** The process dies at any instant of a session whose jobs are run by any number of worker threads in
any order: what an array document then announces is completely on disk. -/
theorem threads_v2_crash (hσ : σ.By n) (h : Setup w fuel s cfg cfgs) (hz : SizesInRange s) (hr : RealCodec s) (hE : StorageOk env s)
    (hV : s.version = 2) (hd : s.dimensions = some (a :: (inner ++ [y, x]))) (hl : StoredAt s root)
    (hfr : Fresh w s root) (hn : calls.flatten.length < 2 ^ 32)
    (hf : ∀ c ∈ calls, ∀ f ∈ c, f.length = y.arraySize * x.arraySize * itemSize s.dataType)
    (hrun : runStream σ w env fuel s (calls.map List.flatten) = some (.ok (st', ns, tr')))
    {i : Nat} (hi : i < cfgs.length) {tr1 : List Ev} (h1 : tr1 <+: tr') {b : Bytes}
    (hb : WholeImage (root ++ '/' :: arrayDocName 2 i) tr1 (some b)) (hne : b ≠ []) :
    ∃ m v, JsonFile b v ∧ LevelDoc s (a :: (inner ++ [y, x])) i m v ∧ m ≤ ceilDiv (calls.flatten.length / 2 ^ i) (prod (sizesAt i inner)) ∧
      ∀ g l, g * levelChunk a.isChannel a.arraySize a.chunkSize i < m →
        InBounds (List.zipWith ceilDiv (sizesAt i (inner ++ [y, x])) (chunksAt i (inner ++ [y, x]))) l →
        ∃ final, fileInStore w cfg (levelDir root i ++ chunkKey (g :: l)) tr' = some final ∧
          ∀ c, TornImage (levelDir root i ++ chunkKey (g :: l)) tr1 c → c = some final := by
  obtain ⟨st, tr, h0⟩ := (threads_outcome (n := n) hσ _ _).1 ⟨st', tr', hrun⟩
  obtain ⟨_, e2, _, e4⟩ := threads_irrelevant hσ hrun h0
  have hc : cfgs[i]? = some cfgs[i] := List.getElem?_eq_getElem hi
  have hso := (e4 cfg cfgs h.commit h.levels _ (List.getElem_mem hi)).1
  rw [(show LocatedAt s root from .inl hl).arrayDoc h hc, hV] at hso
  obtain ⟨m, v, g1, g2, g3, g4⟩ := v2_crash_metadata h hz hr hE hV hd hl hfr hn hf h0 hi hso h1 hb hne
  refine ⟨m, v, g1, g2, g3, fun g l q1 q2 => ?_⟩
  rw [e2]
  exact g4 g l q1 q2

/-- **C34 with threads, version 3**, while frames are being appended. -/
theorem threads_v3_crash_partial (hσ : σ.By n) (h : Setup w fuel s cfg cfgs) (hF3 : cfg.dims.FitsV3) (hz : SizesInRange s) (hr : RealCodec s)
    (hE : StorageOk env s) (ho : SmallOverhead env)
    (hV : s.version = 3) (hd : s.dimensions = some (a :: (inner ++ [y, x]))) (hl : StoredAt s root)
    (hfr : Fresh w s root) (hn : calls.flatten.length < 2 ^ 32)
    (hf : ∀ c ∈ calls, ∀ f ∈ c, f.length = y.arraySize * x.arraySize * itemSize s.dataType)
    (hrun : runStream σ w env fuel s (calls.map List.flatten) = some (.ok (st', ns, tr')))
    {i : Nat} (hi : i < cfgs.length) {tr1 : List Ev} (h1 : tr1 <+: st'.trace) {b : Bytes}
    (hb : WholeImage (root ++ '/' :: arrayDocName 3 i) tr1 (some b)) (hne : b ≠ []) :
    ∃ m v, JsonFile b v ∧ LevelDoc s (a :: (inner ++ [y, x])) i m v ∧ m ≤ ceilDiv (calls.flatten.length / 2 ^ i) (prod (sizesAt i inner)) ∧
      ∀ g l, g * (levelChunk a.isChannel a.arraySize a.chunkSize i * levelShard a.isChannel a.arraySize a.chunkSize a.shardSize i) < m →
        InBounds (shardGridAt i (inner ++ [y, x])) l →
        ∃ final, fileInStore w cfg (levelDirV3 root i ++ chunkKey (g :: l)) tr' = some final ∧
          ∀ c, TornImage (levelDirV3 root i ++ chunkKey (g :: l)) tr1 c → c = some final := by
  obtain ⟨st, tr, h0⟩ := (threads_outcome (n := n) hσ _ _).1 ⟨st', tr', hrun⟩
  obtain ⟨_, e2, _, e4⟩ := threads_irrelevant hσ hrun h0
  have hc : cfgs[i]? = some cfgs[i] := List.getElem?_eq_getElem hi
  have hso := (e4 cfg cfgs h.commit h.levels _ (List.getElem_mem hi)).2
  rw [(show LocatedAt s root from .inl hl).arrayDoc h hc, hV] at hso
  obtain ⟨m, v, g1, g2, g3, g4⟩ := v3_crash_metadata_partial h hF3 hz hr hE ho hV hd hl hfr hn hf h0 hi hso h1 hb hne
  refine ⟨m, v, g1, g2, g3, fun g l q1 q2 => ?_⟩
  rw [e2]
  exact g4 g l q1 q2

end

/-! ### Compression -/

/-- The compression jobs (`src/streaming/array.writer.cpp:351-386`) in the order in which they replace their buffers
(`chunk.swap(tmp)`); everything before works on local data and on the job's own buffer. -/
def compressInOrder (env : Env) (p : BloscParams) (bpp : Nat) (order : List Nat) (bufs : List Bytes) : List Bytes :=
  order.foldl (fun b i => b.modify i fun x => (compressJob env p bpp x).1) bufs

/-- **C28, compression.** In whatever order the compression jobs finish, every buffer is compressed once. -/
theorem compress_order_irrelevant {env : Env} {p : BloscParams} {bpp : Nat} {bufs : List Bytes} {order : List Nat}
    (ho : order.Perm (List.range bufs.length)) :
    compressInOrder env p bpp order bufs = bufs.map fun x => (compressJob env p bpp x).1 := by
  have key : ∀ (order : List Nat) (b : List Bytes) (k : Nat), order.Nodup →
      (compressInOrder env p bpp order b)[k]? = if k ∈ order then (b[k]?).map (fun x => (compressJob env p bpp x).1) else b[k]? := by
    intro order
    induction order with
    | nil => intro b k _; simp [compressInOrder]
    | cons i order ih =>
      intro b k hnd
      have hnd2 := List.nodup_cons.1 hnd
      have : compressInOrder env p bpp (i :: order) b =
          compressInOrder env p bpp order (b.modify i fun x => (compressJob env p bpp x).1) := rfl
      rw [this, ih _ _ hnd2.2, List.getElem?_modify]
      by_cases hk : i = k
      · subst hk
        simp [hnd2.1]
      · have : ¬ k = i := fun h => hk h.symm
        simp [hk, this]
  refine List.ext_getElem? fun k => ?_
  rw [key order bufs k (ho.nodup_iff.2 List.nodup_range), List.getElem?_map]
  by_cases hk : k < bufs.length
  · rw [if_pos (ho.mem_iff.2 (List.mem_range.2 hk))]
  · rw [List.getElem?_eq_none (by omega)]
    split <;> rfl

/-! ### The schedules are all executions -/

theorem pool_quiet {jobs : Phase} {w : List Ev} (h0 : PoolRun n jobs []) (h : PoolRun n jobs w) : w = [] := by
  have e : ∀ l ∈ jobs, l = [] := by
    have := h0.interleaving
    cases this with
    | done h => exact h
  have := h.interleaving
  cases this with
  | done _ => rfl
  | step hx _ =>
    have := e _ (List.mem_of_getElem? hx)
    simp at this

/-- Schedules that agree from `hist` on order the phases alike. -/
theorem runPhases_congr {τ : Sched} {hist : List Ev} {phs : List Phase}
    (h : ∀ k ph, ph ∈ phs → σ (hist ++ k) ph = τ (hist ++ k) ph) : runPhases σ hist phs = runPhases τ hist phs := by
  induction phs generalizing hist with
  | nil => rfl
  | cons ph phs ih =>
    have e := h [] ph List.mem_cons_self
    rw [List.append_nil] at e
    unfold runPhases
    rw [e, ih fun k q hq => ?_]
    rw [List.append_assoc]
    exact h _ q (List.mem_cons_of_mem _ hq)

/-- Whatever order the workers choose in each of the phases, there is a schedule that describes it: no execution of the pool is
left out by the quantification over schedules. -/
theorem schedules_cover (hn : 0 < n) {phs : List Phase} {ws : List (List Ev)} (h : List.Forall₂ (PoolRun n) phs ws)
    (hist : List Ev) : ∃ σ : Sched, σ.By n ∧ runPhases σ hist phs = ws.flatten := by
  induction h generalizing hist with
  | nil => exact ⟨_, sequential_by hn, rfl⟩
  | @cons ph w phs ws hw _ ih =>
    obtain ⟨τ, hτ, e⟩ := ih (hist ++ w)
    classical
    refine ⟨fun k q => if k = hist ∧ q = ph then w else τ k q, fun k q => ?_, ?_⟩
    · dsimp only
      split
      · rename_i hk
        rw [hk.2]
        exact hw
      · exact hτ k q
    · unfold runPhases
      rw [if_pos ⟨rfl, rfl⟩, List.flatten_cons, ← e]
      congr 1
      refine runPhases_congr fun k q _ => ?_
      split
      · rename_i hk
        have hz : w = [] := by
          have := congrArg List.length hk.1
          simp only [List.length_append] at this
          exact List.eq_nil_of_length_eq_zero (by omega)
        rw [hk.2, hz]
        exact (pool_quiet (hz ▸ hw) (hτ _ ph)).symm
      · rfl

/-! ### A pool of two workers that overtake each other -/

/-- The second job of every phase is finished before the first. -/
def overtaking : Sched
  | _, l1 :: l2 :: rest => l2 ++ (l1 ++ rest.flatten)
  | _, jobs => jobs.flatten

theorem overtaking_by : Sched.By 2 overtaking := by
  intro hist jobs
  match jobs with
  | [] => exact poolRun_flatten (by omega) []
  | [l] => exact poolRun_flatten (by omega) [l]
  | l1 :: l2 :: rest =>
    refine ⟨[[], []], ?_, by simp⟩
    refine .head (.pop (i := 0) (by rfl)) (.head (.pop (i := 1) (by rfl)) ?_)
    refine (pool_finish (i := 1) l2 rest [l1, l2] [] (by rfl)).trans ?_
    refine (pool_finish (i := 0) l1 rest [l1, []] _ (by rfl)).trans ?_
    have := pool_flatten (n := 2) (by omega) rest (([] ++ l2) ++ l1)
    simpa [overtaking] using this

/-- The schedule is not the sequential one: here two root documents are created in the opposite order. -/
example (a b c : Ev) : PoolRun 2 [[a, b], [c]] [c, a, b] ∧ overtaking [] [[a, b], [c]] = [c, a, b] :=
  ⟨overtaking_by [] [[a, b], [c]], rfl⟩

/-- The hypotheses of `threads_pixel_reads_back`: a session whose jobs overtake each other; a pixel of its frame 7 reads back. -/
example : ∃ st ns tr, runStream overtaking Sample.world Sample.env 9 Sample.settings (Sample.calls.map List.flatten) =
      some (.ok (st, ns, tr)) ∧
    readV2 (fun p => fileInStore Sample.world Sample.cfg p tr) (levelDir "/tmp/a.zarr".toList 0) some [2, 2, 2, 3] 2 [2, 1, 4, 3] =
      some (pixelOf (Sample.frame 7) 7 2 4 3) := by
  obtain ⟨cfgs, h, _⟩ := Sample.setup
  obtain ⟨st, tr, h1, _, h2⟩ := threads_pixel_reads_back (calls := Sample.calls) overtaking_by h Sample.storageOk rfl rfl
    (a := Sample.dimT) (inner := [Sample.dimC]) (y := Sample.dimY) (x := Sample.dimX) rfl Sample.storedAt Sample.fresh (by decide)
    Sample.calls_sized
  exact ⟨st, _, tr, h1, h2 2 [1] 4 3 (Sample.frame 7) (by decide) (by decide) (by decide) rfl⟩

/-- Two phases, in the second of which the jobs overtake each other. -/
example (a b c : Ev) : ∃ σ : Sched, σ.By 2 ∧ runPhases σ [] [[[a], [b, c]], [[a], [b, c]]] = [a, b, c, b, c, a] :=
  schedules_cover (by omega) (ws := [[a, b, c], [b, c, a]])
    (.cons (poolRun_flatten (by omega) _) (.cons (overtaking_by [] [[a], [b, c]]) .nil)) []

/-- Four compression jobs that finish in the order 2, 0, 3, 1. -/
example (a b c d : Bytes) (p : BloscParams) : compressInOrder Sample.env p 2 [2, 0, 3, 1] [a, b, c, d] =
    [a, b, c, d].map fun x => (compressJob Sample.env p 2 x).1 :=
  compress_order_irrelevant (show List.Perm [2, 0, 3, 1] (List.range 4) by decide)

end AZ.Conc
