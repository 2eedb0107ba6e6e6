import Verif.Lemmas.StoredWrites
import Verif.Props.Compression

set_option linter.unusedSimpArgs false

/-! # Storage failures (C30)

`Honest env`: a write that does not store the bytes returns false or throws. `perfect env`: storage on which nothing
fails, with the same Blosc. -/

namespace AZ
open Spec

variable {w : World} {env : Env} {fuel : Nat} {s : Settings} {prev : List Bytes} {st st0 : SState}

theorem writeDoc_perfect (hE : Honest env) {p : Text} {doc : Bytes} {evs : List Ev} (h : writeDoc env p doc = .ok evs) :
    writeDoc (perfect env) p doc = .ok evs := by
  unfold writeDoc at h ⊢
  split at h
  · cases h; rfl
  · rename_i hw; exact absurd hw (hE _ _ _)
  · cases h
  · cases h

theorem createStream_perfect (hE : Honest env) (h : createStream w env fuel (some s) = some (.ok st)) :
    createStream w (perfect env) fuel (some s) = some (.ok st) := by
  unfold createStream at h ⊢
  split at h
  · simp at h
  · simp at h
  · simp at h
  · simp at h
  · rename_i s' hv hs
    cases hs
    split at h
    · simp at h
    · simp at h
    · rename_i cfg hc
      split at h
      · simp at h
      · rename_i hst
        split at h
        · simp at h
        · simp at h
        · simp at h
        · rename_i cfgs hl
          simp only [hv, hc, hl]
          rw [if_neg hst]
          simp only [Option.some.injEq] at h ⊢
          obtain ⟨_, _, h⟩ := Res.bind_eq_ok.1 h
          obtain ⟨e1, h1, h⟩ := Res.bind_eq_ok.1 h
          obtain ⟨e2, h2, h⟩ := Res.bind_eq_ok.1 h
          have hcheck : check (((metaKeys cfg.version).map (metaSinkPath cfg)).all (perfect env).makeMetaSink) = .ok () := by
            rw [check_eq_ok, List.all_eq_true]
            intro _ _; rfl
          rw [hcheck, Res.bind_ok, writeDoc_perfect hE h1, Res.bind_ok, writeDoc_perfect hE h2, Res.bind_ok]
          cases hext : externalDoc w s with
          | none =>
            rw [hext] at h
            exact h
          | some doc =>
            rw [hext] at h
            obtain ⟨e3, h3, h⟩ := Res.bind_eq_ok.1 h
            dsimp only
            rw [writeDoc_perfect hE h3]
            exact h

theorem append_pending_error {data : Bytes} (h : st.error ≠ []) : append env fuel data st = some .throw := by
  unfold append
  rw [if_pos]
  simpa using h

theorem appends_honest (hE : Honest env) {calls : List Bytes} {ns : List Nat} (hv : AllV2 st0)
    (h : appends env calls st0 = .ok (st, ns)) (he : st.error = []) :
    st0.error = [] ∧ appends (perfect env) calls st0 = .ok (st, ns) := by
  induction calls generalizing st0 ns with
  | nil => cases h; exact ⟨he, rfl⟩
  | cons d ds ih =>
    unfold appends at h ⊢
    split at h
    · simp at h
    · simp at h
    · simp at h
    · rename_i s1 n h1
      obtain ⟨⟨s2, ns2⟩, h2, h⟩ := Res.bind_eq_ok.1 h
      cases h
      have hv1 : AllV2 s1 := by
        intro lv hl
        have hc := append_cfgs h1
        have : lv.cfg ∈ s1.levels.map (·.cfg) := List.mem_map_of_mem hl
        rw [hc] at this
        obtain ⟨l2, h2, e⟩ := List.mem_map.1 this
        rw [← e]
        exact hv l2 h2
      obtain ⟨y1, y2⟩ := ih hv1 h2
      obtain ⟨z1, z2⟩ := append_honest hE hv h1 y1
      rw [z2]
      dsimp only
      rw [y2]
      exact ⟨z1, rfl⟩

theorem created_allV2 (hv : s.version = 2) (h : createStream w env fuel (some s) = some (.ok st)) : AllV2 st := by
  obtain ⟨cfg, cfgs, hc⟩ := createStream_ok h
  intro lv hl
  rw [hc.slevels] at hl
  obtain ⟨c, hm, rfl⟩ := List.mem_map.1 hl
  obtain ⟨i, hi⟩ := List.mem_iff_getElem?.1 hm
  show c.version = _
  rw [← (levelConfigs_inherits hc.levels hi).1.same.version, (commit_fields hc.commit).2.2.2.2, if_pos hv]

theorem created_stored (h : createStream w env fuel (some s) = some (.ok st)) : StreamStored env st := by
  obtain ⟨cfg, cfgs, hc⟩ := createStream_ok h
  constructor
  · obtain ⟨e1, e2, e3, ht, h1, h2, h3⟩ := hc.docs
    rw [ht]
    refine ((AllStored.append (.map (by simp)) (stored_writeDoc h1)).append (stored_writeDoc h2)).append ?_
    split at h3
    · rw [h3]; exact .nil
    · exact stored_writeDoc h3
  · intro lv hl
    rw [hc.slevels] at hl
    obtain ⟨c, _, rfl⟩ := List.mem_map.1 hl
    exact .nil

/-- **C30 (partial).** On a version 2 stream over storage that reports its failures: if all appends returned success
and one more append (of any size, for instance of no bytes) returns success, then the stream is in the state, and the
storage has received the writes, of the same calls on storage without any failure. Missing: version 3, storage that
loses writes silently (`FileSink`), the data flushed by destroy. -/
theorem success_means_stored_partial (hE : Honest env) (hv : s.version = 2) (hr : Reached w env fuel s prev st)
    {f : Nat} {more : Bytes} {r : SState × Nat} (hm : append env f more st = some (.ok r)) :
    Reached w (perfect env) fuel s prev st := by
  obtain ⟨st0, ns, h1, h2⟩ := hr
  have he : st.error = [] := by
    by_contra hne
    rw [append_pending_error hne] at hm
    simp at hm
  exact ⟨st0, ns, createStream_perfect hE h1, (appends_honest hE (created_allV2 hv h1) h2 he).2⟩

/-- The same, for a single failing write: if some write of the run on storage without failures is not performed by
the actual storage, then some append reports a failure, or the next one does. -/
theorem failed_write_reported_partial (hE : Honest env) (hv : s.version = 2) {good : SState}
    (hg : Reached w (perfect env) fuel s prev good) {p : Text} {off : Nat} {data : Bytes}
    (hw : Ev.wrote p off data ∈ good.trace) (hfail : env.write p off data ≠ .stored) (hr : Reached w env fuel s prev st)
    (f : Nat) (more : Bytes) : append env f more st = some .throw := by
  apply append_pending_error
  intro he
  obtain ⟨st0, ns, h1, h2⟩ := hr
  obtain ⟨st1, ns1, g1, g2⟩ := hg
  have h2' := (appends_honest hE (created_allV2 hv h1) h2 he).2
  rw [createStream_perfect hE h1] at g1
  cases g1
  rw [h2'] at g2
  cases g2
  exact hfail ((stored_appends (created_stored h1) h2).trace p off data hw)

/-! ### Version 3: which failures are reported -/

theorem shardLoop_silent {D : ArrayDims} {p : Text} {bufs : List Bytes} (cs : List Nat) (j : ShardJob)
    (hs : j.success = true) (he : j.err = []) :
    (shardLoop env D p bufs cs j).success = true ∨ (shardLoop env D p bufs cs j).err = [] := by
  induction cs generalizing j with
  | nil => exact .inl hs
  | cons c cs ih =>
    unfold shardLoop
    cases hb : bufs[c]? with
    | none => exact .inl hs
    | some b =>
      dsimp only
      cases hw : env.write p j.offset b with
      | threw => exact .inl hs
      | failed => exact .inr he
      | stored =>
        dsimp only
        split
        · exact ih _ rfl he
        · exact .inl rfl
      | silent =>
        dsimp only
        split
        · exact ih _ rfl he
        · exact .inl rfl

/-- A shard job fails with a message exactly if its first write throws. -/
theorem shardJob_message {D : ArrayDims} {p : Text} {bufs : List Bytes} {chunks : List Nat} {table : List Nat} {offset : Nat}
    {wt : Bool} (hb : ∀ c ∈ chunks, c < bufs.length) :
    ((shardJob env D p bufs chunks table offset wt).success = false ∧ (shardJob env D p bufs chunks table offset wt).err ≠ []) ↔
      ∃ c b, chunks.head? = some c ∧ bufs[c]? = some b ∧ env.write p offset b = .threw := by
  cases chunks with
  | nil => simp [shardJob, shardLoop]
  | cons c cs =>
    obtain ⟨b, hc⟩ : ∃ b, bufs[c]? = some b := ⟨_, List.getElem?_eq_getElem (hb c List.mem_cons_self)⟩
    have goal : (∃ c' b', (c :: cs).head? = some c' ∧ bufs[c']? = some b' ∧ env.write p offset b' = .threw) ↔
        env.write p offset b = .threw := by
      constructor
      · rintro ⟨c', b', h1, h2, h3⟩
        simp only [List.head?_cons, Option.some.injEq] at h1
        subst h1
        rw [hc] at h2
        cases h2
        exact h3
      · intro h
        exact ⟨c, b, rfl, hc, h⟩
    rw [goal]
    unfold shardJob
    unfold shardLoop
    rw [hc]
    dsimp only
    have hmsg := writeChunk_msg
    generalize "Failed to write chunk".toList = msg at hmsg ⊢
    have later : ∀ j : ShardJob, (j.success = true ∨ j.err = []) → ∀ wt : Bool,
        ¬ ((if j.err.isEmpty && j.success && wt then
          match env.write p j.offset (j.table.flatMap u64le) with
          | .threw => { j with err := msg }
          | .failed => { j with success := false }
          | .stored => { j with trace := j.trace ++ [Ev.wrote p j.offset (j.table.flatMap u64le)] }
          | .silent => j
          else j).success = false ∧ (if j.err.isEmpty && j.success && wt then
          match env.write p j.offset (j.table.flatMap u64le) with
          | .threw => { j with err := msg }
          | .failed => { j with success := false }
          | .stored => { j with trace := j.trace ++ [Ev.wrote p j.offset (j.table.flatMap u64le)] }
          | .silent => j
          else j).err ≠ []) := by
      intro j hj wt
      by_cases hh : (j.err.isEmpty && j.success && wt) = true
      · simp only [hh, if_true]
        simp only [Bool.and_eq_true, List.isEmpty_iff] at hh
        obtain ⟨⟨h1, h2⟩, _⟩ := hh
        cases env.write p j.offset (j.table.flatMap u64le) <;> simp [h1, h2]
      · rw [if_neg hh]
        rintro ⟨h1, h2⟩
        rcases hj with h | h
        · rw [h] at h1; cases h1
        · exact h2 h
    cases hw : env.write p offset b with
    | threw =>
      dsimp only
      rw [Bool.and_false, Bool.false_and]
      exact ⟨fun _ => rfl, fun _ => ⟨rfl, hmsg⟩⟩
    | failed =>
      dsimp only
      rw [Bool.and_false, Bool.false_and]
      exact ⟨fun h => absurd rfl h.2, fun h => by cases h⟩
    | stored =>
      dsimp only
      refine iff_of_false ?_ (by simp)
      split
      · exact later _ (shardLoop_silent cs _ rfl rfl) wt
      · exact later _ (.inl rfl) wt
    | silent =>
      dsimp only
      refine iff_of_false ?_ (by simp)
      split
      · exact later _ (shardLoop_silent cs _ rfl rfl) wt
      · exact later _ (.inl rfl) wt

/-- **C30 (version 3).** A flush of a version 3 array records a failure with a message exactly if, for some shard, the write
of the first chunk throws: that is the only failing write of chunk data a version 3 stream reports. -/
theorem v3_flush_message_iff {cfg : WConfig} {ws ws' : WState} (h : flushImplV3 env cfg ws = .ok ws') :
    ∃ ms, ws'.errors = ws.errors ++ ms ∧
      ((∃ m ∈ ms, m ≠ []) ↔ ∃ i c b, i < cfg.dims.numberOfShards ∧ (chunksInShard cfg.dims ws.bufs.length i).head? = some c ∧
        ws.bufs[c]? = some b ∧ env.write (ws'.dataSinks.getD i []) (ws.shardOffsets.getD i 0) b = .threw) := by
  unfold flushImplV3 at h
  dsimp only at h
  split at h
  · cases h
  · rename_i s1 hs1
    have hs : s1.errors = ws.errors ∧ s1.bufs = ws.bufs ∧ s1.shardOffsets = ws.shardOffsets := by
      split at hs1
      · unfold makeDataSinks at hs1
        split at hs1
        · cases hs1
        · split at hs1
          · cases hs1; exact ⟨rfl, rfl, rfl⟩
          · cases hs1
      · cases hs1; exact ⟨rfl, rfl, rfl⟩
    obtain ⟨e1, e2, e3⟩ := hs
    obtain ⟨_, _, h⟩ := Res.bind_eq_ok.1 h
    split at h
    · cases h
    obtain ⟨r, _, h⟩ := Res.bind_eq_ok.1 h
    obtain ⟨_, _, h⟩ := Res.bind_eq_ok.1 h
    cases h
    refine ⟨_, by dsimp only; rw [e1], ?_⟩
    dsimp only
    rw [← e2, ← e3]
    have hb : ∀ i, ∀ c ∈ chunksInShard cfg.dims s1.bufs.length i, c < s1.bufs.length := by
      intro i c hc
      unfold chunksInShard at hc
      exact List.mem_range.1 (List.mem_filter.1 hc).1
    constructor
    · rintro ⟨m, hm, hne⟩
      obtain ⟨j, hj, hm⟩ := List.mem_flatMap.1 hm
      obtain ⟨i, hi, rfl⟩ := List.mem_map.1 hj
      split at hm
      · simp at hm
      · rename_i hsucc
        rw [List.mem_singleton] at hm
        obtain ⟨c, b, h1, h2, h3⟩ := (shardJob_message (hb i)).1 ⟨by simpa using hsucc, fun h => hne (hm.trans h)⟩
        exact ⟨i, c, b, List.mem_range.1 hi, h1, h2, h3⟩
    · rintro ⟨i, c, b, hi, h1, h2, h3⟩
      obtain ⟨k1, k2⟩ := (shardJob_message (table := s1.shardTables.getD i []) (wt := s1.finalizing || r) (hb i)).2 ⟨c, b, h1, h2, h3⟩
      refine ⟨_, List.mem_flatMap.2 ⟨_, List.mem_map_of_mem (List.mem_range.2 hi), ?_⟩, k2⟩
      rw [k1]
      simp

/-! ### Violations -/

namespace Sample

/-- `env` with the given behaviour for writes of exactly the bytes `bad`. -/
def flaky (bad : Bytes) (out : WriteOut) : Env := { Sample.env with
  write := fun _ _ data => if data = bad then out else .stored }

/-- Version 3, rows of `n` one-byte pixels, `k` frames per chunk, one chunk per pixel, one shard per row. -/
def strip (version n k : Nat) : Settings where
  storePath := some "/tmp/a".toList
  customMetadata := none
  s3 := none
  compression := none
  dimensions := some [⟨some "t".toList, 2, 0, k, 1⟩, ⟨some "y".toList, 0, 1, 1, 1⟩, ⟨some "x".toList, 0, n, 1, n⟩]
  multiscale := false
  dataType := 0
  version := version

/-- A session that reports success everywhere although the bytes `bad` were never stored. -/
def lost (env : Env) (s : Settings) (calls : List Bytes) (bad : Bytes) : Bool :=
  match runStream Sample.world env 9 s calls with
  | some (.ok (st, ns, tr)) => st.error.isEmpty && ns == calls.map List.length &&
      tr.all fun e => match e with
        | .wrote _ _ d => d != bad
        | _ => true
  | _ => false

end Sample

theorem Sample.lost_spec {env : Env} {s : Settings} {calls : List Bytes} {bad : Bytes} (h : Sample.lost env s calls bad = true) :
    ∃ st tr, runStream Sample.world env 9 s calls = some (.ok (st, calls.map List.length, tr)) ∧ st.error = [] ∧
      ∀ p off, Ev.wrote p off bad ∉ tr := by
  unfold Sample.lost at h
  split at h
  · rename_i st ns tr heq
    simp only [Bool.and_eq_true, List.all_eq_true, beq_iff_eq, List.isEmpty_iff] at h
    obtain ⟨⟨h1, h2⟩, h3⟩ := h
    rw [h2] at heq
    refine ⟨st, tr, heq, h1, fun p off hm => ?_⟩
    have := h3 _ hm
    simp at this
  · simp at h

theorem Sample.flaky_honest {bad : Bytes} {out : WriteOut} (h : out ≠ .silent) : Honest (Sample.flaky bad out) := by
  intro p off data
  show (if data = bad then out else .stored) ≠ .silent
  split
  · exact h
  · simp

/-- **C30 is violated** for version 3: when a sink returns false (as `S3Sink` does), the job reports failure with an
empty message, which is not recognised as an error. All appends and destroy succeed; the chunk is nowhere. -/
theorem v3_failed_write_violated : ∃ env, Honest env ∧ ∃ s calls bad, s.version = 3 ∧
    env.write = (fun _ _ d => if d = bad then .failed else .stored) ∧
    ∃ st tr, runStream Sample.world env 9 s calls = some (.ok (st, calls.map List.length, tr)) ∧ st.error = [] ∧
      (∀ p off, Ev.wrote p off bad ∉ tr) ∧ bad ∈ calls :=
  ⟨Sample.flaky [5] .failed, Sample.flaky_honest (by simp), Sample.strip 3 1 1, [[5], [6]], [5], rfl, rfl, by
    obtain ⟨st, tr, h1, h2, h3⟩ := Sample.lost_spec (env := Sample.flaky [5] .failed) (s := Sample.strip 3 1 1)
      (calls := [[5], [6]]) (bad := [5]) (by decide +kernel)
    exact ⟨st, tr, h1, h2, h3, by simp⟩⟩

/-- For version 3 also an exception is swallowed if an earlier chunk of the same shard was written: the frame has the
two pixels 5 and 6 in two chunks of one shard and writing the second chunk throws. -/
theorem v3_exception_violated : ∃ st tr, runStream Sample.world (Sample.flaky [6] .threw) 9 (Sample.strip 3 2 1) [[5, 6], [7, 8]] =
    some (.ok (st, [2, 2], tr)) ∧ st.error = [] ∧ ∀ p off, Ev.wrote p off [6] ∉ tr :=
  Sample.lost_spec (by decide +kernel)

/-- Version 2: data flushed by destroy. One frame, two frames per chunk; the write of the only chunk returns false and
destroy succeeds. -/
theorem v2_destroy_violated : ∃ st tr, runStream Sample.world (Sample.flaky [5, 0] .failed) 9 (Sample.strip 2 1 2) [[5]] =
    some (.ok (st, [1], tr)) ∧ st.error = [] ∧ ∀ p off, Ev.wrote p off [5, 0] ∉ tr :=
  Sample.lost_spec (by decide +kernel)

/-- Files: `FileSink::write` does not look at the state of the `ofstream`, so a full disk is not noticed, in version 2 and
3 alike. -/
theorem silent_file_violated : ∀ v ∈ [2, 3], ∃ st tr,
    runStream Sample.world (Sample.flaky [5] .silent) 9 (Sample.strip v 1 1) [[5], [6]] =
    some (.ok (st, [1, 1], tr)) ∧ st.error = [] ∧ ∀ p off, Ev.wrote p off [5] ∉ tr := by
  intro v hv
  simp only [List.mem_cons, List.not_mem_nil, or_false] at hv
  rcases hv with rfl | rfl
  · exact Sample.lost_spec (by decide +kernel)
  · exact Sample.lost_spec (by decide +kernel)

/-! ### Non-vacuity -/

/-- The hypotheses of `success_means_stored_partial` on storage that fails sometimes: chunk 9 cannot be written but the
stream has not come to it. -/
example : Honest (Sample.flaky [9] .failed) ∧ (Sample.strip 2 1 1).version = 2 ∧
    ∃ st r, Reached Sample.world (Sample.flaky [9] .failed) 9 (Sample.strip 2 1 1) [[5], [6]] st ∧
      append (Sample.flaky [9] .failed) (appendFuel [7]) [7] st = some (.ok r) := by
  have h : (match createStream Sample.world (Sample.flaky [9] .failed) 9 (some (Sample.strip 2 1 1)) with
    | some (.ok st0) =>
      match appends (Sample.flaky [9] .failed) [[5], [6]] st0 with
      | .ok (st, _) =>
        match append (Sample.flaky [9] .failed) (appendFuel [7]) [7] st with
        | some (.ok _) => true
        | _ => false
      | _ => false
    | _ => false) = true := by decide +kernel
  refine ⟨Sample.flaky_honest (by simp), rfl, ?_⟩
  split at h
  · rename_i st0 h0
    split at h
    · rename_i st ns h1
      split at h
      · rename_i r h2
        exact ⟨st, r, ⟨st0, ns, h0, h1⟩, h2⟩
      · simp at h
    · simp at h
  · simp at h

/-- The hypotheses of `failed_write_reported_partial`: both frames are acknowledged, the chunk 5 would be written on
storage without failures, and is not. -/
example : ∃ good st, Reached Sample.world (perfect (Sample.flaky [5] .failed)) 9 (Sample.strip 2 1 1) [[5]] good ∧
    (∃ p off, Ev.wrote p off [5] ∈ good.trace ∧ (Sample.flaky [5] .failed).write p off [5] ≠ .stored) ∧
    Reached Sample.world (Sample.flaky [5] .failed) 9 (Sample.strip 2 1 1) [[5]] st := by
  have h : (match createStream Sample.world (perfect (Sample.flaky [5] .failed)) 9 (some (Sample.strip 2 1 1)),
      createStream Sample.world (Sample.flaky [5] .failed) 9 (some (Sample.strip 2 1 1)) with
    | some (.ok g0), some (.ok st0) =>
      match appends (perfect (Sample.flaky [5] .failed)) [[5]] g0, appends (Sample.flaky [5] .failed) [[5]] st0 with
      | .ok (g, _), .ok (_, _) => g.trace.any fun e => match e with
        | .wrote _ _ d => d == [5]
        | _ => false
      | _, _ => false
    | _, _ => false) = true := by decide +kernel
  split at h
  · rename_i g0 st0 hg0 h0
    split at h
    · rename_i g _ st _ hg h1
      refine ⟨g, st, ⟨g0, _, hg0, hg⟩, ?_, ⟨st0, _, h0, h1⟩⟩
      rw [List.any_eq_true] at h
      obtain ⟨e, hm, he⟩ := h
      split at he
      · rename_i p off d
        rw [beq_iff_eq] at he
        subst he
        exact ⟨p, off, hm, by simp [Sample.flaky]⟩
      · simp at he
    · simp at h
  · simp at h

/-- The right-hand side of `v3_flush_message_iff` happens: the first chunk of the shard throws, the append that flushes it
succeeds and the error is pending. -/
example : ∃ st, Reached Sample.world (Sample.flaky [5] .threw) 9 (Sample.strip 3 2 1) [[5, 6]] st ∧ st.error ≠ [] := by
  have h : (match createStream Sample.world (Sample.flaky [5] .threw) 9 (some (Sample.strip 3 2 1)) with
    | some (.ok st0) =>
      match appends (Sample.flaky [5] .threw) [[5, 6]] st0 with
      | .ok (st, _) => !st.error.isEmpty
      | _ => false
    | _ => false) = true := by decide +kernel
  split at h
  · rename_i st0 h0
    split at h
    · rename_i st ns h1
      exact ⟨st, ⟨st0, ns, h0, h1⟩, fun e => by rw [e] at h; simp at h⟩
    · simp at h
  · simp at h

end AZ
