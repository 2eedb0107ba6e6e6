import Verif.Props.StreamJobs
import Verif.Props.Append
import Verif.Props.FailedShards

set_option linter.unusedSimpArgs false

/-! # C58 for streams nothing fails on -/

namespace AZ.Reporting

variable {env : Env} {cfg : WConfig} {st st' : SState} {n : Nat} {s : State}

/-! ### A property of the writers kept by every frame -/

section inv

variable {I : WConfig → WState → Prop} {P : List Job → Prop}
  (hk : ∀ cfg f ws ws' k, I cfg ws → writeFrame env cfg f ws = .ok (ws', k) → I cfg ws')
  (hb : ∀ cfg f ws, I cfg ws → ∀ b ∈ frameBatches env cfg f ws, P b)

include hk in
theorem step_inv {lv lv' : Level} {f : Bytes} {k : Nat} {evs : List Ev} {errs : List Text}
    (hl : I lv.cfg lv.st) (h : writerStep env lv f = .ok (lv', k, evs, errs)) : I lv'.cfg lv'.st := by
  obtain ⟨a, _, b, _⟩ := writerStep_spec h
  rw [a]
  exact hk _ _ _ _ _ hl b

include hk in
theorem pyramid_inv {t : DType} {lvs lvs' : List Level} {f : Bytes} {x y : Nat} {evs : List Ev} {errs : List Text}
    (hl : ∀ lv ∈ lvs, I lv.cfg lv.st) (h : pyramidLoop env t lvs f x y = .ok (lvs', evs, errs)) :
    ∀ lv ∈ lvs', I lv.cfg lv.st := by
  induction lvs generalizing f x y lvs' evs errs with
  | nil =>
    simp only [pyramidLoop, Res.ok.injEq, Prod.mk.injEq] at h
    rw [← h.1]
    simp
  | cons lv rest ih =>
    have hr : ∀ l ∈ rest, I l.cfg l.st := fun l hm => hl l (List.mem_cons_of_mem _ hm)
    rw [pyramidLoop] at h
    obtain ⟨s, _, h⟩ := Res.bind_eq_ok.1 h
    split at h
    · simp only [Res.pure_eq, Res.ok.injEq, Prod.mk.injEq] at h
      rw [← h.1]
      intro l hm
      rcases List.mem_cons.1 hm with rfl | hm
      · exact hl lv List.mem_cons_self
      · exact hr l hm
    · obtain ⟨⟨lv', k, e1, r1⟩, h1, h⟩ := Res.bind_eq_ok.1 h
      dsimp only at h
      obtain ⟨_, _, h⟩ := Res.bind_eq_ok.1 h
      obtain ⟨⟨rest', e2, r2⟩, h2, h⟩ := Res.bind_eq_ok.1 h
      simp only [Res.pure_eq, Res.ok.injEq, Prod.mk.injEq] at h
      rw [← h.1]
      intro l hm
      rcases List.mem_cons.1 hm with rfl | hm
      · exact step_inv (lv := { lv with saved := none }) hk (hl lv List.mem_cons_self) h1
      · exact ih hr h2 l hm

include hk in
theorem multiscale_inv {f : Bytes} (hl : ∀ lv ∈ st.levels, I lv.cfg lv.st) (h : writeMultiscale env st f = .ok st') :
    ∀ lv ∈ st'.levels, I lv.cfg lv.st := by
  unfold writeMultiscale at h
  split at h
  · cases h; exact hl
  · split at h
    · cases h; exact hl
    · rename_i l0 rest e
      obtain ⟨⟨rest', evs, errs⟩, h1, h⟩ := Res.bind_eq_ok.1 h
      simp only [Res.pure_eq, Res.ok.injEq] at h
      rw [← h]
      rw [e] at hl
      intro l hm
      rcases List.mem_cons.1 hm with rfl | hm
      · exact hl _ List.mem_cons_self
      · exact pyramid_inv hk (fun l hm => hl l (List.mem_cons_of_mem _ hm)) h1 l hm

include hk in
theorem level0_inv {f : Bytes} {k : Nat} (hl : ∀ lv ∈ st.levels, I lv.cfg lv.st) (h : writeLevel0 env st f = .ok (st', k)) :
    ∀ lv ∈ st'.levels, I lv.cfg lv.st := by
  unfold writeLevel0 at h
  split at h
  · cases h
  · rename_i l0 rest e
    obtain ⟨⟨l0', k', evs, errs⟩, h1, h⟩ := Res.bind_eq_ok.1 h
    simp only [Res.pure_eq, Res.ok.injEq, Prod.mk.injEq] at h
    rw [← h.1]
    rw [e] at hl
    intro l hm
    rcases List.mem_cons.1 hm with rfl | hm
    · exact step_inv hk (hl _ List.mem_cons_self) h1
    · exact hl l (List.mem_cons_of_mem _ hm)

include hk hb

omit hk in
theorem pyramid_batches_inv {t : DType} {lvs : List Level} {data : Bytes} {x y : Nat} (hl : ∀ lv ∈ lvs, I lv.cfg lv.st) :
    ∀ b ∈ pyramidBatches env t lvs data x y, P b := by
  induction lvs generalizing data x y with
  | nil => simp [pyramidBatches]
  | cons lv rest ih =>
    intro b hm
    unfold pyramidBatches at hm
    split at hm
    · dsimp only at hm
      rcases List.mem_append.1 hm with hm | hm
      · exact hb _ _ _ (hl lv List.mem_cons_self) b hm
      · split at hm
        · split at hm
          · simp at hm
          · exact ih (fun l hm => hl l (List.mem_cons_of_mem _ hm)) b hm
        · simp at hm
    · simp at hm

omit hk in
theorem multiscale_batches_inv {data : Bytes} (hl : ∀ lv ∈ st.levels, I lv.cfg lv.st) :
    ∀ b ∈ multiscaleBatches env st data, P b := by
  intro b hm
  unfold multiscaleBatches at hm
  split at hm
  · simp at hm
  · split at hm
    · simp at hm
    · rename_i l0 rest e
      exact pyramid_batches_inv hb (fun l hm => hl l (by rw [e]; exact List.mem_cons_of_mem _ hm)) b hm

omit hk in
theorem level0_batches_inv {data : Bytes} (hl : ∀ lv ∈ st.levels, I lv.cfg lv.st) : ∀ b ∈ level0Batches env st data, P b := by
  intro b hm
  unfold level0Batches at hm
  split at hm
  · simp at hm
  · rename_i l0 rest e
    exact hb _ _ _ (hl l0 (by rw [e]; exact List.mem_cons_self)) b hm

theorem append_batches_inv {data : Bytes} {fuel ptr bw : Nat} (hl : ∀ lv ∈ st.levels, I lv.cfg lv.st) :
    (∀ b ∈ appendBatches env data fuel ptr bw st, P b) ∧
      ∀ st' k, appendLoop env data fuel ptr bw st = some (.ok (st', k)) → ∀ lv ∈ st'.levels, I lv.cfg lv.st := by
  induction fuel generalizing ptr bw st with
  | zero =>
    refine ⟨by simp [appendBatches], fun st' k h => ?_⟩
    unfold appendLoop at h
    split at h
    · cases h; exact hl
    · cases h
  | succ fuel ih =>
    unfold appendBatches appendLoop
    split
    · refine ⟨by simp, fun st' k h => ?_⟩
      cases h
      exact hl
    · dsimp only
      split
      · split
        · simp
        · split
          · split
            · simp
            · cases hw : writeLevel0 env { st with
                  buf := pwrite st.buf st.offset (slice data (ptr + bw) (min (st.buf.length - st.offset) (data.length - bw)))
                  offset := st.offset + min (st.buf.length - st.offset) (data.length - bw) } (slice data ptr st.buf.length) with
              | ok r =>
                obtain ⟨st2, k⟩ := r
                have h2 := level0_inv hk (by exact hl) hw
                dsimp only
                refine ⟨fun b hm => ?_, fun st' k' h => ?_⟩
                · rcases List.mem_append.1 hm with hm | hm
                  · exact level0_batches_inv hb (by exact hl) b hm
                  · split at hm
                    · simp at hm
                    · exact (ih (by exact h2)).1 b hm
                · split at h
                  · cases h; exact h2
                  · exact (ih (by exact h2)).2 _ _ h
              | throw =>
                refine ⟨fun b hm => ?_, by simp⟩
                rcases List.mem_append.1 hm with hm | hm
                · exact level0_batches_inv hb (by exact hl) b hm
                · simp at hm
              | ub =>
                refine ⟨fun b hm => ?_, by simp⟩
                rcases List.mem_append.1 hm with hm | hm
                · exact level0_batches_inv hb (by exact hl) b hm
                · simp at hm
          · exact ih (by exact hl)
      · split
        · split
          · simp
          · exact ih (by exact hl)
        · split
          · simp
          · cases hw : writeLevel0 env st (slice data ptr st.buf.length) with
            | ok r =>
              obtain ⟨st2, k⟩ := r
              have h2 := level0_inv hk (by exact hl) hw
              dsimp only
              split
              · refine ⟨fun b hm => ?_, fun st' k' h => by cases h; exact h2⟩
                rcases List.mem_append.1 hm with hm | hm
                · exact level0_batches_inv hb (by exact hl) b hm
                · simp at hm
              · refine ⟨fun b hm => ?_, fun st' k' h => ?_⟩
                · rcases List.mem_append.1 hm with hm | hm
                  · exact level0_batches_inv hb hl b hm
                  · rcases List.mem_append.1 hm with hm | hm
                    · exact multiscale_batches_inv hb h2 b hm
                    · split at hm
                      · rename_i st3 h3
                        exact (ih (multiscale_inv hk h2 h3)).1 b hm
                      · simp at hm
                · split at h
                  · cases h
                  · cases h
                  · rename_i st3 h3
                    exact (ih (multiscale_inv hk h2 h3)).2 _ _ h
            | throw =>
              refine ⟨fun b hm => ?_, by simp⟩
              rcases List.mem_append.1 hm with hm | hm
              · exact level0_batches_inv hb (by exact hl) b hm
              · simp at hm
            | ub =>
              refine ⟨fun b hm => ?_, by simp⟩
              rcases List.mem_append.1 hm with hm | hm
              · exact level0_batches_inv hb (by exact hl) b hm
              · simp at hm

theorem program_inv {ds : List Bytes} (hl : ∀ lv ∈ st.levels, I lv.cfg lv.st) : ∀ c ∈ streamProgram env ds st, ∀ b ∈ c, P b := by
  induction ds generalizing st with
  | nil => simp [streamProgram]
  | cons d ds ih =>
    intro c hc
    unfold streamProgram at hc
    rcases List.mem_cons.1 hc with rfl | hc
    · exact (append_batches_inv hk hb hl).1
    · split at hc
      · rename_i st' k hw
        exact ih ((append_batches_inv hk hb hl).2 _ _ hw) c hc
      · obtain ⟨_, _, rfl⟩ := List.mem_map.1 hc
        simp

end inv

/-! ### Shard jobs where storage accepts every write -/

/-- Every shard has an index table with two entries for each chunk of the shard. -/
def Tables (cfg : WConfig) (ws : WState) : Prop :=
  cfg.version = .v3 → ws.shardTables.length = cfg.dims.numberOfShards ∧
    ∀ t ∈ ws.shardTables, t.length = 2 * cfg.dims.slotCount

theorem shardLoop_table {D : ArrayDims} (p : Text) (bufs : List Bytes) (cs : List Nat) (j : ShardJob) :
    (shardLoop env D p bufs cs j).table.length = j.table.length := by
  induction cs generalizing j with
  | nil => rfl
  | cons c cs ih =>
    unfold shardLoop
    split
    · rfl
    · split
      · rfl
      · rfl
      · dsimp only
        split
        · rw [ih]; simp
        · rfl

theorem shardJob_table {D : ArrayDims} (p : Text) (bufs : List Bytes) (cs : List Nat) (t : List Nat) (o : Nat) (wt : Bool) :
    (shardJob env D p bufs cs t o wt).table.length = t.length := by
  unfold shardJob
  dsimp only
  split
  · split <;> exact shardLoop_table _ _ _ _
  · exact shardLoop_table _ _ _ _

theorem shardLoop_succeeds {D : ArrayDims} (hw : ∀ p o d, env.write p o d ≠ .failed ∧ env.write p o d ≠ .threw) (p : Text)
    (bufs : List Bytes) (cs : List Nat) (j : ShardJob) (hcs : ∀ c ∈ cs, c < bufs.length)
    (hsl : ∀ c ∈ cs, u32 (2 * D.shardInternalIndex c) + 1 < j.table.length) :
    (shardLoop env D p bufs cs j).success = (j.success || !cs.isEmpty) := by
  induction cs generalizing j with
  | nil => simp [shardLoop]
  | cons c cs ih =>
    have hc := hcs c (by simp)
    unfold shardLoop
    rw [List.getElem?_eq_getElem hc]
    dsimp only
    split
    · rename_i e
      exact absurd e (hw _ _ _).2
    · rename_i e
      exact absurd e (hw _ _ _).1
    · rw [if_pos (hsl c (by simp)), ih]
      · simp
      · exact fun x hx => hcs x (by simp [hx])
      · intro x hx
        simpa using hsl x (by simp [hx])

theorem shardJob_succeeds {D : ArrayDims} (hw : ∀ p o d, env.write p o d ≠ .failed ∧ env.write p o d ≠ .threw) (p : Text)
    (bufs : List Bytes) {cs : List Nat} (t : List Nat) (o : Nat) (wt : Bool) (hne : cs ≠ []) (hcs : ∀ c ∈ cs, c < bufs.length)
    (hsl : ∀ c ∈ cs, u32 (2 * D.shardInternalIndex c) + 1 < t.length) :
    (shardJob env D p bufs cs t o wt).success = true := by
  have hl : (shardLoop env D p bufs cs ⟨t, o, false, false, [], []⟩).success = true := by
    rw [shardLoop_succeeds hw p bufs cs _ hcs (by exact hsl)]
    cases cs with
    | nil => exact absurd rfl hne
    | cons => rfl
  unfold shardJob
  dsimp only
  split
  · split
    · exact hl
    · rename_i e
      exact absurd e (hw _ _ _).1
    · exact hl
    · exact hl
  · exact hl

theorem writeBatch_healthy {cfg : WConfig} (ok : ArrOk cfg) (hw : ∀ p o d, env.write p o d ≠ .failed ∧ env.write p o d ≠ .threw)
    {ws : WState} (hb : ws.bufs.length = cfg.dims.chunkCount) (ht : Tables cfg ws) :
    ∀ j ∈ writeBatch env cfg ws, j.fails = none := by
  intro j hj
  unfold writeBatch at hj
  split at hj
  · obtain ⟨i, _, rfl⟩ := List.mem_map.1 hj
    dsimp only
    rw [chunkJob_quiet hw]
    rfl
  · rename_i hV
    have h3 := ok.v3 hV
    obtain ⟨t1, t2⟩ := ht hV
    obtain ⟨i, hi, rfl⟩ := List.mem_map.1 hj
    have hi := List.mem_range.1 hi
    dsimp only
    rw [if_pos]
    have hlen : (ws.shardTables.getD i []).length = 2 * cfg.dims.slotCount := by
      refine t2 _ ?_
      have : i < ws.shardTables.length := by omega
      rw [List.getD_eq_getElem?_getD, List.getElem?_eq_getElem this]
      exact List.getElem_mem this
    have hs := h3.slots
    apply shardJob_succeeds hw
    · rw [ArrayDims.numberOfShards_eq ok.valid ok.fits h3] at hi
      obtain ⟨c, c1, c2⟩ := ArrayDims.shard_nonempty ok.valid ok.fits h3 hi
      refine List.ne_nil_of_mem (a := c) ?_
      unfold chunksInShard
      rw [List.mem_filter, List.mem_range]
      exact ⟨by omega, by simp [c2]⟩
    · intro c hc
      unfold chunksInShard at hc
      exact List.mem_range.1 (List.mem_filter.1 hc).1
    · intro c hc
      unfold chunksInShard at hc
      have hc := List.mem_range.1 (List.mem_filter.1 hc).1
      have := ArrayDims.slot_lt ok.valid ok.fits h3 (c := c) (by omega)
      rw [hlen, u32_of_lt (by unfold ArrayDims.slotCount at *; omega)]
      omega

/-! ### The tables are kept -/

theorem tables_of {cfg : WConfig} {ws ws' : WState} (h : Tables cfg ws) (e : ws'.shardTables = ws.shardTables) : Tables cfg ws' := by
  intro hV
  rw [e]
  exact h hV

theorem compress_tables (cfg : WConfig) (ws : WState) : (compressBuffers env cfg ws).shardTables = ws.shardTables := by
  unfold compressBuffers
  split <;> rfl

theorem makeSinks_tables {cfg : WConfig} {ws ws' : WState} (h : makeDataSinks env cfg ws = some ws') : ws'.shardTables = ws.shardTables := by
  unfold makeDataSinks at h
  split at h
  · simp at h
  · split at h
    · cases h; rfl
    · simp at h

theorem jobsStart_tables {cfg : WConfig} {ws ws' : WState} (h : jobsStart env cfg ws = some ws') :
    ws'.shardTables = ws.shardTables ∧ ws'.bufs = ws.bufs := by
  unfold jobsStart at h
  split at h
  · exact ⟨makeSinks_tables h, makeDataSinks_bufs h⟩
  · split at h
    · exact ⟨makeSinks_tables h, makeDataSinks_bufs h⟩
    · cases h; exact ⟨rfl, rfl⟩

theorem rollover_tables {ws ws' : WState} (h : rollover env ws = .ok ws') : ws'.shardTables = ws.shardTables := by
  unfold rollover at h
  obtain ⟨_, _, h⟩ := Res.bind_eq_ok.1 h
  cases h
  rfl

theorem metadata_tables {cfg : WConfig} {ws ws' : WState} (h : writeArrayMetadata env cfg ws = .ok ws') : ws'.shardTables = ws.shardTables := by
  unfold writeArrayMetadata at h
  obtain ⟨_, _, h⟩ := Res.bind_eq_ok.1 h
  dsimp only at h
  obtain ⟨_, _, h⟩ := Res.bind_eq_ok.1 h
  split at h
  · cases h; split <;> rfl
  · cases h; split <;> rfl
  · cases h
  · cases h

theorem flushImpl_tables {cfg : WConfig} (ok : ArrOk cfg) {ws ws' : WState} (ht : Tables cfg ws) (h : flushImpl env cfg ws = .ok ws') :
    Tables cfg ws' := by
  intro hV
  obtain ⟨t1, t2⟩ := ht hV
  unfold flushImpl at h
  rw [hV] at h
  dsimp only at h
  unfold flushImplV3 at h
  dsimp only at h
  split at h
  · cases h
  · rename_i s1 hs
    have e : s1.shardTables = ws.shardTables := by
      split at hs
      · exact makeSinks_tables hs
      · cases hs; rfl
    obtain ⟨_, _, h⟩ := Res.bind_eq_ok.1 h
    split at h
    · cases h
    · obtain ⟨roll, _, h⟩ := Res.bind_eq_ok.1 h
      obtain ⟨_, _, h⟩ := Res.bind_eq_ok.1 h
      cases h
      dsimp only
      rw [e]
      split
      · refine ⟨by simpa using t1, fun t hm => ?_⟩
        obtain ⟨_, _, rfl⟩ := List.mem_map.1 hm
        rw [ArrayDims.emptyTable_eq (ok.v3 hV)]
        simp
      · refine ⟨by simp, fun t hm => ?_⟩
        obtain ⟨j, hj, rfl⟩ := List.mem_map.1 hm
        obtain ⟨i, hi, rfl⟩ := List.mem_map.1 hj
        have hi := List.mem_range.1 hi
        rw [shardJob_table]
        refine t2 _ ?_
        have : i < ws.shardTables.length := by omega
        rw [List.getD_eq_getElem?_getD, List.getElem?_eq_getElem this]
        exact List.getElem_mem this

theorem flush_tables {cfg : WConfig} (ok : ArrOk cfg) {ws ws' : WState} (ht : Tables cfg ws) (h : flush env cfg ws = .ok ws') :
    Tables cfg ws' := by
  rw [flush_seq] at h
  split at h
  · cases h; exact ht
  · obtain ⟨s2, h2, h⟩ := Res.bind_eq_ok.1 h
    obtain ⟨roll, _, h⟩ := Res.bind_eq_ok.1 h
    obtain ⟨s3, h3, h⟩ := Res.bind_eq_ok.1 h
    obtain ⟨s4, h4, h⟩ := Res.bind_eq_ok.1 h
    cases h
    have t2 := flushImpl_tables ok (tables_of ht (compress_tables cfg ws)) h2
    have e3 : s3.shardTables = s2.shardTables := by
      split at h3
      · exact rollover_tables h3
      · cases h3; rfl
    have e4 : s4.shardTables = s3.shardTables := by
      split at h4
      · exact metadata_tables h4
      · cases h4; rfl
    exact tables_of t2 (by dsimp only; rw [e4, e3])

/-- What a writer keeps: sizes in range, chunk buffers and shard tables of the right size. -/
def Good (cfg : WConfig) (ws : WState) : Prop := ArrOk cfg ∧ BufsHealthy cfg.dims ws.bufs ∧ Tables cfg ws

theorem frame_good (cfg : WConfig) (f : Bytes) (ws ws' : WState) (k : Nat) (h : Good cfg ws)
    (hf : writeFrame env cfg f ws = .ok (ws', k)) : Good cfg ws' := by
  obtain ⟨ok, hb, ht⟩ := h
  refine ⟨ok, ((writeFrame_healthy ok f hb).2 _ _ hf).1, ?_⟩
  rw [writeFrame_seq] at hf
  split at hf
  · cases hf; exact ht
  · dsimp only at hf
    obtain ⟨r, _, hf⟩ := Res.bind_eq_ok.1 hf
    obtain ⟨_, _, hf⟩ := Res.bind_eq_ok.1 hf
    obtain ⟨fl, _, hf⟩ := Res.bind_eq_ok.1 hf
    obtain ⟨s2, h2, hf⟩ := Res.bind_eq_ok.1 hf
    cases hf
    have t0 : Tables cfg (if ws.bufs.isEmpty then { ws with bufs := makeBuffers cfg.dims } else ws) := by
      split
      · exact tables_of ht rfl
      · exact ht
    split at h2
    · exact flush_tables ok (tables_of t0 (by rfl)) h2
    · cases h2
      exact tables_of t0 (by rfl)

theorem frame_batches_good (hw : ∀ p o d, env.write p o d ≠ .failed ∧ env.write p o d ≠ .threw)
    (hz : ∀ p b x, env.compress p b x ≠ none) (cfg : WConfig) (f : Bytes) (ws : WState) (h : Good cfg ws) :
    ∀ b ∈ frameBatches env cfg f ws, ∀ j ∈ b, j.fails = none := by
  obtain ⟨ok, hb, ht⟩ := h
  have hflush : ∀ ws, ws.bufs.length = cfg.dims.chunkCount → Tables cfg ws →
      ∀ b ∈ flushBatches env cfg ws, ∀ j ∈ b, j.fails = none := by
    intro ws hl ht b hb
    unfold flushBatches at hb
    split at hb
    · simp at hb
    · rcases List.mem_append.1 hb with hb | hb
      · unfold compressBatches at hb
        split at hb
        · simp at hb
        · rename_i p _
          rw [List.mem_singleton.1 hb]
          intro j hj
          obtain ⟨i, _, rfl⟩ := List.mem_map.1 hj
          dsimp only
          unfold compressJob
          split
          · rfl
          · rename_i e
            exact absurd e (hz _ _ _)
      · split at hb
        · rename_i s1 hs
          obtain ⟨e1, e2⟩ := jobsStart_tables hs
          rw [List.mem_singleton.1 hb]
          refine writeBatch_healthy ok hw ?_ (tables_of ht ?_)
          · rw [e2, compressBuffers_length, hl]
          · rw [e1, compress_tables]
        · simp at hb
  intro b hm
  unfold frameBatches at hm
  split at hm
  · simp at hm
  · rename_i hd
    have hd : f.length = cfg.dims.frameBytes := by
      rw [ArrayDims.bytesOfFrame_eq ok.valid ok.fits] at hd
      exact (not_not.1 hd).symm
    dsimp only at hm
    have hs := allocate_sized ok hb
    have t0 : Tables cfg (if ws.bufs.isEmpty then { ws with bufs := makeBuffers cfg.dims } else ws) := by
      split
      · exact tables_of ht rfl
      · exact ht
    generalize (if ws.bufs.isEmpty then { ws with bufs := makeBuffers cfg.dims } else ws) = s0 at hs t0 hm
    have hs' := ArrayDims.writeFrameToChunks_sized ok.valid ok.fits s0.framesWritten hd hs
    rw [ArrayDims.writeFrameToChunks_eq ok.valid ok.fits _ hd hs] at hm
    dsimp only at hm
    split at hm
    · exact hflush _ hs'.1 (tables_of t0 (by rfl)) b hm
    · simp at hm

/-- No job of a stream fails whose sizes are in range, if storage accepts every write and compression does not fail. -/
theorem no_job_fails {w : World} {fuel : Nat} {s : Settings} {cfg : WConfig} {cfgs : List WConfig} {ds : List Bytes}
    (h : Setup w fuel s cfg cfgs) (h3 : s.version = 3 → cfg.dims.FitsV3)
    (hc : createStream w env fuel (some s) = some (.ok st))
    (hw : ∀ p o d, env.write p o d ≠ .failed ∧ env.write p o d ≠ .threw) (hz : ∀ p b x, env.compress p b x ≠ none) :
    ∀ c ∈ streamProgram env ds st, ∀ b ∈ c, ∀ j ∈ b, j.fails = none := by
  obtain ⟨cfg', cfgs', q⟩ := createStream_ok hc
  have h1 := q.commit
  rw [h.commit] at h1
  cases h1
  have h2 := q.levels
  rw [h.levels] at h2
  cases h2
  refine program_inv (I := Good) (fun cfg f ws ws' k => frame_good cfg f ws ws' k)
    (P := fun b => ∀ j ∈ b, j.fails = none) (frame_batches_good hw hz) ?_
  intro lv hl
  rw [q.slevels] at hl
  obtain ⟨c, hm, rfl⟩ := List.mem_map.1 hl
  refine ⟨h.arrOk h3 c hm, .inl rfl, fun hV => ?_⟩
  have hV : c.version = .v3 := hV
  show (WState.init c).shardTables.length = _ ∧ ∀ t ∈ (WState.init c).shardTables, _
  unfold WState.init
  rw [hV]
  refine ⟨by simp, fun t ht => ?_⟩
  obtain ⟨_, rfl⟩ := List.mem_replicate.1 ht
  rw [ArrayDims.emptyTable_eq ((h.arrOk h3 c hm).v3 hV)]
  simp

/-- **C58 (part), whole streams, both versions.** If the sizes are in range, storage accepts every write and compression does not
fail, then no two threads may ever access the error message at the same time. What is missing: anything failing (`error_race_violated`). -/
theorem stream_error_race_free_partial {w : World} {fuel : Nat} {s : Settings} {cfg : WConfig} {cfgs : List WConfig} {ds : List Bytes}
    {s' : State} (h : Setup w fuel s cfg cfgs) (h3 : s.version = 3 → cfg.dims.FitsV3)
    (hc : createStream w env fuel (some s) = some (.ok st))
    (hw : ∀ p o d, env.write p o d ≠ .failed ∧ env.write p o d ≠ .threw) (hz : ∀ p b x, env.compress p b x ≠ none)
    (hr : Reachable n (streamProgram env ds st) s') : ¬ ErrorRace s' := by
  refine error_race_free_partial hr (List.eq_nil_iff_forall_not_mem.2 fun m hm => ?_)
  have hp := List.count_pos_iff.2 hm
  have hb := (balance hr).1 m
  dsimp only at hb
  have : m ∈ (streamProgram env ds st).flatMap failures := List.count_pos_iff.1 (by omega)
  obtain ⟨c, hcm, hm⟩ := List.mem_flatMap.1 this
  obtain ⟨j, hj, hm⟩ := List.mem_filterMap.1 hm
  obtain ⟨b, hbm, hj⟩ := List.mem_flatten.1 hj
  rw [no_job_fails h h3 hc hw hz c hcm b hbm j hj] at hm
  cases hm

/-- **C56, C60, whole streams.** If storage accepts every write and compression does not fail, then with at least one worker and under
any schedule every call of append returns, and none is refused because of a failure in the background. (Exceptions in append itself,
for instance when sinks cannot be created, are not part of the programs.) -/
theorem stream_calls_accepted {ds : List Bytes} (hn : 0 < n)
    (hw : ∀ p o d, env.write p o d ≠ .failed ∧ env.write p o d ≠ .threw) (hz : ∀ p b x, env.compress p b x ≠ none) :
    (∀ s, Reachable n (streamProgram env ds st) s → (∀ x, step s x = none) → s.results = List.replicate ds.length true) ∧
    ∃ N, ∀ ss s, run (init n (streamProgram env ds st)) ss = some s → ss.length ≤ N := by
  refine ⟨fun s h hs => ?_, (stream_jobs_return hn).2⟩
  have hl := ((stream_jobs_return hn).1 s h hs).1
  have hf := stream_jobs_no_false_alarm hw hz h
  refine List.eq_replicate_iff.2 ⟨hl, fun b hb => ?_⟩
  cases b with
  | true => rfl
  | false => exact absurd hb hf

/-- **C58 (violated), whole streams.** A version 2 stream of rows of two one-byte pixels in chunks of one pixel; storage refuses the
chunks `[5]`. In a call of append with the row `[5, 5]` both workers may assign the error message at once. In two such calls a worker
may assign it while the second call reads it. -/
theorem stream_error_race_violated : ∃ st, createStream AZ.Sample.world (AZ.Sample.flaky [5] .failed) 9 (some (AZ.Sample.strip 2 2 1)) =
      some (.ok st) ∧
    (∃ s, Reachable 2 (streamProgram (AZ.Sample.flaky [5] .failed) [[5, 5]] st) s ∧ WritesError s 0 ∧ WritesError s 1) ∧
    ∃ s, Reachable 2 (streamProgram (AZ.Sample.flaky [5] .failed) [[5, 5], [5, 5]] st) s ∧ ReadsError s ∧ WritesError s 0 := by
  have key : (match createStream AZ.Sample.world (AZ.Sample.flaky [5] .failed) 9 (some (AZ.Sample.strip 2 2 1)) with
      | some (.ok st) =>
        decide (streamProgram (AZ.Sample.flaky [5] .failed) [[5, 5]] st =
          [[[⟨[0], some "Failed to write chunk".toList⟩, ⟨[1], some "Failed to write chunk".toList⟩]]]) &&
        decide (streamProgram (AZ.Sample.flaky [5] .failed) [[5, 5], [5, 5]] st =
          [[[⟨[0], some "Failed to write chunk".toList⟩, ⟨[1], some "Failed to write chunk".toList⟩]],
           [[⟨[0], some "Failed to write chunk".toList⟩, ⟨[1], some "Failed to write chunk".toList⟩]]])
      | _ => false) = true := by decide +kernel
  split at key
  · rename_i st e
    rw [Bool.and_eq_true] at key
    obtain ⟨k1, k2⟩ := key
    refine ⟨st, e, ?_, ?_⟩
    · rw [of_decide_eq_true k1]
      exact ⟨_, ⟨[.call, .batch, .push, .push, .take 0, .take 1, .count 0, .count 1], rfl⟩,
        ⟨⟨[0], _⟩, _, rfl, rfl⟩, ⟨⟨[1], _⟩, _, rfl, rfl⟩⟩
    · rw [of_decide_eq_true k2]
      exact ⟨_, ⟨[.call, .batch, .push, .push, .take 0, .take 1, .count 0, .count 1, .wait, .ret], rfl⟩,
        ⟨rfl, by intro h; cases h⟩, ⟨⟨[0], _⟩, _, rfl, rfl⟩⟩
  · cases key

/-- Non-vacuity of `no_job_fails` and `stream_error_race_free_partial`: a version 3 stream; the jobs of two of its rows. -/
example : Setup AZ.Sample.world 9 (AZ.Sample.strip 3 2 2) AZ.Sample.strip3Cfg [AZ.Sample.strip3Cfg] ∧ AZ.Sample.strip3Cfg.dims.FitsV3 ∧
    (∀ p o d, AZ.Sample.env.write p o d ≠ .failed ∧ AZ.Sample.env.write p o d ≠ .threw) ∧
    (∀ p b x, AZ.Sample.env.compress p b x ≠ none) ∧
    (match createStream AZ.Sample.world AZ.Sample.env 9 (some (AZ.Sample.strip 3 2 2)) with
    | some (.ok st) => decide (streamProgram AZ.Sample.env [[5, 6], [7, 8]] st = [[], [[⟨[0, 1], none⟩]]])
    | _ => false) = true := by
  refine ⟨⟨rfl, rfl, rfl, rfl, by decide, fun h => by cases h⟩, by decide, by simp [AZ.Sample.env], by simp [AZ.Sample.env], by decide +kernel⟩

end AZ.Reporting
