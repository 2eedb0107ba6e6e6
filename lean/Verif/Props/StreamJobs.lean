import Verif.Props.FlushJobs
import Verif.Lemmas.StoredWrites

set_option linter.unusedSimpArgs false

/-! # C56-C60 for whole streams -/

namespace AZ.Reporting

variable {env : Env} {cfg : WConfig} {st st' : SState} {n : Nat} {calls : List (List (List Job))} {s s' : State}

/-! ### What holds of the batches of every frame holds of those of every call -/

section every

variable {P : List Job → Prop} {cs : List WConfig} (h : ∀ cfg ∈ cs, ∀ f ws, ∀ b ∈ frameBatches env cfg f ws, P b)
include h

theorem pyramid_every {t : DType} {lvs : List Level} {data : Bytes} {x y : Nat} (hl : ∀ lv ∈ lvs, lv.cfg ∈ cs) : ∀ b ∈ pyramidBatches env t lvs data x y, P b := by
  induction lvs generalizing data x y with
  | nil => simp [pyramidBatches]
  | cons lv rest ih =>
    intro b hb
    unfold pyramidBatches at hb
    split at hb
    · dsimp only at hb
      rcases List.mem_append.1 hb with hb | hb
      · exact h _ (hl lv List.mem_cons_self) _ _ b hb
      · split at hb
        · split at hb
          · simp at hb
          · exact ih (fun l hm => hl l (List.mem_cons_of_mem _ hm)) b hb
        · simp at hb
    · simp at hb

theorem multiscale_every {data : Bytes} (hl : ∀ lv ∈ st.levels, lv.cfg ∈ cs) : ∀ b ∈ multiscaleBatches env st data, P b := by
  intro b hb
  unfold multiscaleBatches at hb
  split at hb
  · simp at hb
  · split at hb
    · simp at hb
    · rename_i l0 rest e
      exact pyramid_every h (fun l hm => hl l (by rw [e]; exact List.mem_cons_of_mem _ hm)) b hb

theorem level0_every {data : Bytes} (hl : ∀ lv ∈ st.levels, lv.cfg ∈ cs) : ∀ b ∈ level0Batches env st data, P b := by
  intro b hb
  unfold level0Batches at hb
  split at hb
  · simp at hb
  · rename_i l0 rest e
    exact h _ (hl l0 (by rw [e]; exact List.mem_cons_self)) _ _ b hb

omit h in
theorem cfgs_mem {st st' : SState} (e : st'.levels.map (·.cfg) = st.levels.map (·.cfg)) (hl : ∀ lv ∈ st.levels, lv.cfg ∈ cs) :
    ∀ lv ∈ st'.levels, lv.cfg ∈ cs := by
  intro lv hm
  have := List.mem_map_of_mem (f := fun l : Level => l.cfg) hm
  rw [e] at this
  obtain ⟨l, hm, e⟩ := List.mem_map.1 this
  rw [← e]
  exact hl l hm

theorem append_every {data : Bytes} {fuel ptr bw : Nat} (hl : ∀ lv ∈ st.levels, lv.cfg ∈ cs) :
    ∀ b ∈ appendBatches env data fuel ptr bw st, P b := by
  induction fuel generalizing ptr bw st with
  | zero => simp [appendBatches]
  | succ fuel ih =>
    intro b hb
    unfold appendBatches at hb
    split at hb
    · simp at hb
    · dsimp only at hb
      split at hb
      · split at hb
        · simp at hb
        · split at hb
          · split at hb
            · simp at hb
            · rcases List.mem_append.1 hb with hb | hb
              · exact level0_every h (by exact hl) b hb
              · split at hb
                · rename_i st2 k hw
                  split at hb
                  · simp at hb
                  · exact ih (by exact cfgs_mem (writeLevel0_keeps hw).cfgs hl) b hb
                · simp at hb
          · exact ih (by exact hl) b hb
      · split at hb
        · split at hb
          · simp at hb
          · exact ih (by exact hl) b hb
        · split at hb
          · simp at hb
          · rcases List.mem_append.1 hb with hb | hb
            · exact level0_every h hl b hb
            · split at hb
              · rename_i st2 k hw
                have h2 := cfgs_mem (writeLevel0_keeps hw).cfgs hl
                split at hb
                · simp at hb
                · rcases List.mem_append.1 hb with hb | hb
                  · exact multiscale_every h h2 b hb
                  · split at hb
                    · rename_i st3 hm
                      exact ih (cfgs_mem (writeMultiscale_keeps hm).cfgs h2) b hb
                    · simp at hb
              · simp at hb

theorem program_every {ds : List Bytes} (hl : ∀ lv ∈ st.levels, lv.cfg ∈ cs) : ∀ c ∈ streamProgram env ds st, ∀ b ∈ c, P b := by
  induction ds generalizing st with
  | nil => simp [streamProgram]
  | cons d ds ih =>
    intro c hc
    unfold streamProgram at hc
    rcases List.mem_cons.1 hc with rfl | hc
    · exact append_every h hl
    · split at hc
      · rename_i st' k hw
        exact ih (cfgs_mem (appendLoop_cfgs d _ hw) hl) c hc
      · obtain ⟨_, _, rfl⟩ := List.mem_map.1 hc
        simp

end every

/-- The configurations of the arrays of a stream. -/
def cfgsOf (st : SState) : List WConfig := st.levels.map (·.cfg)

theorem mem_cfgsOf {lv : Level} (h : lv ∈ st.levels) : lv.cfg ∈ cfgsOf st := List.mem_map_of_mem h

theorem stream_separate {ds : List Bytes} : ∀ c ∈ streamProgram env ds st, ∀ b ∈ c, Separate b :=
  program_every (cs := cfgsOf st) (fun _ _ _ _ => frame_separate) fun _ h => mem_cfgsOf h

theorem streamProgram_length {ds : List Bytes} : (streamProgram env ds st).length = ds.length := by
  induction ds generalizing st with
  | nil => rfl
  | cons d ds ih =>
    unfold streamProgram
    split
    · rw [List.length_cons, List.length_cons, ih]
    · simp

/-- **C57, whole streams.** Any stream, with any number of levels, any data and any sequence of calls: under no schedule may two
threads access the same chunk buffer at the same time. -/
theorem stream_jobs_race_free {ds : List Bytes} (h : Reachable n (streamProgram env ds st) s) : ¬ BufferRace s :=
  buffers_race_free stream_separate h

/-- **C60, whole streams.** With at least one worker, the calls of append on any stream never come to a standstill: when no
thread can move, every call has returned and every worker is idle; and no schedule goes on for ever. -/
theorem stream_jobs_return {ds : List Bytes} (hn : 0 < n) :
    (∀ s, Reachable n (streamProgram env ds st) s → (∀ x, step s x = none) →
      s.results.length = ds.length ∧ s.calls = [] ∧ s.caller = .outside ∧ Quiet s ∧ s.queue = []) ∧
    ∃ N, ∀ ss s, run (init n (streamProgram env ds st)) ss = some s → ss.length ≤ N := by
  refine ⟨fun s h hs => ?_, schedules_bounded n _⟩
  rw [← streamProgram_length (env := env) (st := st)]
  exact no_deadlock hn stream_separate h hs

/-! ### The messages are those of the sequential model -/

theorem setErrors_append (e : Text) (a b : List Text) : setErrors e (a ++ b) = setErrors (setErrors e a) b := by
  unfold setErrors
  exact List.foldl_append

theorem writerStep_errors {lv lv' : Level} {data : Bytes} {k : Nat} {evs : List Ev} {errs : List Text}
    (h : writerStep env lv data = .ok (lv', k, evs, errs)) : errs = failures (frameBatches env lv.cfg data lv.st) := by
  unfold writerStep at h
  obtain ⟨⟨ws, m⟩, h1, h⟩ := Res.bind_eq_ok.1 h
  cases h
  rw [frame_errors h1, List.drop_left]

theorem pyramid_errors {t : DType} {lvs lvs' : List Level} {data : Bytes} {x y : Nat} {evs : List Ev} {errs : List Text}
    (h : pyramidLoop env t lvs data x y = .ok (lvs', evs, errs)) : errs = failures (pyramidBatches env t lvs data x y) := by
  induction lvs generalizing data x y lvs' evs errs with
  | nil =>
    cases h
    rfl
  | cons lv rest ih =>
    unfold pyramidLoop at h
    unfold pyramidBatches
    obtain ⟨sc, h1, h⟩ := Res.bind_eq_ok.1 h
    rw [h1]
    cases hv : lv.saved with
    | none =>
      rw [hv] at h
      cases h
      rfl
    | some px =>
      rw [hv] at h
      dsimp only at h ⊢
      obtain ⟨⟨lv', m, e1, r1⟩, h2, h⟩ := Res.bind_eq_ok.1 h
      obtain ⟨_, hc, h⟩ := Res.bind_eq_ok.1 h
      obtain ⟨⟨rest', e2, r2⟩, h3, h⟩ := Res.bind_eq_ok.1 h
      cases h
      have hm : m ≠ 0 := by
        unfold check at hc
        split at hc
        · rename_i hh
          simpa using hh
        · cases hc
      rw [h2]
      dsimp only
      rw [if_neg hm, failures_append, ← ih h3, writerStep_errors h2]

theorem multiscale_errors {data : Bytes} (h : writeMultiscale env st data = .ok st') :
    st'.error = setErrors st.error (failures (multiscaleBatches env st data)) := by
  unfold writeMultiscale at h
  unfold multiscaleBatches
  split at h
  · rename_i hm
    cases h
    rw [if_pos hm]
    rfl
  · rename_i hm
    rw [if_neg hm]
    split at h
    · rename_i hl
      cases h
      rw [hl]
      rfl
    · rename_i l0 rest hl
      obtain ⟨⟨rest', evs, errs⟩, h1, h⟩ := Res.bind_eq_ok.1 h
      cases h
      rw [hl]
      dsimp only
      rw [pyramid_errors h1]

theorem level0_errors {data : Bytes} {k : Nat} (h : writeLevel0 env st data = .ok (st', k)) :
    st'.error = setErrors st.error (failures (level0Batches env st data)) := by
  unfold writeLevel0 at h
  unfold level0Batches
  split at h
  · cases h
  · rename_i l0 rest hl
    obtain ⟨⟨l0', m, evs, errs⟩, h1, h⟩ := Res.bind_eq_ok.1 h
    cases h
    rw [hl]
    dsimp only
    rw [writerStep_errors h1]

theorem append_errors {data : Bytes} {fuel ptr bw k : Nat} (h : appendLoop env data fuel ptr bw st = some (.ok (st', k))) :
    st'.error = setErrors st.error (failures (appendBatches env data fuel ptr bw st)) := by
  induction fuel generalizing ptr bw st with
  | zero =>
    unfold appendLoop at h
    split at h
    · cases h; rfl
    · cases h
  | succ fuel ih =>
    unfold appendLoop at h
    unfold appendBatches
    split at h
    · rename_i hb
      cases h
      rw [if_pos hb]
      rfl
    · rename_i hb
      rw [if_neg hb]
      dsimp only at h ⊢
      split at h
      · rename_i ho
        rw [if_pos ho]
        split at h
        · cases h
        · rename_i hp
          rw [if_neg hp]
          split at h
          · rename_i hf
            rw [if_pos hf]
            split at h
            · cases h
            · rename_i hq
              rw [if_neg hq]
              split at h
              · cases h
              · cases h
              · rename_i st2 m hw
                rw [hw]
                dsimp only
                have e := level0_errors hw
                split at h
                · rename_i hk
                  cases h
                  rw [if_pos hk, List.append_nil]
                  exact e
                · rename_i hk
                  rw [if_neg hk, failures_append, setErrors_append]
                  have := ih h
                  dsimp only at this e
                  rw [this, e]
          · rename_i hf
            rw [if_neg hf]
            exact ih h
      · rename_i ho
        rw [if_neg ho]
        split at h
        · rename_i hr
          rw [if_pos hr]
          split at h
          · cases h
          · rename_i hp
            rw [if_neg hp]
            exact ih h
        · rename_i hr
          rw [if_neg hr]
          split at h
          · cases h
          · rename_i hp
            rw [if_neg hp]
            split at h
            · cases h
            · cases h
            · rename_i st2 m hw
              rw [hw]
              dsimp only
              have e := level0_errors hw
              split at h
              · rename_i hk
                cases h
                rw [if_pos hk, List.append_nil]
                exact e
              · rename_i hk
                rw [if_neg hk, failures_append, setErrors_append, failures_append, setErrors_append, ← e]
                split at h
                · cases h
                · cases h
                · rename_i st3 hm
                  rw [hm, ← multiscale_errors hm]
                  exact ih h

theorem accepted_errors {ds : List Bytes} (h : acceptedCalls env ds st = some st') :
    st'.error = setErrors st.error ((streamProgram env ds st).flatMap failures) := by
  induction ds generalizing st with
  | nil =>
    cases h
    rfl
  | cons d ds ih =>
    unfold acceptedCalls at h
    unfold streamProgram
    split at h
    · rename_i s1 k h1
      rw [List.flatMap_cons, setErrors_append, ← append_errors h1]
      exact ih h
    · cases h

/-- **C56 (part), whole streams.** When the calls have been made, none was refused and the error handlers have run, the messages
they were given are, in some order, those of the failed compression, chunk and shard jobs of all levels, the last of which the
sequential model keeps as the stream's error: no failure is lost and none is reported twice. -/
theorem stream_jobs_reported {ds : List Bytes} (ha : acceptedCalls env ds st = some st')
    (h : Reachable n (streamProgram env ds st) s) (hc : s.calls = []) (ho : s.caller = .outside) (hq : Quiet s)
    (hr : false ∉ s.results) : ∃ ms, s.reported.Perm ms ∧ st'.error = setErrors st.error ms :=
  ⟨_, reported_all stream_separate h hc ho hq hr, accepted_errors ha⟩

/-! ### No false alarm -/

theorem chunkJob_quiet (hw : ∀ p o d, env.write p o d ≠ .failed ∧ env.write p o d ≠ .threw) (p : Text) (x : Bytes) :
    (chunkJob env p x).2 = [] := by
  unfold chunkJob
  have := hw p 0 x
  split
  · rfl
  · rfl
  · rename_i e
    exact absurd e this.1
  · rename_i e
    exact absurd e this.2

theorem healthy_frame (hw : ∀ p o d, env.write p o d ≠ .failed ∧ env.write p o d ≠ .threw) (hz : ∀ p b x, env.compress p b x ≠ none)
    (cfg : WConfig) (f : Bytes) (ws : WState) : ∀ b ∈ frameBatches env cfg f ws, ∀ m ∈ b.filterMap Job.fails, m = [] := by
  have hwrite : ∀ ws, ∀ m ∈ (writeBatch env cfg ws).filterMap Job.fails, m = [] := by
    intro ws
    cases hV : cfg.version with
    | v3 => exact write_speechless hV fun p o d => (hw p o d).2
    | v2 =>
      intro m hm
      unfold writeBatch at hm
      rw [hV] at hm
      obtain ⟨j, hj, hm⟩ := List.mem_filterMap.1 hm
      obtain ⟨i, _, rfl⟩ := List.mem_map.1 hj
      dsimp only at hm
      rw [chunkJob_quiet hw] at hm
      cases hm
  have hflush : ∀ ws, ∀ b ∈ flushBatches env cfg ws, ∀ m ∈ b.filterMap Job.fails, m = [] := by
    intro ws b hb
    unfold flushBatches at hb
    split at hb
    · simp at hb
    · rcases List.mem_append.1 hb with hb | hb
      · unfold compressBatches at hb
        split at hb
        · simp at hb
        · rename_i p _
          rw [List.mem_singleton.1 hb]
          intro m hm
          obtain ⟨j, hj, hm⟩ := List.mem_filterMap.1 hm
          obtain ⟨i, _, rfl⟩ := List.mem_map.1 hj
          dsimp only at hm
          unfold compressJob at hm
          split at hm
          · cases hm
          · rename_i e
            exact absurd e (hz _ _ _)
      · split at hb
        · rw [List.mem_singleton.1 hb]
          exact hwrite _
        · simp at hb
  intro b hb
  unfold frameBatches at hb
  split at hb
  · simp at hb
  · dsimp only at hb
    split at hb
    · split at hb
      · exact hflush _ b hb
      · simp at hb
    · simp at hb

theorem healthy_frame_v2 {cfg : WConfig} (hw : ∀ p o d, env.write p o d ≠ .failed ∧ env.write p o d ≠ .threw)
    (hz : ∀ p b x, env.compress p b x ≠ none) (hV : cfg.version = .v2) (f : Bytes) (ws : WState) :
    ∀ b ∈ frameBatches env cfg f ws, ∀ j ∈ b, j.fails = none := by
  have hflush : ∀ ws, ∀ b ∈ flushBatches env cfg ws, ∀ j ∈ b, j.fails = none := by
    intro ws b hb
    unfold flushBatches at hb
    split at hb
    · simp at hb
    · rcases List.mem_append.1 hb with hb | hb
      · unfold compressBatches at hb
        split at hb
        · simp at hb
        · rename_i p _
          rw [List.mem_singleton.1 hb]
          intro j hj
          obtain ⟨i, _, rfl⟩ := List.mem_map.1 hj
          dsimp only
          unfold compressJob
          split
          · rfl
          · rename_i e
            exact absurd e (hz _ _ _)
      · split at hb
        · rw [List.mem_singleton.1 hb]
          intro j hj
          unfold writeBatch at hj
          rw [hV] at hj
          obtain ⟨i, _, rfl⟩ := List.mem_map.1 hj
          dsimp only
          rw [chunkJob_quiet hw]
          rfl
        · simp at hb
  intro b hb
  unfold frameBatches at hb
  split at hb
  · simp at hb
  · dsimp only at hb
    split at hb
    · split at hb
      · exact hflush _ b hb
      · simp at hb
    · simp at hb

/-- **C56 (part), whole streams, no false alarm.** If nothing that is written is refused by storage and compression does not
fail, then no call of append on any stream is ever refused, with any number of workers and under any schedule. -/
theorem stream_jobs_no_false_alarm {ds : List Bytes}
    (hw : ∀ p o d, env.write p o d ≠ .failed ∧ env.write p o d ≠ .threw) (hz : ∀ p b x, env.compress p b x ≠ none)
    (h : Reachable n (streamProgram env ds st) s) : false ∉ s.results := by
  refine speechless_program (fun c hc m hm => ?_) h
  obtain ⟨j, hj, hm⟩ := List.mem_filterMap.1 hm
  obtain ⟨b, hb, hj⟩ := List.mem_flatten.1 hj
  exact program_every (cs := cfgsOf st) (fun cfg _ => healthy_frame hw hz cfg) (fun _ h => mem_cfgsOf h) c hc b hb m (List.mem_filterMap.2 ⟨j, hj, hm⟩)

/-- **C56 (violated), whole streams.** If storage reports failures without throwing, then whatever it refuses to store, no call of
append on an uncompressed version 3 stream is ever refused, with any number of levels and workers and under any schedule. -/
theorem v3_stream_failures_unreported_violated {ds : List Bytes} (hV : ∀ lv ∈ st.levels, lv.cfg.version = .v3)
    (hz : ∀ lv ∈ st.levels, lv.cfg.compression = none) (hw : ∀ p o d, env.write p o d ≠ .threw)
    (h : Reachable n (streamProgram env ds st) s) : false ∉ s.results := by
  refine speechless_program (fun c hc m hm => ?_) h
  obtain ⟨j, hj, hm⟩ := List.mem_filterMap.1 hm
  obtain ⟨b, hb, hj⟩ := List.mem_flatten.1 hj
  refine program_every (P := fun b => ∀ m ∈ b.filterMap Job.fails, m = []) (cs := cfgsOf st) (fun cfg hc f ws b hb m hm => ?_)
    (fun _ h => mem_cfgsOf h) c hc b hb m (List.mem_filterMap.2 ⟨j, hj, hm⟩)
  obtain ⟨lv, hl, rfl⟩ := List.mem_map.1 hc
  refine call_speechless (fs := [f]) (st := ws) (hV lv hl) (hz lv hl) hw m ?_
  unfold callBatches
  rw [failures_append]
  refine List.mem_append_left _ ?_
  obtain ⟨j, hj, hm⟩ := List.mem_filterMap.1 hm
  exact List.mem_filterMap.2 ⟨j, List.mem_flatten.2 ⟨b, hb, hj⟩, hm⟩

/-- **C58 (part), whole streams.** If storage accepts every write and compression does not fail, then on a version 2 stream no two
threads may ever access the error message at the same time. What is missing: anything failing (`error_race_violated`). -/
theorem v2_stream_error_race_free_partial {ds : List Bytes} (hV : ∀ lv ∈ st.levels, lv.cfg.version = .v2)
    (hw : ∀ p o d, env.write p o d ≠ .failed ∧ env.write p o d ≠ .threw) (hz : ∀ p b x, env.compress p b x ≠ none)
    (h : Reachable n (streamProgram env ds st) s) : ¬ ErrorRace s := by
  refine error_race_free_partial h (List.eq_nil_iff_forall_not_mem.2 fun m hm => ?_)
  have hp := List.count_pos_iff.2 hm
  have hb := (balance h).1 m
  dsimp only at hb
  have : m ∈ (streamProgram env ds st).flatMap failures := List.count_pos_iff.1 (by omega)
  obtain ⟨c, hc, hm⟩ := List.mem_flatMap.1 this
  obtain ⟨j, hj, hm⟩ := List.mem_filterMap.1 hm
  obtain ⟨b, hb, hj⟩ := List.mem_flatten.1 hj
  have := program_every (P := fun b => ∀ j ∈ b, j.fails = none) (cs := cfgsOf st) (fun cfg hc f ws b hb => ?_)
    (fun _ h => mem_cfgsOf h) c hc b hb j hj
  · rw [this] at hm
    cases hm
  · obtain ⟨lv, hl, rfl⟩ := List.mem_map.1 hc
    exact healthy_frame_v2 hw hz (hV lv hl) f ws b hb

namespace Sample

/-- Version 2, two levels (4 x 4 and 2 x 2 one-byte pixels, chunks of 2 x 2), one frame per chunk. -/
def twoLevels : Settings where
  storePath := some "/tmp/a".toList
  customMetadata := none
  s3 := none
  compression := none
  dimensions := some [⟨some "t".toList, 2, 0, 1, 1⟩, ⟨some "y".toList, 0, 4, 2, 1⟩, ⟨some "x".toList, 0, 4, 2, 1⟩]
  multiscale := true
  dataType := 0
  version := 2

/-- The program of two calls on `twoLevels`: a frame of ones and half of the next; the rest of a frame of threes; what the
sequential model keeps as the error. -/
def twoCalls (env : Env) : Option (List (List (List Job)) × Text) :=
  match createStream AZ.Sample.world env 9 (some twoLevels) with
  | some (.ok st) =>
    let calls := [List.replicate 16 1, List.replicate 16 3]
    (acceptedCalls env calls st).map fun st' => (streamProgram env calls st, st'.error)
  | _ => none

/-- The averages of two frames cannot be stored. -/
def noTwos : Env := { AZ.Sample.env with write := fun _ _ d => if d = [2, 2, 2, 2] then .failed else .stored }

end Sample

/-- The jobs of two calls on a stream with two levels: four chunks of each frame, one chunk of the average. -/
example :
    Sample.twoCalls Sample.noTwos = some ([[[⟨[0], none⟩, ⟨[1], none⟩, ⟨[2], none⟩, ⟨[3], none⟩]],
      [[⟨[0], none⟩, ⟨[1], none⟩, ⟨[2], none⟩, ⟨[3], none⟩], [⟨[0], some "Failed to write chunk".toList⟩]]],
      "Failed to write chunk".toList) ∧
    (Sample.twoCalls AZ.Sample.env).map (·.2) = some [] := by
  decide +kernel

/-- Non-vacuity of `v3_stream_failures_unreported_violated`: the one chunk of the first of two frames cannot be stored. -/
example : (match createStream AZ.Sample.world (AZ.Sample.flaky [5] .failed) 9 (some (AZ.Sample.strip 3 1 1)) with
    | some (.ok st) => st.levels.all (fun lv => decide (lv.cfg.version = .v3 ∧ lv.cfg.compression = none)) &&
        decide (streamProgram (AZ.Sample.flaky [5] .failed) [[5], [6]] st = [[[⟨[0], some []⟩]], [[⟨[0], none⟩]]])
    | _ => false) = true := by
  decide +kernel

end AZ.Reporting
