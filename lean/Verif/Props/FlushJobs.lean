import Verif.Model.FlushJobs
import Verif.Props.Reporting
import Verif.Props.Failures
import Verif.Lemmas.Concurrent

set_option linter.unusedSimpArgs false

/-! # C56-C60 for the jobs the array writers really start -/

namespace AZ.Reporting

variable {env : Env} {cfg : WConfig} {st st' : WState} {n : Nat} {calls : List (List (List Job))} {s s' : State}

/-- The messages of the jobs of some batches that fail. -/
def failures (bs : List (List Job)) : List Text := bs.flatten.filterMap Job.fails

theorem failures_append (a b : List (List Job)) : failures (a ++ b) = failures a ++ failures b := by
  unfold failures
  rw [List.flatten_append, List.filterMap_append]

theorem failures_one (b : List Job) : failures [b] = b.filterMap Job.fails := by
  simp [failures]

theorem range_map_getD {α β : Type} (l : List α) (d : α) (g : α → β) :
    (List.range l.length).map (fun i => g (l.getD i d)) = l.map g := by
  apply List.ext_getElem
  · simp
  · intro i h1 h2
    simp only [List.length_map, List.length_range] at h1
    simp [h1]

theorem filterMap_flatMap {α β : Type} (f : α → Option β) (g : α → List β) (h : ∀ a, (f a).toList = g a) (l : List α) :
    l.filterMap f = l.flatMap g := by
  induction l with
  | nil => rfl
  | cons a l ih =>
    rw [List.flatMap_cons, ← h a, ← ih]
    cases hf : f a <;> simp [List.filterMap_cons, hf]

theorem compressJob_head (p : BloscParams) (b : Nat) (x : Bytes) :
    (compressJob env p b x).2.head?.toList = (compressJob env p b x).2 := by
  unfold compressJob
  split <;> rfl

theorem chunkJob_head (p : Text) (x : Bytes) : (chunkJob env p x).2.head?.toList = (chunkJob env p x).2 := by
  unfold chunkJob
  split <;> rfl

theorem range_fails {α : Type} (l : List α) (d : α) (own : Nat → List Nat) (g : α → List Text)
    (hg : ∀ a, (g a).head?.toList = g a) :
    ((List.range l.length).map fun i => (⟨own i, (g (l.getD i d)).head?⟩ : Job)).filterMap Job.fails = l.flatMap g := by
  rw [List.filterMap_map]
  show (List.range l.length).filterMap (fun i => (g (l.getD i d)).head?) = _
  rw [filterMap_flatMap (fun i => (g (l.getD i d)).head?) (fun i => g (l.getD i d)) (fun i => hg _)]
  conv_rhs => rw [← List.map_id l, ← range_map_getD l d id, List.flatMap_map]
  rfl

theorem compress_errors : (compressBuffers env cfg st).errors = st.errors ++ failures (compressBatches env cfg st) := by
  unfold compressBuffers compressBatches
  cases cfg.compression with
  | none => simp [failures]
  | some p =>
    dsimp only
    rw [failures_one, range_fails st.bufs [] (fun i => [i]) (fun x => (compressJob env p cfg.dims.dtype.bytes x).2)
      (fun x => compressJob_head p _ x), List.flatMap_map]

theorem makeDataSinks_errors (h : makeDataSinks env cfg st = some st') : st'.errors = st.errors := by
  unfold makeDataSinks at h
  split at h
  · simp at h
  · split at h
    · cases h; rfl
    · simp at h

theorem zip_fails (ps : List Text) (bs : List Bytes) (h : ps.length = bs.length) :
    ((List.range bs.length).map fun i => (⟨[i], (chunkJob env (ps.getD i []) (bs.getD i [])).2.head?⟩ : Job)).filterMap
      Job.fails = (ps.zip bs).flatMap fun x => (chunkJob env x.1 x.2).2 := by
  have hl : (ps.zip bs).length = bs.length := by simp [h]
  have := range_fails (ps.zip bs) ([], []) (fun i => [i]) (fun x => (chunkJob env x.1 x.2).2) (fun x => chunkJob_head x.1 x.2)
  rw [← this, hl]
  congr 1
  apply List.map_congr_left
  intro i hi
  have hi := List.mem_range.1 hi
  have hi' : i < ps.length := by omega
  simp [hi, hi', List.getD_eq_getElem?_getD]

theorem flushV2_errors (hV : cfg.version = .v2) (h : flushImplV2 env cfg st = .ok st') :
    ∃ s1, jobsStart env cfg st = some s1 ∧ st'.errors = st.errors ++ failures [writeBatch env cfg s1] := by
  unfold flushImplV2 at h
  obtain ⟨_, _, h⟩ := Res.bind_eq_ok.1 h
  split at h
  · simp at h
  · rename_i s1 hm
    obtain ⟨_, hc, h⟩ := Res.bind_eq_ok.1 h
    cases h
    refine ⟨s1, ?_, ?_⟩
    · unfold jobsStart
      rw [hV]
      exact hm
    · have hl : s1.dataSinks.length = s1.bufs.length := by
        unfold check at hc
        split at hc
        · rename_i hh
          simpa using hh
        · cases hc
      rw [failures_one]
      unfold writeBatch
      rw [hV]
      dsimp only
      rw [zip_fails _ _ hl, makeDataSinks_errors hm, List.flatMap_map]

theorem flushV3_errors (hV : cfg.version = .v3) (h : flushImplV3 env cfg st = .ok st') :
    ∃ s1, jobsStart env cfg st = some s1 ∧ st'.errors = st.errors ++ failures [writeBatch env cfg s1] := by
  unfold flushImplV3 at h
  dsimp only at h
  split at h
  · simp at h
  · rename_i s1 hm
    obtain ⟨_, hlen, h⟩ := Res.bind_eq_ok.1 h
    split at h
    · simp at h
    · obtain ⟨roll, hr, h⟩ := Res.bind_eq_ok.1 h
      obtain ⟨_, _, h⟩ := Res.bind_eq_ok.1 h
      cases h
      refine ⟨s1, ?_, ?_⟩
      · unfold jobsStart
        rw [hV]
        exact hm
      · have he : s1.errors = st.errors := by
          split at hm
          · exact makeDataSinks_errors hm
          · cases hm; rfl
        have ht : tableDue cfg s1 = (s1.finalizing || roll) := by
          unfold tableDue
          rw [hr]
        rw [failures_one]
        unfold writeBatch
        rw [hV, ht]
        dsimp only
        rw [he, List.filterMap_map, List.flatMap_map]
        congr 1
        symm
        refine filterMap_flatMap _ _ (fun i => ?_) _
        dsimp only [Function.comp]
        split <;> rfl

theorem rollover_errors (h : rollover env st = .ok st') : st'.errors = st.errors := by
  unfold rollover at h
  obtain ⟨evs, _, h⟩ := Res.bind_eq_ok.1 h
  cases h
  rfl

theorem document_errors (h : writeArrayMetadata env cfg st = .ok st') : st'.errors = st.errors := by
  unfold writeArrayMetadata at h
  dsimp only at h
  obtain ⟨_, _, h⟩ := Res.bind_eq_ok.1 h
  obtain ⟨k, _, h⟩ := Res.bind_eq_ok.1 h
  split at h
  · cases h
    dsimp only
    split <;> rfl
  · cases h
    split <;> rfl
  · cases h
  · cases h

/-- The messages recorded by a flush are those of its jobs. -/
theorem flush_errors (h : flush env cfg st = .ok st') : st'.errors = st.errors ++ failures (flushBatches env cfg st) := by
  rw [flush_seq] at h
  unfold flushBatches
  split at h
  · rename_i hb
    cases h
    simp [hb, failures]
  · rename_i hb
    rw [if_neg hb]
    obtain ⟨s2, h2, h⟩ := Res.bind_eq_ok.1 h
    obtain ⟨roll, _, h⟩ := Res.bind_eq_ok.1 h
    obtain ⟨s3, h3, h⟩ := Res.bind_eq_ok.1 h
    obtain ⟨s4, h4, h⟩ := Res.bind_eq_ok.1 h
    cases h
    have e3 : s3.errors = s2.errors := by
      split at h3
      · exact rollover_errors h3
      · cases h3; rfl
    have e4 : s4.errors = s3.errors := by
      split at h4
      · exact document_errors h4
      · cases h4; rfl
    have e2 : ∃ s1, jobsStart env cfg (compressBuffers env cfg st) = some s1 ∧
        s2.errors = (compressBuffers env cfg st).errors ++ failures [writeBatch env cfg s1] := by
      unfold flushImpl at h2
      split at h2
      · rename_i hV
        exact flushV2_errors hV h2
      · rename_i hV
        exact flushV3_errors hV h2
    obtain ⟨s1, k1, k2⟩ := e2
    rw [k1]
    show s4.errors = _
    rw [e4, e3, k2, compress_errors, failures_append, List.append_assoc]

/-- The messages recorded by `write_frame` are those of its jobs. -/
theorem frame_errors {f : Bytes} {k : Nat} (h : writeFrame env cfg f st = .ok (st', k)) :
    st'.errors = st.errors ++ failures (frameBatches env cfg f st) := by
  rw [writeFrame_seq] at h
  unfold frameBatches
  split at h
  · rename_i hb
    cases h
    simp [hb, failures]
  · rename_i hb
    rw [if_neg hb]
    dsimp only at h ⊢
    obtain ⟨r, h1, h⟩ := Res.bind_eq_ok.1 h
    obtain ⟨_, _, h⟩ := Res.bind_eq_ok.1 h
    obtain ⟨fl, h3, h⟩ := Res.bind_eq_ok.1 h
    obtain ⟨s4, h4, h⟩ := Res.bind_eq_ok.1 h
    cases h
    rw [h1]
    dsimp only
    rw [h3]
    have e0 : (if st.bufs.isEmpty then { st with bufs := makeBuffers cfg.dims } else st).errors = st.errors := by
      split <;> rfl
    cases fl with
    | true =>
      rw [if_pos rfl] at h4
      rw [flush_errors h4]
      dsimp only
      rw [e0]
    | false =>
      rw [if_neg (by simp)] at h4
      cases h4
      dsimp only
      rw [e0]
      simp [failures]

/-- The messages recorded by a sequence of frames are those of their jobs. -/
theorem frames_errors {fs : List Bytes} (h : writeFrames env cfg fs st = .ok st') :
    st'.errors = st.errors ++ failures (callBatches env cfg fs st) := by
  induction fs generalizing st with
  | nil =>
    cases h
    simp [callBatches, failures]
  | cons f fs ih =>
    unfold writeFrames at h
    obtain ⟨⟨s1, k⟩, h1, h⟩ := Res.bind_eq_ok.1 h
    obtain ⟨_, _, h⟩ := Res.bind_eq_ok.1 h
    unfold callBatches
    rw [h1, ih h, frame_errors h1, failures_append, List.append_assoc]

/-! ### The jobs of a batch access different buffers -/

theorem compress_separate : ∀ b ∈ compressBatches env cfg st, Separate b := by
  unfold compressBatches
  cases cfg.compression with
  | none => simp
  | some p =>
    intro b hb
    rw [List.mem_singleton.1 hb]
    exact (batches_separate cfg.dims _ _).1

theorem write_separate : Separate (writeBatch env cfg st) := by
  unfold writeBatch
  cases cfg.version with
  | v2 => exact (batches_separate cfg.dims _ fun i =>
      (chunkJob env (st.dataSinks.getD i []) (st.bufs.getD i [])).2.head?).1
  | v3 => exact (batches_separate cfg.dims st.bufs.length fun i =>
      if (shardJob env cfg.dims (st.dataSinks.getD i []) st.bufs (chunksInShard cfg.dims st.bufs.length i)
        (st.shardTables.getD i []) (st.shardOffsets.getD i 0) (tableDue cfg st)).success then none
      else some (shardJob env cfg.dims (st.dataSinks.getD i []) st.bufs (chunksInShard cfg.dims st.bufs.length i)
        (st.shardTables.getD i []) (st.shardOffsets.getD i 0) (tableDue cfg st)).err).2

theorem flush_separate : ∀ b ∈ flushBatches env cfg st, Separate b := by
  unfold flushBatches
  split
  · simp
  · intro b hb
    rcases List.mem_append.1 hb with hb | hb
    · exact compress_separate b hb
    · split at hb
      · rw [List.mem_singleton.1 hb]
        exact write_separate
      · simp at hb

theorem frame_separate {f : Bytes} : ∀ b ∈ frameBatches env cfg f st, Separate b := by
  unfold frameBatches
  split
  · simp
  · dsimp only
    split
    · split
      · exact flush_separate
      · simp
    · simp

theorem call_separate {fs : List Bytes} : ∀ b ∈ callBatches env cfg fs st, Separate b := by
  induction fs generalizing st with
  | nil => simp [callBatches]
  | cons f fs ih =>
    intro b hb
    unfold callBatches at hb
    rcases List.mem_append.1 hb with hb | hb
    · exact frame_separate b hb
    · split at hb
      · exact ih b hb
      · simp at hb

/-- **C57, the jobs of the code.** Calls of append on any streams of one array, each in any state of its writer and with any
frames: the compression jobs, the version 2 chunk jobs and the version 3 shard jobs never share a chunk buffer with another
job that may run at the same time, nor with the caller. -/
theorem flush_jobs_race_free (hc : ∀ c ∈ calls, ∃ env cfg fs st, c = callBatches env cfg fs st) (h : Reachable n calls s) :
    ¬ BufferRace s := by
  refine buffers_race_free (fun c hm => ?_) h
  obtain ⟨env, cfg, fs, st, rfl⟩ := hc c hm
  exact call_separate

/-! ### Which messages are reported -/

/-- Occurrences of a message among the failures of a list of jobs. -/
def many (m : Text) (js : List Job) : Nat := (js.filterMap Job.fails).count m

theorem many_nil (m : Text) : many m [] = 0 := rfl

theorem many_cons (m : Text) (j : Job) (js : List Job) : many m (j :: js) = j.fails.toList.count m + many m js := by
  unfold many
  cases h : j.fails <;> simp [List.filterMap_cons, h, List.count_cons] <;> omega

theorem many_append (m : Text) (a b : List Job) : many m (a ++ b) = many m a + many m b := by
  unfold many
  rw [List.filterMap_append, List.count_append]

/-- Failures of the job a worker has not yet counted down. -/
def workerDue (m : Text) : Worker → Nat
  | .running j => j.fails.toList.count m
  | _ => 0

/-- Failures of the jobs the current call has not yet pushed. -/
def callerDue (m : Text) : Caller → Nat
  | .outside => 0
  | .inside bs => many m bs.flatten
  | .pushing todo bs => many m todo + many m bs.flatten

/-- Failures still to come. -/
def due (m : Text) (s : State) : Nat :=
  (s.calls.map fun c => many m c.flatten).sum + callerDue m s.caller + many m s.queue + (s.workers.map (workerDue m)).sum

theorem due_set (m : Text) {l : List Worker} {w : Nat} {x y : Worker} (h : l[w]? = some x) :
    ((l.set w y).map (workerDue m)).sum + workerDue m x = (l.map (workerDue m)).sum + workerDue m y := by
  induction l generalizing w with
  | nil => simp at h
  | cons a l ih =>
    cases w with
    | zero =>
      simp only [List.getElem?_cons_zero, Option.some.injEq] at h
      subst h
      simp only [List.set_cons_zero, List.map_cons, List.sum_cons]
      omega
    | succ w =>
      rw [List.getElem?_cons_succ] at h
      have := ih h
      simp only [List.set_cons_succ, List.map_cons, List.sum_cons]
      omega

/-- Failures so far and to come, against those of the program. -/
def Balance (total : Text → Nat) (s : State) : Prop :=
  (∀ m, s.failed.count m + due m s ≤ total m) ∧ (false ∉ s.results → ∀ m, s.failed.count m + due m s = total m)

theorem Balance.same {total : Text → Nat} (h : Balance total s) (hr : s'.results = s.results ∨ s'.results = s.results ++ [true])
    (he : ∀ m, s'.failed.count m + due m s' = s.failed.count m + due m s) : Balance total s' := by
  refine ⟨fun m => he m ▸ h.1 m, fun hf m => he m ▸ h.2 (fun hm => hf ?_) m⟩
  rcases hr with hr | hr
  · exact hr ▸ hm
  · rw [hr]
    exact List.mem_append_left _ hm

theorem balance_step {total : Text → Nat} {x : Step} (hi : Balance total s) (h : step s x = some s') : Balance total s' := by
  cases x with
  | call =>
    simp only [step] at h
    split at h
    · rename_i c cs hc hcs
      split at h
      · cases h
        refine hi.same (.inl rfl) fun m => ?_
        simp only [due, hc, hcs, callerDue, List.map_cons, List.sum_cons]
        omega
      · cases h
        refine ⟨fun m => ?_, fun hf => absurd (List.mem_append_right _ (List.mem_singleton.2 rfl)) hf⟩
        have := hi.1 m
        simp only [due, hc, hcs, callerDue, List.map_cons, List.sum_cons] at this ⊢
        omega
    · cases h
  | batch =>
    simp only [step] at h
    split at h
    · rename_i b rest hc
      cases h
      refine hi.same (.inl rfl) fun m => ?_
      simp only [due, hc, callerDue, List.flatten_cons, many_append]
    · cases h
  | push =>
    simp only [step] at h
    split at h
    · rename_i j js rest hc
      cases h
      refine hi.same (.inl rfl) fun m => ?_
      simp only [due, hc, callerDue, many_append, many_cons, many_nil]
      omega
    · cases h
  | wait =>
    simp only [step] at h
    split at h
    · rename_i rest hc
      split at h
      · cases h
        refine hi.same (.inl rfl) fun m => ?_
        simp only [due, hc, callerDue, many_nil]
        omega
      · cases h
    · cases h
  | ret =>
    simp only [step] at h
    split at h
    · rename_i hc
      cases h
      refine hi.same (.inr rfl) fun m => ?_
      simp only [due, hc, callerDue, List.flatten_nil, many_nil]
    · cases h
  | take w =>
    simp only [step] at h
    split at h
    · rename_i j q hw hq
      cases h
      refine hi.same (.inl rfl) fun m => ?_
      have := due_set (y := .running j) m hw
      simp only [workerDue] at this
      simp only [due, hq, many_cons]
      omega
    · cases h
  | count w =>
    simp only [step] at h
    split at h
    · rename_i j hw
      cases h
      refine hi.same (.inl rfl) fun m => ?_
      have := due_set (y := .counted j) m hw
      simp only [workerDue] at this
      simp only [due, List.count_append]
      omega
    · cases h
  | report w =>
    simp only [step] at h
    split at h
    · rename_i j hw
      have e : ∀ m, ((s.workers.set w .idle).map (workerDue m)).sum = (s.workers.map (workerDue m)).sum := by
        intro m
        have := due_set (y := .idle) m hw
        simpa only [workerDue, Nat.add_zero] using this
      split at h
      · cases h
        refine hi.same (.inl rfl) fun m => ?_
        simp only [due, e]
      · cases h
        refine hi.same (.inl rfl) fun m => ?_
        simp only [due, e]
    · cases h

theorem flatMap_count (m : Text) (calls : List (List (List Job))) :
    (calls.flatMap failures).count m = (calls.map fun c => many m c.flatten).sum := by
  induction calls with
  | nil => rfl
  | cons c cs ih =>
    rw [List.flatMap_cons, List.count_append, ih, List.map_cons, List.sum_cons]
    rfl

theorem balance (h : Reachable n calls s) : Balance (fun m => (calls.flatMap failures).count m) s := by
  refine reach_ind ?_ (fun _ _ _ hp hs => balance_step hp hs) h
  have e : ∀ m, (List.replicate n Worker.idle).map (workerDue m) = List.replicate n 0 := by
    intro m
    rw [List.map_replicate]
    rfl
  have : ∀ m, ([] : List Text).count m + due m (init n calls) = (calls.flatMap failures).count m := by
    intro m
    rw [flatMap_count]
    simp [due, init, callerDue, many_nil, e]
  exact ⟨fun m => (this m).le, fun _ m => this m⟩

/-- A program none of whose jobs fails is never refused a call. -/
theorem quiet_program (hf : ∀ c ∈ calls, failures c = []) (h : Reachable n calls s) : false ∉ s.results := by
  intro hr
  have hne := refused_sound h hr
  refine hne (List.eq_nil_iff_forall_not_mem.2 fun m hm => ?_)
  have := (balance h).1 m
  have hz : calls.flatMap failures = [] := by
    rw [List.flatMap_eq_nil_iff]
    exact hf
  have hp := List.count_pos_iff.2 hm
  simp only [hz, List.count_nil] at this
  omega

/-- At the end of a program no call of which was refused, the messages given to the error handler are those of all its jobs
that fail, each as often as it occurs. -/
theorem reported_all (hw : ∀ c ∈ calls, ∀ b ∈ c, Separate b) (h : Reachable n calls s) (hc : s.calls = [])
    (ho : s.caller = .outside) (hq : Quiet s) (hr : false ∉ s.results) : s.reported.Perm (calls.flatMap failures) := by
  have hi := inv hw h
  have hrest := hi.rest
  rw [ho] at hrest
  have hqu : s.queue = [] := (List.append_eq_nil_iff.1 hrest).1
  have howe : s.workers.filterMap owes = [] := by
    rw [List.filterMap_eq_nil_iff]
    intro w hw
    rw [hq w hw]
    rfl
  have hp := hi.messages
  rw [howe, List.append_nil] at hp
  refine hp.symm.trans (List.perm_iff_count.2 fun m => ?_)
  have hb := (balance h).2 hr m
  have hz : (s.workers.map (workerDue m)).sum = 0 := by
    rw [List.sum_eq_zero_iff_forall_eq_nat]
    intro k hk
    obtain ⟨w, hw, rfl⟩ := List.mem_map.1 hk
    rw [hq w hw]
    rfl
  simp only [due, hc, ho, hqu, callerDue, many_nil, hz, List.map_nil, List.sum_nil] at hb
  omega

theorem writeFrames_append (a b : List Bytes) :
    writeFrames env cfg (a ++ b) st = (writeFrames env cfg a st >>= fun t => writeFrames env cfg b t) := by
  induction a generalizing st with
  | nil => rfl
  | cons f a ih =>
    have e : ∀ fs, writeFrames env cfg (f :: fs) st =
        (writeFrame env cfg f st >>= fun r => check (r.2 != 0) >>= fun _ => writeFrames env cfg fs r.1) := fun _ => rfl
    rw [List.cons_append, e, e]
    cases hf : writeFrame env cfg f st with
    | ok r =>
      simp only [Res.bind_ok]
      cases hc : check (r.2 != 0) with
      | ok u => simp only [Res.bind_ok, ih]
      | throw => rfl
      | ub => rfl
    | throw => rfl
    | ub => rfl

theorem program_errors {cs : List (List Bytes)} (h : writeFrames env cfg cs.flatten st = .ok st') :
    st'.errors = st.errors ++ (program env cfg cs st).flatMap failures := by
  induction cs generalizing st with
  | nil =>
    cases h
    simp [program]
  | cons c cs ih =>
    rw [List.flatten_cons, writeFrames_append] at h
    obtain ⟨s1, h1, h⟩ := Res.bind_eq_ok.1 h
    unfold program
    rw [h1]
    rw [ih h, frames_errors h1, List.flatMap_cons, List.append_assoc]

theorem program_separate {cs : List (List Bytes)} : ∀ c ∈ program env cfg cs st, ∀ b ∈ c, Separate b := by
  induction cs generalizing st with
  | nil => simp [program]
  | cons c cs ih =>
    intro d hd
    unfold program at hd
    rcases List.mem_cons.1 hd with rfl | hd
    · exact call_separate
    · split at hd
      · exact ih d hd
      · obtain ⟨_, _, rfl⟩ := List.mem_map.1 hd
        simp

/-- **C56 (part), no false alarm, the jobs of the code.** If writing the frames one after the other records no error, then
under no schedule of the workers is any of the calls refused. -/
theorem flush_jobs_no_false_alarm {cs : List (List Bytes)} (hw : writeFrames env cfg cs.flatten st = .ok st')
    (he : st'.errors = st.errors) (h : Reachable n (program env cfg cs st) s) : false ∉ s.results := by
  refine quiet_program (fun c hc => ?_) h
  have := program_errors hw
  rw [he] at this
  have hz := List.flatMap_eq_nil_iff.1 (List.self_eq_append_right.1 this)
  exact hz c hc

/-- **C56 (part), the jobs of the code.** When the calls have been made, none was refused and the error handlers have run, the
messages they were given are, in some order, exactly those the sequential model of the writer records: no failure of a
compression, chunk or shard job is lost, and none is reported twice. -/
theorem flush_jobs_reported {cs : List (List Bytes)} (hw : writeFrames env cfg cs.flatten st = .ok st')
    (h : Reachable n (program env cfg cs st) s) (hc : s.calls = []) (ho : s.caller = .outside) (hq : Quiet s)
    (hr : false ∉ s.results) : st'.errors.Perm (st.errors ++ s.reported) := by
  rw [program_errors hw]
  exact (reported_all program_separate h hc ho hq hr).symm.append_left _

/-! ### Failures without a message -/

/-- A program whose failing jobs all fail with an empty message is never refused a call. -/
theorem speechless_program (hf : ∀ c ∈ calls, ∀ m ∈ failures c, m = []) (h : Reachable n calls s) : false ∉ s.results := by
  have hm : ∀ m ∈ s.failed, m = [] := by
    intro m hm
    have := (balance h).1 m
    have hp := List.count_pos_iff.2 hm
    have : m ∈ calls.flatMap failures := List.count_pos_iff.1 (by dsimp only at this; omega)
    obtain ⟨c, hc, hm⟩ := List.mem_flatMap.1 this
    exact hf c hc m hm
  have hr : ∀ m ∈ s.reported, m = [] := fun m hr => hm m ((messages h).messages.mem_iff.2 (List.mem_append_left _ hr))
  have key : (∀ m ∈ s.reported, m = []) → s.error = [] ∧ false ∉ s.results := by
    refine reach_ind (P := fun s => (∀ m ∈ s.reported, m = []) → s.error = [] ∧ false ∉ s.results) ?_ ?_ h
    · intro _
      exact ⟨rfl, by simp [init]⟩
    · intro s x t hp hs ht
      cases x with
      | call =>
        simp only [step] at hs
        split at hs
        · split at hs
          · cases hs; exact hp ht
          · rename_i he
            cases hs
            exact absurd (List.isEmpty_iff.2 (hp ht).1) he
        · cases hs
      | batch => simp only [step] at hs; split at hs <;> cases hs; exact hp ht
      | push => simp only [step] at hs; split at hs <;> cases hs; exact hp ht
      | wait =>
        simp only [step] at hs
        split at hs
        · split at hs <;> cases hs
          exact hp ht
        · cases hs
      | ret =>
        simp only [step] at hs
        split at hs
        · cases hs
          have := hp ht
          exact ⟨this.1, by simpa using this.2⟩
        · cases hs
      | take w => simp only [step] at hs; split at hs <;> cases hs; exact hp ht
      | count w => simp only [step] at hs; split at hs <;> cases hs; exact hp ht
      | report w =>
        simp only [step] at hs
        split at hs
        · split at hs
          · cases hs; exact hp ht
          · rename_i m hm
            cases hs
            have h1 : m = [] := ht m (List.mem_append_right _ (List.mem_singleton.2 rfl))
            exact ⟨h1, (hp fun k hk => ht k (List.mem_append_left _ hk)).2⟩
        · cases hs
  exact (key hr).2

theorem write_speechless (hV : cfg.version = .v3) (hw : ∀ p o d, env.write p o d ≠ .threw) :
    ∀ m ∈ (writeBatch env cfg st).filterMap Job.fails, m = [] := by
  intro m hm
  unfold writeBatch at hm
  rw [hV] at hm
  dsimp only at hm
  obtain ⟨j, hj, hm⟩ := List.mem_filterMap.1 hm
  obtain ⟨i, _, rfl⟩ := List.mem_map.1 hj
  dsimp only at hm
  split at hm
  · cases hm
  · rename_i hs
    cases hm
    refine Classical.byContradiction fun hne => ?_
    have hb : ∀ c ∈ chunksInShard cfg.dims st.bufs.length i, c < st.bufs.length := by
      intro c hc
      unfold chunksInShard at hc
      simpa using (List.mem_filter.1 hc).1
    obtain ⟨c, b, _, _, h3⟩ := (shardJob_message hb).1 ⟨Bool.eq_false_iff.2 hs, hne⟩
    exact hw _ _ _ h3

theorem call_speechless (hV : cfg.version = .v3) (hz : cfg.compression = none) (hw : ∀ p o d, env.write p o d ≠ .threw)
    {fs : List Bytes} : ∀ m ∈ failures (callBatches env cfg fs st), m = [] := by
  have hflush : ∀ st : WState, ∀ m ∈ failures (flushBatches env cfg st), m = [] := by
    intro st m hm
    unfold flushBatches at hm
    split at hm
    · simp [failures] at hm
    · rw [failures_append] at hm
      rcases List.mem_append.1 hm with hm | hm
      · unfold compressBatches at hm
        rw [hz] at hm
        simp [failures] at hm
      · split at hm
        · rw [failures_one] at hm
          exact write_speechless hV hw m hm
        · simp [failures] at hm
  have hframe : ∀ (f : Bytes) (st : WState), ∀ m ∈ failures (frameBatches env cfg f st), m = [] := by
    intro f st m hm
    unfold frameBatches at hm
    split at hm
    · simp [failures] at hm
    · dsimp only at hm
      split at hm
      · split at hm
        · exact hflush _ m hm
        · simp [failures] at hm
      · simp [failures] at hm
  induction fs generalizing st with
  | nil => simp [callBatches, failures]
  | cons f fs ih =>
    intro m hm
    unfold callBatches at hm
    rw [failures_append] at hm
    rcases List.mem_append.1 hm with hm | hm
    · exact hframe f st m hm
    · split at hm
      · exact ih m hm
      · simp [failures] at hm

/-- **C56 (violated), version 3.** If storage reports failures without throwing, then whatever it refuses to store, no call of
append on an uncompressed version 3 array is ever refused, under any schedule and with any number of workers. -/
theorem v3_write_failures_unreported_violated (hV : cfg.version = .v3) (hz : cfg.compression = none)
    (hw : ∀ p o d, env.write p o d ≠ .threw) (hc : ∀ c ∈ calls, ∃ fs st, c = callBatches env cfg fs st)
    (h : Reachable n calls s) : false ∉ s.results := by
  refine speechless_program (fun c hm => ?_) h
  obtain ⟨fs, st, rfl⟩ := hc c hm
  exact call_speechless hV hz hw

namespace Sample

/-- Version 3, one frame per chunk, two pixels per row, one chunk per pixel, one shard per row. -/
def tile (v : Version) (z : Option BloscParams) : WConfig where
  dims := { append := ⟨"t", .time, 0, 1, 1⟩, inner := [], height := ⟨"y", .space, 2, 1, 1⟩, width := ⟨"x", .space, 2, 1, 2⟩, dtype := .u8 }
  level := 0
  bucket := none
  storePath := "/tmp/a".toList
  compression := z
  version := v

/-- Chunks of one byte cannot be stored. -/
def full (out : WriteOut) : Env := { AZ.Sample.env with write := fun _ _ d => if d.length = 1 then out else .stored }

/-- A compressor that fails on the pixel 1; all else works. -/
def picky : Env := { AZ.Sample.env with compress := fun _ _ b => if b = [1] then none else some (7 :: b) }

end Sample

/-- The jobs of two calls with one frame each: version 3 without and version 2 with compression. -/
example :
    program (Sample.full .failed) (Sample.tile .v3 none) [[[1, 2, 3, 4]], [[5, 6, 7, 8]]] (WState.init (Sample.tile .v3 none)) =
      [[[⟨[0, 1], some []⟩, ⟨[2, 3], some []⟩]], [[⟨[0, 1], some []⟩, ⟨[2, 3], some []⟩]]] ∧
    program (Sample.full .threw) (Sample.tile .v3 none) [[[1, 2, 3, 4]]] (WState.init (Sample.tile .v3 none)) =
      [[[⟨[0, 1], some "Failed to write chunk".toList⟩, ⟨[2, 3], some "Failed to write chunk".toList⟩]]] ∧
    program Sample.picky (Sample.tile .v2 (some ⟨"lz4".toList, 1, 1⟩)) [[[1, 2, 3, 4]], [[5, 6, 7, 8]]]
        (WState.init (Sample.tile .v2 (some ⟨"lz4".toList, 1, 1⟩))) =
      [[[⟨[0], some "Failed to compress chunk".toList⟩, ⟨[1], none⟩, ⟨[2], none⟩, ⟨[3], none⟩],
        [⟨[0], none⟩, ⟨[1], none⟩, ⟨[2], none⟩, ⟨[3], none⟩]],
       [[⟨[0], none⟩, ⟨[1], none⟩, ⟨[2], none⟩, ⟨[3], none⟩], [⟨[0], none⟩, ⟨[1], none⟩, ⟨[2], none⟩, ⟨[3], none⟩]]] := by
  decide +kernel

/-- Non-vacuity of `flush_jobs_reported`: two workers, one call, one compression job that fails; the call is accepted, the
failure is reported when it has returned. -/
example : ∃ st' s, writeFrames Sample.picky (Sample.tile .v2 (some ⟨"lz4".toList, 1, 1⟩)) [[[1, 2, 3, 4]]].flatten
      (WState.init (Sample.tile .v2 (some ⟨"lz4".toList, 1, 1⟩))) = .ok st' ∧ st'.errors = ["Failed to compress chunk".toList] ∧
    Reachable 2 (program Sample.picky (Sample.tile .v2 (some ⟨"lz4".toList, 1, 1⟩)) [[[1, 2, 3, 4]]]
      (WState.init (Sample.tile .v2 (some ⟨"lz4".toList, 1, 1⟩)))) s ∧
    s.calls = [] ∧ s.caller = .outside ∧ Quiet s ∧ s.results = [true] ∧ s.reported = ["Failed to compress chunk".toList] := by
  have hw : (match writeFrames Sample.picky (Sample.tile .v2 (some ⟨"lz4".toList, 1, 1⟩)) [[[1, 2, 3, 4]]].flatten
      (WState.init (Sample.tile .v2 (some ⟨"lz4".toList, 1, 1⟩))) with
    | .ok st' => decide (st'.errors = ["Failed to compress chunk".toList])
    | _ => false) = true := by decide +kernel
  have hp : program Sample.picky (Sample.tile .v2 (some ⟨"lz4".toList, 1, 1⟩)) [[[1, 2, 3, 4]]]
      (WState.init (Sample.tile .v2 (some ⟨"lz4".toList, 1, 1⟩))) =
      [[[⟨[0], some "Failed to compress chunk".toList⟩, ⟨[1], none⟩, ⟨[2], none⟩, ⟨[3], none⟩],
        [⟨[0], none⟩, ⟨[1], none⟩, ⟨[2], none⟩, ⟨[3], none⟩]]] := by decide +kernel
  have hr : (match run (init 2 [[[⟨[0], some "Failed to compress chunk".toList⟩, ⟨[1], none⟩, ⟨[2], none⟩, ⟨[3], none⟩],
        [⟨[0], none⟩, ⟨[1], none⟩, ⟨[2], none⟩, ⟨[3], none⟩]]])
      [.call, .batch, .push, .push, .take 1, .take 0, .push, .count 0, .report 0, .push, .take 0, .count 0, .report 0, .take 0,
        .count 0, .count 1, .wait, .batch, .push, .push, .push, .push, .report 0, .take 0, .count 0, .report 0, .take 0, .count 0,
        .report 0, .take 0, .count 0, .report 0, .take 0, .count 0, .wait, .ret, .report 0, .report 1] with
    | some s => decide (s.calls = [] ∧ s.caller = .outside ∧ (∀ w ∈ s.workers, w = .idle) ∧ s.results = [true] ∧
        s.reported = ["Failed to compress chunk".toList])
    | none => false) = true := by decide +kernel
  rw [hp]
  split at hw
  · rename_i st' h1
    split at hr
    · rename_i s h2
      have hs := of_decide_eq_true hr
      exact ⟨st', s, h1, of_decide_eq_true hw, ⟨_, h2⟩, hs.1, hs.2.1, hs.2.2.1, hs.2.2.2⟩
    · cases hr
  · cases hw

/-- What the second worker does with one job. -/
def oneJob : List Step := [.push, .take 1, .count 1, .report 1]

/-- **C56 (violated), jobs of the code.** Two calls with one frame each on a version 2 array, two workers: the first compression job
of the first call fails, its worker is held up before it calls the error handler, and both calls succeed. -/
theorem late_compression_failure_violated : ∃ s,
    Reachable 2 (program Sample.picky (Sample.tile .v2 (some ⟨"lz4".toList, 1, 1⟩)) [[[1, 2, 3, 4]], [[5, 6, 7, 8]]]
      (WState.init (Sample.tile .v2 (some ⟨"lz4".toList, 1, 1⟩)))) s ∧
    s.calls = [] ∧ s.caller = .outside ∧ s.results = [true, true] ∧ s.failed = ["Failed to compress chunk".toList] ∧ s.error = [] := by
  have hp : program Sample.picky (Sample.tile .v2 (some ⟨"lz4".toList, 1, 1⟩)) [[[1, 2, 3, 4]], [[5, 6, 7, 8]]]
      (WState.init (Sample.tile .v2 (some ⟨"lz4".toList, 1, 1⟩))) =
      [[[⟨[0], some "Failed to compress chunk".toList⟩, ⟨[1], none⟩, ⟨[2], none⟩, ⟨[3], none⟩],
        [⟨[0], none⟩, ⟨[1], none⟩, ⟨[2], none⟩, ⟨[3], none⟩]],
       [[⟨[0], none⟩, ⟨[1], none⟩, ⟨[2], none⟩, ⟨[3], none⟩], [⟨[0], none⟩, ⟨[1], none⟩, ⟨[2], none⟩, ⟨[3], none⟩]]] := by
    decide +kernel
  have hr : (match run (init 2 [[[⟨[0], some "Failed to compress chunk".toList⟩, ⟨[1], none⟩, ⟨[2], none⟩, ⟨[3], none⟩],
        [⟨[0], none⟩, ⟨[1], none⟩, ⟨[2], none⟩, ⟨[3], none⟩]],
       [[⟨[0], none⟩, ⟨[1], none⟩, ⟨[2], none⟩, ⟨[3], none⟩], [⟨[0], none⟩, ⟨[1], none⟩, ⟨[2], none⟩, ⟨[3], none⟩]]])
      ([.call, .batch, .push, .take 0, .count 0] ++ oneJob ++ oneJob ++ oneJob ++ [.wait, .batch] ++ oneJob ++ oneJob ++ oneJob ++
        oneJob ++ [.wait, .ret, .call, .batch] ++ oneJob ++ oneJob ++ oneJob ++ oneJob ++ [.wait, .batch] ++ oneJob ++ oneJob ++
        oneJob ++ oneJob ++ [.wait, .ret]) with
    | some s => decide (s.calls = [] ∧ s.caller = .outside ∧ s.results = [true, true] ∧
        s.failed = ["Failed to compress chunk".toList] ∧ s.error = [])
    | none => false) = true := by decide +kernel
  rw [hp]
  split at hr
  · rename_i s h2
    exact ⟨s, ⟨_, h2⟩, of_decide_eq_true hr⟩
  · cases hr

/-- Non-vacuity of `flush_jobs_no_false_alarm`. -/
example : ∃ st', writeFrames AZ.Sample.env (Sample.tile .v3 none) [[[1, 2, 3, 4]], [[5, 6, 7, 8]]].flatten
      (WState.init (Sample.tile .v3 none)) = .ok st' ∧ st'.errors = (WState.init (Sample.tile .v3 none)).errors ∧
    (program AZ.Sample.env (Sample.tile .v3 none) [[[1, 2, 3, 4]], [[5, 6, 7, 8]]] (WState.init (Sample.tile .v3 none))).length = 2 := by
  have hw : (match writeFrames AZ.Sample.env (Sample.tile .v3 none) [[[1, 2, 3, 4]], [[5, 6, 7, 8]]].flatten
      (WState.init (Sample.tile .v3 none)) with
    | .ok st' => decide (st'.errors = [])
    | _ => false) = true := by decide +kernel
  split at hw
  · rename_i st' h1
    exact ⟨st', h1, of_decide_eq_true hw, by decide +kernel⟩
  · cases hw

end AZ.Reporting
