import Verif.Model.Jobs

/-!
# C88: failures in the background do not end the process
-/

namespace AZ.Jobs

theorem bind_run {α β : Type} (m : M α) (f : α → M β) (s : Shared) :
    (m >>= f) s = match m s with
      | .ret a s' => f a s'
      | .threw s' => .threw s' := rfl

theorem pure_run {α : Type} (a : α) (s : Shared) : (pure a : M α) s = .ret a s := rfl

/-- Whether the job cannot find out if its directory is there. -/
def Job.StatusUnknown : Job → Prop
  | .makeDir e => e.empty = false ∧ (e.isDirectory = .throws ∨ e.isDirectory = .no ∧ e.pathExists = .throws)
  | _ => False

/-- Whether the job's error message can be allocated. -/
def Job.hasText : Job → Bool
  | .makeDir e => e.text
  | .makeFile e => e.text
  | .compress e => e.text
  | .writeChunk e => e.text
  | .writeShard e => e.text

/-- Whether all that the job has to do works. -/
def Job.Works : Job → Prop
  | .makeDir e => e.empty = false ∧ (e.isDirectory = .yes ∨ e.isDirectory = .no ∧ e.pathExists = .no ∧ e.creates = true)
  | .makeFile e => e.opens = true
  | .compress e => e.buffer = true ∧ e.resizes = true
  | .writeChunk e => e.writes = .yes
  | .writeShard e => e.chunks ≠ [] ∧ (∀ c ∈ e.chunks, c.1 = .yes ∧ c.2 = true) ∧ (e.table = true → e.writesTable = .yes)

/-- The loop leaves the latch and the flag alone. -/
theorem writeChunks_keeps (l : List (Call × Bool)) (s : Shared) :
    (∃ s', writeChunks l s = .ret () s' ∧ s'.downs = s.downs ∧ s'.flag = s.flag) ∨
      ∃ s', writeChunks l s = .threw s' ∧ s'.downs = s.downs ∧ s'.flag = s.flag := by
  induction l generalizing s with
  | nil => exact .inl ⟨s, rfl, rfl, rfl⟩
  | cons c l ih =>
    obtain ⟨w, t⟩ := c
    cases w with
    | yes =>
      cases t with
      | true =>
        rcases ih { s with success := true } with ⟨s', h1, h2, h3⟩ | ⟨s', h1, h2, h3⟩
        · exact .inl ⟨s', h1, h2, h3⟩
        · exact .inr ⟨s', h1, h2, h3⟩
      | false => exact .inr ⟨{ s with success := true }, rfl, rfl, rfl⟩
    | no => exact .inl ⟨{ s with success := false }, rfl, rfl, rfl⟩
    | throws => exact .inr ⟨s, rfl, rfl, rfl⟩

/-- A job that can allocate its message and find out about its directory returns, having counted down once. -/
theorem job_returns {j : Job} (ht : j.hasText = true) (hu : ¬ j.StatusUnknown) (s : Shared) :
    ∃ b s', j.body s = .ret b s' ∧ s'.downs = s.downs + 1 := by
  cases j with
  | makeDir e =>
    obtain ⟨e1, e2, e3, e4, e5⟩ := e
    simp only [Job.hasText] at ht
    subst ht
    simp only [Job.StatusUnknown] at hu
    cases e1 with
    | true => exact ⟨_, _, rfl, rfl⟩
    | false =>
      cases e2 with
      | throws => exact absurd ⟨rfl, .inl rfl⟩ hu
      | yes => exact ⟨_, _, rfl, rfl⟩
      | no =>
        cases e3 with
        | throws => exact absurd ⟨rfl, .inr ⟨rfl, rfl⟩⟩ hu
        | yes => exact ⟨_, _, rfl, rfl⟩
        | no =>
          obtain ⟨d, f, u⟩ := s
          cases f <;> cases e4 <;> exact ⟨_, _, rfl, rfl⟩
  | makeFile e =>
    obtain ⟨e1, e2⟩ := e
    simp only [Job.hasText] at ht
    subst ht
    obtain ⟨d, f, u⟩ := s
    cases f <;> cases e1 <;> exact ⟨_, _, rfl, rfl⟩
  | compress e =>
    obtain ⟨e1, e2, e3⟩ := e
    simp only [Job.hasText] at ht
    subst ht
    cases e1 <;> cases e2 <;> exact ⟨_, _, rfl, rfl⟩
  | writeChunk e =>
    obtain ⟨e1, e2⟩ := e
    simp only [Job.hasText] at ht
    subst ht
    cases e1 <;> exact ⟨_, _, rfl, rfl⟩
  | writeShard e =>
    obtain ⟨e1, e2, e3, e4⟩ := e
    simp only [Job.hasText] at ht
    subst ht
    obtain ⟨d, f, u⟩ := s
    simp only [Job.body, writeShard, bind_run, setSuccess, attempt]
    rcases writeChunks_keeps e1 ⟨d, f, false⟩ with ⟨⟨d', f', u'⟩, h1, h2, h3⟩ | ⟨⟨d', f', u'⟩, h1, h2, h3⟩
    · dsimp only at h2 h3
      subst h2 h3
      rw [h1]
      cases u' with
      | false => exact ⟨_, _, rfl, rfl⟩
      | true =>
        cases e2 with
        | false => exact ⟨_, _, rfl, rfl⟩
        | true => cases e3 <;> exact ⟨_, _, rfl, rfl⟩
    · dsimp only at h2 h3
      subst h2 h3
      rw [h1]
      exact ⟨_, _, rfl, rfl⟩

/-- **C88, the part that holds.** Whatever fails in jobs, of any kind and number and in any order: if their directories' status can be determined and there is memory
for the error messages, the process goes on and each job releases the thread that waits exactly once. -/
theorem jobs_end_partial {l : List (Job × Bool)} (h : ∀ x ∈ l, x.1.hasText = true ∧ ¬ x.1.StatusUnknown ∧ x.2 = true) (s : Shared) :
    ∃ s', runJobs l s = .goesOn s' ∧ s'.downs = s.downs + l.length := by
  induction l generalizing s with
  | nil => exact ⟨s, rfl, rfl⟩
  | cons x l ih =>
    obtain ⟨j, r⟩ := x
    obtain ⟨h1, h2, h3⟩ := h (j, r) List.mem_cons_self
    dsimp only at h1 h2 h3
    subst h3
    obtain ⟨b, s', e, d⟩ := job_returns h1 h2 s
    obtain ⟨s'', e2, d2⟩ := ih (fun y hy => h y (List.mem_cons_of_mem _ hy)) s'
    refine ⟨s'', ?_, by rw [d2, d, List.length_cons]; omega⟩
    have : work j.body true s = .goesOn s' := by
      unfold work
      rw [e]
      cases b <;> rfl
    simp only [runJobs]
    rw [this]
    exact e2

/-- **C88 is violated by the code.** One job that cannot determine the status of its directory ends the process, whatever the other jobs are and do. -/
theorem unknown_status_terminates_violated {l : List (Job × Bool)} {x : Job × Bool} (hx : x ∈ l) (hu : x.1.StatusUnknown) (s : Shared) :
    runJobs l s = .terminated := by
  induction l generalizing s with
  | nil => cases hx
  | cons y l ih =>
    obtain ⟨j, r⟩ := y
    simp only [runJobs]
    rcases List.mem_cons.1 hx with rfl | hx
    · have : work j.body r s = .terminated := by
        cases j with
        | makeDir e =>
          obtain ⟨e1, e2, e3, e4, e5⟩ := e
          obtain ⟨h1, h2⟩ := hu
          dsimp only at h1 h2
          subst h1
          rcases h2 with h2 | ⟨h2, h3⟩
          · subst h2; rfl
          · subst h2 h3; rfl
        | _ => exact absurd hu id
      rw [this]
    · split
      · exact ih hx _
      · rfl

/-- The jobs that create directories and files. -/
def Job.Creates : Job → Prop
  | .makeDir _ => True
  | .makeFile _ => True
  | _ => False

/-- A job that creates something leaves the flag the caller looks at set exactly if it was set and the job did what it had to do. -/
theorem creation_flag {j : Job} (hc : j.Creates) (ht : j.hasText = true) (hu : ¬ j.StatusUnknown) (s : Shared) :
    ∃ b s', j.body s = .ret b s' ∧ (s'.flag = true ↔ s.flag = true ∧ j.Works) := by
  obtain ⟨d, f, u⟩ := s
  cases j with
  | makeDir e =>
    obtain ⟨e1, e2, e3, e4, e5⟩ := e
    simp only [Job.hasText] at ht
    subst ht
    simp only [Job.StatusUnknown] at hu
    cases e1 <;> cases e2 <;> cases e3 <;> cases e4 <;> cases f <;>
      first
      | exact absurd ⟨rfl, .inl rfl⟩ hu
      | exact absurd ⟨rfl, .inr ⟨rfl, rfl⟩⟩ hu
      | exact ⟨_, _, rfl, by simp [Job.Works]⟩
  | makeFile e =>
    obtain ⟨e1, e2⟩ := e
    simp only [Job.hasText] at ht
    subst ht
    cases e1 <;> cases f <;> exact ⟨_, _, rfl, by simp [Job.Works]⟩
  | _ => exact absurd hc id

/-- Once all directories or files have been tried, in any order, the flag the caller looks at says whether all of them are there. -/
theorem creation_success_means_done {l : List (Job × Bool)} (h : ∀ x ∈ l, x.1.Creates ∧ x.1.hasText = true ∧ ¬ x.1.StatusUnknown ∧ x.2 = true) (s : Shared) :
    ∃ s', runJobs l s = .goesOn s' ∧ (s'.flag = true ↔ s.flag = true ∧ ∀ x ∈ l, x.1.Works) := by
  induction l generalizing s with
  | nil => exact ⟨s, rfl, by simp⟩
  | cons x l ih =>
    obtain ⟨j, r⟩ := x
    obtain ⟨h0, h1, h2, h3⟩ := h (j, r) List.mem_cons_self
    dsimp only at h0 h1 h2 h3
    subst h3
    obtain ⟨b, s', e, d⟩ := creation_flag h0 h1 h2 s
    obtain ⟨s'', e2, d2⟩ := ih (fun y hy => h y (List.mem_cons_of_mem _ hy)) s'
    refine ⟨s'', ?_, ?_⟩
    · have : work j.body true s = .goesOn s' := by
        unfold work
        rw [e]
        cases b <;> rfl
      simp only [runJobs]
      rw [this]
      exact e2
    · rw [d2, d, List.forall_mem_cons, and_assoc]

/-- As long as no other job has failed, a job other than the one for shards reports success exactly if it did what it had to do. -/
theorem success_means_done {j : Job} (hj : ∀ e, j ≠ .writeShard e) {s : Shared} (hs : s.flag = true) :
    (∃ s', j.body s = .ret true s') ↔ j.Works := by
  obtain ⟨d, f, u⟩ := s
  dsimp only at hs
  subst hs
  cases j with
  | makeDir e =>
    obtain ⟨e1, e2, e3, e4, e5⟩ := e
    cases e1 <;> cases e2 <;> cases e3 <;> cases e4 <;> cases e5 <;>
      first
      | exact ⟨fun _ => (by simp [Job.Works]), fun _ => ⟨_, rfl⟩⟩
      | exact ⟨fun ⟨_, h⟩ => (by cases h), fun h => (by simp [Job.Works] at h)⟩
  | makeFile e =>
    obtain ⟨e1, e2⟩ := e
    cases e1 <;> cases e2 <;>
      first
      | exact ⟨fun _ => (by simp [Job.Works]), fun _ => ⟨_, rfl⟩⟩
      | exact ⟨fun ⟨_, h⟩ => (by cases h), fun h => (by simp [Job.Works] at h)⟩
  | compress e =>
    obtain ⟨e1, e2, e3⟩ := e
    cases e1 <;> cases e2 <;> cases e3 <;>
      first
      | exact ⟨fun _ => (by simp [Job.Works]), fun _ => ⟨_, rfl⟩⟩
      | exact ⟨fun ⟨_, h⟩ => (by cases h), fun h => (by simp [Job.Works] at h)⟩
  | writeChunk e =>
    obtain ⟨e1, e2⟩ := e
    cases e1 <;> cases e2 <;>
      first
      | exact ⟨fun _ => (by simp [Job.Works]), fun _ => ⟨_, rfl⟩⟩
      | exact ⟨fun ⟨_, h⟩ => (by cases h), fun h => (by simp [Job.Works] at h)⟩
  | writeShard e => exact absurd rfl (hj e)

theorem writeChunks_quiet {l : List (Call × Bool)} (h : ∀ c ∈ l, c.1 ≠ .throws ∧ c.2 = true) (s : Shared) :
    writeChunks l s = .ret () { s with success := if l = [] then s.success else l.all fun c => c.1 = .yes } := by
  induction l generalizing s with
  | nil => rfl
  | cons c l ih =>
    obtain ⟨w, t⟩ := c
    obtain ⟨hw, rfl⟩ := h (w, t) List.mem_cons_self
    cases w with
    | throws => exact absurd rfl hw
    | no => simp [writeChunks, bind_run, op, setSuccess, readSuccess, pure_run]
    | yes =>
      refine Eq.trans (ih (fun c hc => h c (List.mem_cons_of_mem _ hc)) { s with success := true }) ?_
      cases l <;> simp

/-- A job for a shard in which nothing throws reports success exactly if it did what it had to do; what the job was before does not matter. -/
theorem shard_success {e : ShardEnv} (h : ∀ c ∈ e.chunks, c.1 ≠ .throws ∧ c.2 = true) (ht : e.writesTable ≠ .throws) (s : Shared) :
    (∃ s', writeShard e s = .ret true s') ↔ (Job.writeShard e).Works := by
  obtain ⟨e1, e2, e3, e4⟩ := e
  dsimp only at h ht
  have hw : (Job.writeShard ⟨e1, e2, e3, e4⟩).Works ↔ (if e1 = [] then false else e1.all fun c => c.1 = .yes) = true ∧ (e2 = true → e3 = .yes) := by
    simp only [Job.Works]
    by_cases he : e1 = []
    · simp [he]
    · simp only [he, if_false, ne_eq, not_false_eq_true, true_and, List.all_eq_true, decide_eq_true_eq]
      exact and_congr_left fun _ => ⟨fun k c hc => (k c hc).1, fun k c hc => ⟨k c hc, (h c hc).2⟩⟩
  rw [hw]
  simp only [writeShard, bind_run, setSuccess, attempt, writeChunks_quiet h]
  generalize (if e1 = [] then false else e1.all fun c => decide (c.1 = .yes)) = x
  cases x with
  | false =>
    refine ⟨fun ⟨s', h'⟩ => ?_, fun h' => by cases h'.1⟩
    cases h'
  | true =>
    cases e2 with
    | false => exact ⟨fun _ => ⟨rfl, nofun⟩, fun _ => ⟨_, rfl⟩⟩
    | true =>
      cases e3 with
      | throws => exact absurd rfl ht
      | yes => exact ⟨fun _ => ⟨rfl, fun _ => rfl⟩, fun _ => ⟨_, rfl⟩⟩
      | no => exact ⟨fun ⟨_, h'⟩ => (by cases h'), fun h' => (by cases h'.2 rfl)⟩

theorem writeChunks_second {l : List (Call × Bool)} (h : ∀ c ∈ l, c.1 = .yes ∧ c.2 = true) (b : Bool) (r : List (Call × Bool)) (s : Shared) :
    writeChunks (l ++ (.throws, b) :: r) s = .threw { s with success := l ≠ [] ∨ s.success = true } := by
  induction l generalizing s with
  | nil => cases hs : s.success <;> simp [writeChunks, bind_run, op, ← hs]
  | cons c l ih =>
    obtain ⟨w, t⟩ := c
    obtain ⟨rfl, rfl⟩ := h (w, t) List.mem_cons_self
    refine Eq.trans (ih (fun c hc => h c (List.mem_cons_of_mem _ hc)) { s with success := true }) ?_
    simp

/-- **Also violated**: if the first chunks of a shard are written and the write of a later one throws, the job reports success, so nobody is told. -/
theorem shard_exception_unreported_violated {e : ShardEnv} {l r : List (Call × Bool)} {b : Bool} (hl : l ≠ [])
    (h : ∀ c ∈ l, c.1 = .yes ∧ c.2 = true) (hc : e.chunks = l ++ (.throws, b) :: r) (ht : e.text = true) (report : Bool) (s : Shared) :
    ¬ (Job.writeShard e).Works ∧ ∃ s', writeShard e s = .ret true s' ∧ work (writeShard e) report s = .goesOn s' := by
  obtain ⟨e1, e2, e3, e4⟩ := e
  dsimp only at hc ht
  subst hc ht
  refine ⟨fun hw => ?_, ?_⟩
  · have := (hw.2.1 (.throws, b) (by simp)).1
    cases this
  · have : ∃ s', writeShard ⟨l ++ (.throws, b) :: r, e2, e3, true⟩ s = .ret true s' := by
      simp only [writeShard, bind_run, setSuccess, attempt, writeChunks_second h]
      rw [show decide (l ≠ [] ∨ false = true) = true from decide_eq_true (.inl hl)]
      exact ⟨_, rfl⟩
    obtain ⟨s', hs⟩ := this
    exact ⟨s', hs, by unfold work; rw [hs]⟩

/-- Directories, files, compression and chunks, each failing in its way: the process goes on. A store that can no longer be searched ends it. -/
example :
    (∃ s', runJobs [(.makeDir ⟨false, .no, .no, false, true⟩, true), (.makeFile ⟨false, true⟩, true), (.compress ⟨true, false, true⟩, true),
      (.writeChunk ⟨.throws, true⟩, true), (.writeShard ⟨[(.yes, true), (.no, true)], true, .yes, true⟩, true)] ⟨0, true, false⟩ = .goesOn s' ∧
      s'.downs = 0 + 5) ∧
    runJobs [(.makeFile ⟨true, true⟩, true), (.makeDir ⟨false, .throws, .throws, true, true⟩, true)] ⟨0, true, false⟩ = .terminated :=
  ⟨jobs_end_partial (by simp [Job.hasText, Job.StatusUnknown]) _, unknown_status_terminates_violated
    (x := (.makeDir ⟨false, .throws, .throws, true, true⟩, true)) (by simp) ⟨rfl, .inl rfl⟩ _⟩

end AZ.Jobs
