import Verif.Model.Startup

/-!
# C87: creating a stream gives a stream that can work, or NULL
-/

namespace AZ.Startup

theorem clamp_eq (c : Nat) : clampThreads c c = max c 1 := by
  unfold clampThreads
  split
  · omega
  · split <;> omega

/-- All threads start. -/
theorem startThreads_all {e : Env} {todo running : Nat} (h : ∀ i, running ≤ i → i < running + todo → e.spawns i = true) :
    startThreads e todo running = .ok (running + todo) := by
  induction todo generalizing running with
  | zero => rfl
  | succ t ih =>
    unfold startThreads
    rw [if_pos (h running (Nat.le_refl _) (by omega)), ih fun i h1 h2 => h i (by omega) (by omega)]
    congr 1; omega

/-- The first thread that does not start ends the loop. -/
theorem startThreads_first {e : Env} {todo running k : Nat} (h : ∀ i, running ≤ i → i < running + k → e.spawns i = true) (hk : k < todo)
    (hf : e.spawns (running + k) = false) : startThreads e todo running = .error (running + k) := by
  induction k generalizing todo running with
  | zero =>
    obtain ⟨t, rfl⟩ : ∃ t, todo = t + 1 := ⟨todo - 1, by omega⟩
    unfold startThreads
    rw [if_neg (by rw [show running + 0 = running from rfl] at hf; rw [hf]; exact nofun)]
    rfl
  | succ k ih =>
    obtain ⟨t, rfl⟩ : ∃ t, todo = t + 1 := ⟨todo - 1, by omega⟩
    unfold startThreads
    rw [if_pos (h running (Nat.le_refl _) (by omega)), ih (fun i h1 h2 => h i (by omega) (by omega)) (by omega) (by rw [← hf]; congr 1; omega)]
    congr 1; omega

/-- Either all threads start, or there is a first that does not. -/
theorem first_failure (f : Nat → Bool) (n : Nat) : (∀ i, i < n → f i = true) ∨ ∃ k, k < n ∧ f k = false ∧ ∀ i, i < k → f i = true := by
  induction n with
  | zero => exact .inl fun _ h => absurd h (Nat.not_lt_zero _)
  | succ n ih =>
    rcases ih with h | ⟨k, h1, h2, h3⟩
    · cases hn : f n with
      | true =>
        refine .inl fun i hi => ?_
        by_cases e : i = n
        · rw [e, hn]
        · exact h i (by omega)
      | false => exact .inr ⟨n, by omega, hn, h⟩
    · exact .inr ⟨k, by omega, h2, h3⟩

/-- The connections kept are those that tested valid. -/
theorem connectLoop_count {e : Env} {todo i kept n : Nat} (h : connectLoop e todo i kept = .ok n) :
    n = kept + (List.range' i todo).countP (e.connects · = .ok) := by
  induction todo generalizing i kept with
  | zero => cases h; rfl
  | succ t ih =>
    unfold connectLoop at h
    rw [List.range'_succ, List.countP_cons]
    split at h
    · rename_i hc
      split at h
      · rw [ih h, hc]; simp; omega
      · cases h
    · rename_i hc
      rw [ih h, hc]; simp
    · cases h

/-- Connections that answer are kept, all of them. -/
theorem connectLoop_all {e : Env} {todo i kept : Nat} (h : ∀ j, i ≤ j → j < i + todo → e.connects j = .ok ∧ e.keeps j = true) :
    connectLoop e todo i kept = .ok (kept + todo) := by
  induction todo generalizing i kept with
  | zero => rfl
  | succ t ih =>
    unfold connectLoop
    obtain ⟨h1, h2⟩ := h i (Nat.le_refl _) (by omega)
    rw [h1, h2]
    dsimp only
    rw [if_pos rfl, ih fun j a b => h j (by omega) (by omega)]
    congr 1; omega

theorem openS3_range {e : Env} {n : Nat} (h : openS3 e = .ok n) : 0 < n ∧ n = (List.range e.cores).countP (e.connects · = .ok) := by
  unfold openS3 at h
  split at h
  · cases h
  · cases h
  · rename_i k hk
    split at h
    · cases h
      have := connectLoop_count hk
      rw [List.range_eq_range']
      omega
    · cases h

/-- **C87, the part that holds.** If no thread after the first fails to start: `ZarrStream_create` returns. If it returns NULL, no worker is left running;
if it returns a stream, the stream has a worker for each core, at least one, and on S3 the connections that tested valid, at least one. -/
theorem create_returns_partial {e : Env} (h : ∀ i, 0 < i → i < e.cores → e.spawns i = true) :
    create e = .null 0 ∨ ∃ conns, create e = .stream (max e.cores 1) conns ∧ 
      (e.s3 = true → 0 < conns ∧ conns = (List.range e.cores).countP (e.connects · = .ok)) := by
  unfold create
  split
  · exact .inl rfl
  split
  · exact .inl rfl
  rw [clamp_eq]
  cases h0 : e.spawns 0 with
  | false =>
    have hm : 0 < max e.cores 1 := by omega
    rw [startThreads_first (k := 0) (fun i _ hi => absurd hi (by omega)) hm h0]
    exact .inl rfl
  | true =>
    rw [startThreads_all (running := 0) fun i _ hi => by
      by_cases e0 : i = 0
      · rw [e0, h0]
      · exact h i (by omega) (by omega)]
    rw [Nat.zero_add]
    dsimp only
    split
    · exact .inl rfl
    split
    · rename_i hs3
      split
      · exact .inl rfl
      · rename_i conns hc
        split
        · exact .inl rfl
        · exact .inr ⟨conns, rfl, fun _ => openS3_range hc⟩
    · rename_i hs3
      split
      · exact .inl rfl
      · exact .inr ⟨0, rfl, fun hs => absurd hs hs3⟩

/-- A stream is created if nothing fails and the number of cores is known. -/
theorem create_works {e : Env} (hs : e.settings = .ok) (hp : e.poolObject = .ok) (hf : e.frameBuffer = .ok) (hr : e.rest = .ok)
    (ht : ∀ i, i < max e.cores 1 → e.spawns i = true)
    (hs3 : e.s3 = true → 0 < e.cores ∧ (∀ i, i < e.cores → e.connects i = .ok ∧ e.keeps i = true) ∧ e.tested = .ok) :
    create e = .stream (max e.cores 1) (if e.s3 then e.cores else 0) := by
  unfold create
  rw [if_neg (by rw [hs]; exact fun h => h rfl), if_neg (by rw [hp]; exact fun h => h rfl), clamp_eq,
    startThreads_all (running := 0) fun i _ hi => ht i (by omega), Nat.zero_add]
  dsimp only
  rw [if_neg (by rw [hf]; exact fun h => h rfl)]
  cases h3 : e.s3 with
  | false =>
    rw [if_neg (by exact nofun), if_neg (by rw [hr]; exact fun h => h rfl)]
    rfl
  | true =>
    obtain ⟨a, b, c⟩ := hs3 h3
    have : openS3 e = .ok e.cores := by
      unfold openS3
      rw [connectLoop_all fun j _ hj => b j (by omega), Nat.zero_add]
      obtain ⟨n, hn⟩ : ∃ n, e.cores = n + 1 := ⟨e.cores - 1, by omega⟩
      rw [hn]
      dsimp only
      rw [c]
    rw [if_pos rfl, this]
    dsimp only
    rw [if_neg (by rw [hr]; exact fun h => h rfl)]
    rfl

/-- **C87 is violated by the code.** Creating a stream with good settings terminates the process exactly if the first thread starts and a later one
does not. -/
theorem create_terminates_violated {e : Env} (hs : e.settings = .ok) (hp : e.poolObject = .ok) :
    create e = .terminated ↔ e.spawns 0 = true ∧ ∃ i, i < e.cores ∧ e.spawns i = false := by
  constructor
  · intro h
    by_cases hg : ∀ i, 0 < i → i < e.cores → e.spawns i = true
    · rcases create_returns_partial hg with h' | ⟨c, h', _⟩ <;> rw [h] at h' <;> cases h'
    · have hex : ∃ i, 0 < i ∧ i < e.cores ∧ e.spawns i = false := by
        rcases first_failure e.spawns e.cores with ha | ⟨k, h1, h2, h3⟩
        · exact absurd (fun i _ hi => ha i hi) hg
        · by_cases k0 : k = 0
          · refine absurd h ?_
            unfold create
            rw [if_neg (by rw [hs]; exact fun h => h rfl), if_neg (by rw [hp]; exact fun h => h rfl), clamp_eq,
              startThreads_first (k := 0) (fun i _ hi => absurd hi (by omega)) (by omega) (by rw [← h2, k0])]
            exact nofun
          · exact ⟨k, by omega, h1, h2⟩
      obtain ⟨i, h1, h2, h3⟩ := hex
      refine ⟨?_, i, h2, h3⟩
      cases h0 : e.spawns 0 with
      | true => rfl
      | false =>
        refine absurd h ?_
        unfold create
        rw [if_neg (by rw [hs]; exact fun h => h rfl), if_neg (by rw [hp]; exact fun h => h rfl), clamp_eq,
          startThreads_first (k := 0) (fun i _ hi => absurd hi (by omega)) (by omega) h0]
        exact nofun
  · rintro ⟨h0, i, hi, hf⟩
    rcases first_failure e.spawns e.cores with ha | ⟨k, h1, h2, h3⟩
    · rw [ha i hi] at hf; cases hf
    · have k0 : k ≠ 0 := fun k0 => by rw [k0, h0] at h2; cases h2
      unfold create
      rw [if_neg (by rw [hs]; exact fun h => h rfl), if_neg (by rw [hp]; exact fun h => h rfl), clamp_eq,
        startThreads_first (k := k) (fun i _ hi => h3 i (by omega)) (by omega) (by rw [Nat.zero_add]; exact h2), Nat.zero_add]
      exact if_neg k0

/-- Where the number of cores is not known, no stream can be created on S3, whatever the server does; on a file system it can. -/
theorem unknown_cores_violated {e : Env} (h : e.cores = 0) (hs3 : e.s3 = true) : create e = .null 0 := by
  rcases create_returns_partial (e := e) (fun i h1 h2 => absurd h2 (by omega)) with h' | ⟨c, _, h'⟩
  · exact h'
  · obtain ⟨h1, h2⟩ := h' hs3
    rw [h] at h2
    exact absurd h1 (by rw [h2]; exact Nat.lt_irrefl _)

/-- A machine with 8 cores and a server that answers. -/
def goodEnv (cores : Nat) (s3 : Bool) (limit : Nat) : Env :=
  ⟨cores, fun i => decide (i < limit), .ok, .ok, .ok, s3, fun _ => .ok, fun _ => true, .ok, .ok⟩

/-- It creates streams; if only 5 threads can be started it is terminated; with cores unknown files work and S3 does not. -/
example : create (goodEnv 8 true 100) = .stream 8 8 ∧ create (goodEnv 8 false 5) = .terminated ∧ create (goodEnv 8 true 0) = .null 0 ∧
    create (goodEnv 0 false 100) = .stream 1 0 ∧ create (goodEnv 0 true 100) = .null 0 := by decide

end AZ.Startup
