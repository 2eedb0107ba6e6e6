import Verif.Props.Settings
import Mathlib.Data.List.Induction

set_option linter.unusedSimpArgs false

/-! # The C API around the stream (C25, C41, C42, C43) -/

namespace AZ

/-! ### C25: NULL arguments -/

/-- **C25.** With a NULL stream, data or `bytes_out`, append reports an invalid argument, leaves `*bytes_out` as it
was, and the stream (if there is one) as it was, for every stream state and every storage. -/
theorem append_null {env : Env} {stream : Option SState} {data : Option Bytes} {out : Option Nat}
    (h : stream = none ∨ data = none ∨ out = none) :
    apiAppend env stream data out = .ok ⟨1, out, stream⟩ := by
  cases stream with
  | none => rfl
  | some st =>
    cases data with
    | none => rfl
    | some d =>
      cases out with
      | none => rfl
      | some o => simp at h

/-- The other direction: with three valid pointers the argument check passes. -/
theorem append_valid {env : Env} {st : SState} {d : Bytes} {o : Nat} {r : AppendResult}
    (h : apiAppend env (some st) (some d) (some o) = .ok r) : r.status = 0 ∨ r.status = 5 := by
  unfold apiAppend at h
  dsimp only at h
  split at h
  · simp at h
  · simp at h
  · cases h; exact .inr rfl
  · cases h; exact .inl rfl

/-- When append fails with an internal error, `*bytes_out` is not written. -/
theorem append_failed_bytesOut {env : Env} {st : SState} {d : Bytes} {o : Nat} {r : AppendResult}
    (h : apiAppend env (some st) (some d) (some o) = .ok r) (hf : r.status ≠ 0) : r.bytesOut = some o := by
  unfold apiAppend at h
  dsimp only at h
  split at h
  · simp at h
  · simp at h
  · cases h; rfl
  · cases h; exact absurd rfl hf

/-- Destroying a NULL stream does nothing. -/
theorem destroy_null {env : Env} : apiDestroy env none = .ok [] := rfl

example (env : Env) (st : SState) : apiAppend env (some st) none (some 17) = .ok ⟨1, some 17, some st⟩ :=
  append_null (.inr (.inl rfl))

/-! ### C42: status messages -/

/-- **C42.** Defined codes have pairwise different messages, none of which is the generic one, and exactly the
undefined codes get the generic message. -/
theorem status_messages : (∀ c d : Int, 0 ≤ c → c ≤ 9 → 0 ≤ d → d ≤ 9 → statusMessage c = statusMessage d → c = d) ∧
    ∀ c : Int, statusMessage c = "Unknown error" ↔ c < 0 ∨ 9 < c := by
  have hc : ∀ c : Int, 0 ≤ c → c ≤ 9 → c = 0 ∨ c = 1 ∨ c = 2 ∨ c = 3 ∨ c = 4 ∨ c = 5 ∨ c = 6 ∨ c = 7 ∨ c = 8 ∨ c = 9 := by
    intro c h1 h2; omega
  constructor
  · intro c d c1 c2 d1 d2 h
    rcases hc c c1 c2 with rfl | rfl | rfl | rfl | rfl | rfl | rfl | rfl | rfl | rfl <;>
    rcases hc d d1 d2 with rfl | rfl | rfl | rfl | rfl | rfl | rfl | rfl | rfl | rfl <;>
    first | rfl | exact absurd h (by decide)
  · intro c
    constructor
    · intro h
      by_cases hr : 0 ≤ c ∧ c ≤ 9
      · rcases hc c hr.1 hr.2 with rfl | rfl | rfl | rfl | rfl | rfl | rfl | rfl | rfl | rfl <;>
        exact absurd h (by decide)
      · omega
    · intro h
      unfold statusMessage
      split <;> first | rfl | omega

/-! ### C43: dimension arrays -/

/-- The settings struct after any sequence of calls, starting from a zeroed one. -/
def dimsAfter (ops : List DimOp) : DimHeap := ops.foldl stepDims .init

/-- No leak, no dangling pointer, no double free. -/
structure DimsSound (h : DimHeap) : Prop where
  live : h.live = match h.dimensions with
    | some p => [(p, h.count)]
    | none => []
  count : h.dimensions = none → h.count = 0
  three : h.dimensions ≠ none → 3 ≤ h.count
  once : h.freed.Nodup
  apart : ∀ p ∈ h.freed, p < h.next ∧ h.dimensions ≠ some p
  fresh : ∀ p, h.dimensions = some p → p < h.next
  all : ∀ p < h.next, p ∈ h.freed ∨ h.dimensions = some p

theorem dimsSound_step {h : DimHeap} (hs : DimsSound h) (op : DimOp) : DimsSound (stepDims h op) := by
  obtain ⟨l1, l2, l3, l4, l5, l6, l7⟩ := hs
  obtain ⟨dimensions, count, next, live, freed⟩ := h
  cases op with
  | destroy =>
    cases hd : dimensions with
    | none =>
      subst hd
      simp only [stepDims, destroyDims] at *
      exact ⟨l1, fun _ => rfl, fun h => absurd rfl h, l4, l5, l6, l7⟩
    | some p =>
      subst hd
      simp only [stepDims, destroyDims, DimHeap.free] at *
      subst l1
      refine ⟨by simp, fun _ => rfl, fun h => absurd rfl h, ?_, ?_, by simp, ?_⟩
      · refine List.nodup_append.2 ⟨l4, by simp, ?_⟩
        intro a ha b hb
        rw [List.mem_singleton] at hb
        subst hb
        intro hab
        subst hab
        exact (l5 a ha).2 rfl
      · intro q hq
        rcases List.mem_append.1 hq with hq | hq
        · exact ⟨(l5 q hq).1, by simp⟩
        · rw [List.mem_singleton] at hq
          subst hq
          exact ⟨l6 q rfl, by simp⟩
      · intro q hq
        rcases l7 q hq with hq | hq
        · exact .inl (by simp [hq])
        · cases hq; exact .inl (by simp)
  | create n ok =>
    simp only [stepDims, createDims]
    split
    · exact ⟨l1, l2, l3, l4, l5, l6, l7⟩
    rename_i hn
    split
    · exact ⟨l1, l2, l3, l4, l5, l6, l7⟩
    cases hd : dimensions with
    | none =>
      subst hd
      simp only [destroyDims] at *
      subst l1
      constructor <;> dsimp only
      · simp
      · intro _; omega
      · exact l4
      · intro q hq
        have := (l5 q hq).1
        refine ⟨by omega, ?_⟩
        intro he; cases he; omega
      · intro q hq; cases hq; omega
      · intro q hq
        by_cases hqe : q = next
        · exact .inr (by rw [hqe])
        · rcases l7 q (by omega) with h | h
          · exact .inl h
          · simp at h
    | some p =>
      subst hd
      simp only [destroyDims, DimHeap.free] at *
      subst l1
      have hp := l6 p rfl
      constructor <;> dsimp only
      · have : next ≠ p := by omega
        simp [this]
      · simp
      · intro _; omega
      · refine List.nodup_append.2 ⟨l4, by simp, ?_⟩
        intro a ha b hb
        rw [List.mem_singleton] at hb
        subst hb
        intro hab
        subst hab
        exact (l5 a ha).2 rfl
      · intro q hq
        have hq' : q < next := by
          rcases List.mem_append.1 hq with hq | hq
          · exact (l5 q hq).1
          · rw [List.mem_singleton] at hq; omega
        refine ⟨by omega, ?_⟩
        intro he; cases he; omega
      · intro q hq; cases hq; omega
      · intro q hq
        by_cases hqe : q = next
        · exact .inr (by rw [hqe])
        · rcases l7 q (by omega) with h | h
          · exact .inl (by simp [h])
          · cases h; exact .inl (by simp)

/-- **C43.** After any sequence of create and destroy calls with any counts and any allocation outcomes, the struct
owns exactly the array it points to, every other allocation was freed, none twice. -/
theorem dims_sound (ops : List DimOp) : DimsSound (dimsAfter ops) := by
  unfold dimsAfter
  have h0 : DimsSound .init := by
    refine ⟨rfl, fun _ => rfl, fun h => absurd rfl h, List.nodup_nil, by simp [DimHeap.init], by simp [DimHeap.init],
      by simp [DimHeap.init]⟩
  generalize DimHeap.init = h at h0 ⊢
  induction ops generalizing h with
  | nil => exact h0
  | cons op ops ih => exact ih _ (dimsSound_step h0 op)

/-- A create call succeeds exactly when at least three dimensions are requested and the allocation succeeds; then the
struct points to a new array of that length; otherwise it is unchanged. -/
theorem create_dims (h : DimHeap) (n : Nat) (ok : Bool) :
    ((createDims h n ok).2 = 0 ↔ 3 ≤ n ∧ ok = true) ∧
    ((createDims h n ok).2 = 0 → (createDims h n ok).1.dimensions = some h.next ∧ (createDims h n ok).1.count = n) ∧
    ((createDims h n ok).2 ≠ 0 → (createDims h n ok).1 = h) := by
  unfold createDims statusInvalidArgument statusOutOfMemory statusSuccess
  by_cases hn : n < 3
  · simp [hn]
  · cases ok <;> simp [hn] <;> omega

/-- What the status of a create call says, in words: the message names the reason. -/
theorem create_dims_message (h : DimHeap) (n : Nat) (ok : Bool) :
    statusMessage (createDims h n ok).2 =
      if n < 3 then "Invalid argument" else if ok then "Success" else "Out of memory" := by
  unfold createDims
  by_cases hn : n < 3
  · rw [if_pos hn, if_pos hn]; rfl
  · rw [if_neg hn, if_neg hn]
    cases ok <;> rfl

example : dimsAfter [.create 4 true, .create 2 true, .create 5 false, .create 3 true, .destroy, .destroy,
    .create 7 true] = ⟨some 2, 7, 3, [(2, 7)], [0, 1]⟩ := by decide

/-! ### C41: log level -/

/-- Calls that involve the logger: the user sets a level, the library logs a message. -/
inductive LogOp where
  | set (level : Int)
  | log (level : LogLevel) (text : Text)

/-- The logger's level, the statuses returned by the set calls and the lines printed so far (true: to stderr). -/
structure LogState where
  level : LogLevel
  statuses : List Nat
  printed : List (Bool × Text)

def stepLog (s : LogState) : LogOp → LogState
  | .set v => { s with level := (setLogLevel s.level v).1, statuses := s.statuses ++ [(setLogLevel s.level v).2] }
  | .log l t => { s with printed := s.printed ++ (logMessage s.level l t).1.toList }

def logAfter (ops : List LogOp) : LogState := ops.foldl stepLog ⟨logInit, [], []⟩

/-- Specification: the last valid level among the calls, `Info` (1) if there is none. -/
def lastSet (ops : List LogOp) : Int :=
  (ops.filterMap fun
    | .set v => if 0 ≤ v ∧ v ≤ 4 then some v else none
    | .log _ _ => none).getLast?.getD 1

theorem lastSet_snoc_set (ops : List LogOp) (v : Int) :
    lastSet (ops ++ [.set v]) = if 0 ≤ v ∧ v ≤ 4 then v else lastSet ops := by
  unfold lastSet
  rw [List.filterMap_append]
  by_cases h : 0 ≤ v ∧ v ≤ 4 <;> simp [h]

theorem lastSet_snoc_log (ops : List LogOp) (l : LogLevel) (t : Text) :
    lastSet (ops ++ [.log l t]) = lastSet ops := by
  unfold lastSet
  rw [List.filterMap_append]
  simp

theorem logAfter_snoc (ops : List LogOp) (op : LogOp) : logAfter (ops ++ [op]) = stepLog (logAfter ops) op := by
  unfold logAfter
  rw [List.foldl_append]
  rfl

theorem getLogLevel_set (cur : LogLevel) (v : Int) :
    getLogLevel (setLogLevel cur v).1 = (if 0 ≤ v ∧ v ≤ 4 then v else getLogLevel cur) ∧
    ((setLogLevel cur v).2 = if 0 ≤ v ∧ v ≤ 4 then 0 else 1) := by
  by_cases h : 0 ≤ v ∧ v ≤ 4
  · rw [if_pos h, if_pos h]
    rcases (by omega : v = 0 ∨ v = 1 ∨ v = 2 ∨ v = 3 ∨ v = 4) with rfl | rfl | rfl | rfl | rfl <;> exact ⟨rfl, rfl⟩
  · rw [if_neg h, if_neg h]
    have : LogLevel.ofC v = none := by
      unfold LogLevel.ofC
      split <;> first | rfl | omega
    unfold setLogLevel
    rw [this]
    exact ⟨rfl, rfl⟩

/-- **C41, round trip.** After any history the level reported is the last one successfully set. -/
theorem log_level_round_trip (ops : List LogOp) : getLogLevel (logAfter ops).level = lastSet ops := by
  induction ops using List.reverseRecOn with
  | nil => rfl
  | append_singleton ops op ih =>
    rw [logAfter_snoc]
    cases op with
    | set v =>
      rw [lastSet_snoc_set, ← ih]
      exact (getLogLevel_set _ v).1
    | log l t =>
      rw [lastSet_snoc_log]
      exact ih

/-- A set call reports success exactly for the five levels and otherwise an invalid argument; it prints nothing. -/
theorem log_level_status (ops : List LogOp) (v : Int) :
    (logAfter (ops ++ [.set v])).statuses = (logAfter ops).statuses ++ [if 0 ≤ v ∧ v ≤ 4 then 0 else 1] ∧
    (logAfter (ops ++ [.set v])).printed = (logAfter ops).printed := by
  rw [logAfter_snoc]
  refine ⟨?_, rfl⟩
  show _ ++ [_] = _
  rw [(getLogLevel_set _ v).2]

/-- **C41, filter.** A message is printed exactly when its level is at least the last one successfully set; errors
go to stderr, everything else to stdout. -/
theorem log_filter (ops : List LogOp) (l : LogLevel) (t : Text) :
    (logAfter (ops ++ [.log l t])).printed =
      (logAfter ops).printed ++ if lastSet ops ≤ getLogLevel l then [(decide (getLogLevel l ≥ 3), t)] else [] := by
  rw [logAfter_snoc]
  show _ ++ _ = _
  rw [← log_level_round_trip]
  congr 1
  generalize (logAfter ops).level = c
  unfold logMessage
  cases l <;> cases c <;> rfl

/-- The message of an exception thrown by `EXPECT` is the text, except that with logging off it is empty. -/
theorem expect_message (cur : LogLevel) (text : Text) : expectMessage cur text = if getLogLevel cur = 4 then [] else text := by
  unfold expectMessage logMessage
  cases cur <;> rfl

/-- The message of a failed job is never empty, whatever the log level: `set_error_` always records an error. -/
theorem job_error_recorded (cur : LogLevel) {pre : Text} (text : Text) (h : pre ≠ []) : jobError cur pre text ≠ [] := by
  unfold jobError
  simp [h]

/-- Two outcomes of append that agree in everything except the text of the pending error. -/
def SameUpToErrorText : Option (Res (SState × Nat)) → Option (Res (SState × Nat)) → Prop
  | none, none => True
  | some .throw, some .throw => True
  | some .ub, some .ub => True
  | some (.ok (a, n)), some (.ok (b, m)) => n = m ∧ b = { a with error := b.error } ∧ b.error.isEmpty = a.error.isEmpty
  | _, _ => False

theorem setErrors_isEmpty {e e' : Text} (msgs : List Text) (h : e'.isEmpty = e.isEmpty) :
    (setErrors e' msgs).isEmpty = (setErrors e msgs).isEmpty := by
  unfold setErrors
  induction msgs generalizing e e' with
  | nil => exact h
  | cons m ms ih => exact ih rfl

theorem writeLevel0_errText {env : Env} {st : SState} {e : Text} {d : Bytes} (h : e.isEmpty = st.error.isEmpty) :
    (writeLevel0 env st d = .throw ∧ writeLevel0 env { st with error := e } d = .throw) ∨
    (writeLevel0 env st d = .ub ∧ writeLevel0 env { st with error := e } d = .ub) ∨
    ∃ st' k e', writeLevel0 env st d = .ok (st', k) ∧ writeLevel0 env { st with error := e } d = .ok ({ st' with error := e' }, k) ∧
      e'.isEmpty = st'.error.isEmpty := by
  unfold writeLevel0
  dsimp only
  cases st.levels with
  | nil => exact .inr (.inl ⟨rfl, rfl⟩)
  | cons l0 rest =>
    dsimp only
    cases writerStep env l0 d with
    | throw => exact .inl ⟨rfl, rfl⟩
    | ub => exact .inr (.inl ⟨rfl, rfl⟩)
    | ok r => exact .inr (.inr ⟨_, _, _, rfl, rfl, setErrors_isEmpty _ h⟩)

theorem writeMultiscale_errText {env : Env} {st : SState} {e : Text} {d : Bytes} (h : e.isEmpty = st.error.isEmpty) :
    (writeMultiscale env st d = .throw ∧ writeMultiscale env { st with error := e } d = .throw) ∨
    (writeMultiscale env st d = .ub ∧ writeMultiscale env { st with error := e } d = .ub) ∨
    ∃ st' e', writeMultiscale env st d = .ok st' ∧ writeMultiscale env { st with error := e } d = .ok { st' with error := e' } ∧
      e'.isEmpty = st'.error.isEmpty := by
  obtain ⟨cfg, levels, multiscale, buf, offset, error, trace⟩ := st
  unfold writeMultiscale
  dsimp only at h ⊢
  cases multiscale with
  | false => exact .inr (.inr ⟨_, _, rfl, rfl, h⟩)
  | true =>
    cases levels with
    | nil => exact .inr (.inr ⟨_, _, rfl, rfl, h⟩)
    | cons l0 rest =>
      dsimp only
      cases pyramidLoop env cfg.dims.dtype rest d cfg.dims.width.arraySize cfg.dims.height.arraySize with
      | throw => exact .inl ⟨rfl, rfl⟩
      | ub => exact .inr (.inl ⟨rfl, rfl⟩)
      | ok r => exact .inr (.inr ⟨_, _, rfl, rfl, setErrors_isEmpty _ h⟩)

theorem appendLoop_errText {env : Env} {data : Bytes} {fuel ptr bw : Nat} {st : SState} {e : Text}
    (h : e.isEmpty = st.error.isEmpty) :
    SameUpToErrorText (appendLoop env data fuel ptr bw st) (appendLoop env data fuel ptr bw { st with error := e }) := by
  induction fuel generalizing ptr bw st e with
  | zero =>
    unfold appendLoop
    split
    · exact ⟨rfl, rfl, h⟩
    · trivial
  | succ fuel ih =>
    unfold appendLoop
    dsimp only
    split
    · exact ⟨rfl, rfl, h⟩
    split
    · split
      · trivial
      split
      · split
        · trivial
        rcases writeLevel0_errText (env := env)
          (st := { st with
            buf := pwrite st.buf st.offset (slice data (ptr + bw) (min (st.buf.length - st.offset) (data.length - bw)))
            offset := st.offset + min (st.buf.length - st.offset) (data.length - bw) })
          (e := e) (d := slice data ptr st.buf.length) h with ⟨h1, h2⟩ | ⟨h1, h2⟩ | ⟨st', k, e', h1, h2, h3⟩
        · dsimp only at h1 h2; rw [h1, h2]; trivial
        · dsimp only at h1 h2; rw [h1, h2]; trivial
        · dsimp only at h1 h2; rw [h1, h2]
          dsimp only
          split
          · exact ⟨rfl, rfl, h3⟩
          · exact ih (st := { st' with offset := 0 }) h3
      · exact ih (st := { st with
            buf := pwrite st.buf st.offset (slice data (ptr + bw) (min (st.buf.length - st.offset) (data.length - bw)))
            offset := st.offset + min (st.buf.length - st.offset) (data.length - bw) }) h
    split
    · split
      · trivial
      · exact ih (st := { st with
          buf := pwrite st.buf 0 (slice data ptr (data.length - bw))
          offset := data.length - bw }) h
    split
    · trivial
    rcases writeLevel0_errText (env := env) (st := st) (e := e) (d := slice data ptr st.buf.length) h with
      ⟨h1, h2⟩ | ⟨h1, h2⟩ | ⟨st', k, e', h1, h2, h3⟩
    · rw [h1, h2]; trivial
    · rw [h1, h2]; trivial
    · rw [h1, h2]
      dsimp only
      split
      · exact ⟨rfl, rfl, h3⟩
      rcases writeMultiscale_errText (env := env) (st := st') (e := e') (d := slice data ptr st.buf.length) h3 with
        ⟨g1, g2⟩ | ⟨g1, g2⟩ | ⟨st'', e'', g1, g2, g3⟩
      · rw [g1, g2]; trivial
      · rw [g1, g2]; trivial
      · rw [g1, g2]
        exact ih g3

/-- **C41, no influence.** The log level enters results only through the text of error messages
(`job_error_recorded`: never through their presence), and that text never matters: two streams that differ only in
it behave alike, call after call, and write the same files. -/
theorem error_text_irrelevant {env : Env} {data : Bytes} {st : SState} {e : Text} (h : e.isEmpty = st.error.isEmpty) :
    SameUpToErrorText (append env (appendFuel data) data st) (append env (appendFuel data) data { st with error := e }) ∧
    destroyStream env { st with error := e } = destroyStream env st := by
  refine ⟨?_, rfl⟩
  unfold append
  rw [show ({ st with error := e } : SState).error = e from rfl, h]
  split
  · trivial
  · exact appendLoop_errText h

example : logAfter [.set 3, .log .warning "a".toList, .set 9, .log .error "b".toList, .set 0, .log .debug "c".toList] =
    ⟨.debug, [0, 1, 0], [(true, "b".toList), (false, "c".toList)]⟩ := by
  rfl

end AZ
