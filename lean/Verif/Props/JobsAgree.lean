import Verif.Props.Jobs
import Verif.Model.Writer

/-!
# C88: the job bodies and the writers' model say the same about what is reported

`Model.Writer` has one function per job, with the data; `Model.Jobs` has the statements with their exceptions, without the data. Here the environment of the latter is
computed from that of the former.
-/

set_option linter.unusedSimpArgs false

namespace AZ.Jobs

/-- What a write is to the job. -/
def callOf : WriteOut → Call
  | .stored => .yes
  | .silent => .yes
  | .failed => .no
  | .threw => .throws

/-- The calls of the loop over the chunks of a shard. A missing buffer is an exception of `.at`. -/
def shardCalls (env : Env) (D : ArrayDims) (p : Text) (bufs : List Bytes) (tableLength : Nat) : List Nat → Nat → List (Call × Bool)
  | [], _ => []
  | ci :: cs, offset =>
    match bufs[ci]? with
    | none => [(.throws, true)]
    | some chunk => (callOf (env.write p offset chunk), decide (u32 (2 * D.shardInternalIndex ci) + 1 < tableLength)) ::
        shardCalls env D p bufs tableLength cs (u64 (offset + chunk.length))

theorem loop_agrees (env : Env) (D : ArrayDims) (p : Text) (bufs : List Bytes) (cs : List Nat) (j : ShardJob) (s : Shared) (hs : s.success = j.success)
    (he : j.err = []) :
    writeChunks (shardCalls env D p bufs j.table.length cs j.offset) s =
      if (shardLoop env D p bufs cs j).err.isEmpty then .ret () { s with success := (shardLoop env D p bufs cs j).success }
      else .threw { s with success := (shardLoop env D p bufs cs j).success } := by
  induction cs generalizing j s with
  | nil => simp [shardCalls, writeChunks, shardLoop, he, pure_run, ← hs]
  | cons ci cs ih =>
    rw [shardCalls, shardLoop]
    cases hb : bufs[ci]? with
    | none => simp [writeChunks, bind_run, op, ← hs]
    | some chunk =>
      dsimp only
      obtain ⟨x, hw⟩ : ∃ x, env.write p j.offset chunk = x := ⟨_, rfl⟩
      simp only [hw]
      cases x with
      | threw => simp [writeChunks, bind_run, op, callOf, ← hs]
      | failed => simp [writeChunks, bind_run, op, callOf, setSuccess, readSuccess, pure_run, he]
      | stored =>
        dsimp only [callOf]
        by_cases hp : u32 (2 * D.shardInternalIndex ci) + 1 < j.table.length
        · simp only [hp, if_true, decide_true, reduceCtorEq, if_false]
          have := ih { j with
            success := true
            trace := j.trace ++ [Ev.wrote p j.offset chunk]
            table := (j.table.set (u32 (2 * D.shardInternalIndex ci)) j.offset).set (u32 (2 * D.shardInternalIndex ci) + 1) chunk.length
            offset := u64 (j.offset + chunk.length) } { s with success := true } rfl he
          simp only [List.length_set] at this
          simp only [writeChunks, bind_run, op, setSuccess, readSuccess, act, hp, decide_true, if_true, this, if_false]
        · simp [hp, writeChunks, bind_run, op, setSuccess, readSuccess, act, hp]
      | silent =>
        dsimp only [callOf]
        by_cases hp : u32 (2 * D.shardInternalIndex ci) + 1 < j.table.length
        · simp only [hp, if_true, decide_true, reduceCtorEq, if_false]
          have := ih { j with
            success := true
            trace := j.trace ++ []
            table := (j.table.set (u32 (2 * D.shardInternalIndex ci)) j.offset).set (u32 (2 * D.shardInternalIndex ci) + 1) chunk.length
            offset := u64 (j.offset + chunk.length) } { s with success := true } rfl he
          simp only [List.length_set] at this
          simp only [writeChunks, bind_run, op, setSuccess, readSuccess, act, hp, decide_true, if_true, this, if_false]
        · simp [hp, writeChunks, bind_run, op, setSuccess, readSuccess, act, hp]

/-- The environment of the job for a shard. The offset and contents of the index are those the loop has arrived at. -/
def shardEnv (env : Env) (D : ArrayDims) (p : Text) (bufs : List Bytes) (chunks table : List Nat) (offset : Nat) (writeTable : Bool) : ShardEnv :=
  let j := shardLoop env D p bufs chunks ⟨table, offset, false, false, [], []⟩
  ⟨shardCalls env D p bufs table.length chunks offset, writeTable, callOf (env.write p j.offset (j.table.flatMap u64le)), true⟩

/-- **C88.** What a write job reports in the writers' model is what the body of the job returns, for chunks (version 2), shards (version 3) and the compression of chunks, whatever the
storage does; each counts the latch down once. -/
theorem jobs_agree (env : Env) (s : Shared) :
    (∀ p data, ∃ s', writeChunk ⟨callOf (env.write p 0 data), true⟩ s = .ret (chunkJob env p data).2.isEmpty s' ∧ s'.downs = s.downs + 1 ∧ s'.flag = s.flag) ∧
    (∀ D p bufs chunks table offset writeTable, ∃ s',
      writeShard (shardEnv env D p bufs chunks table offset writeTable) s = .ret (shardJob env D p bufs chunks table offset writeTable).success s' ∧
        s'.downs = s.downs + 1 ∧ s'.flag = s.flag) ∧
    ∀ q bpp buf, ∃ s', compress ⟨true, (env.compress q bpp buf).isSome, true⟩ s = .ret (compressJob env q bpp buf).2.isEmpty s' ∧ s'.downs = s.downs + 1 ∧ s'.flag = s.flag := by
  refine ⟨fun p data => ?_, fun D p bufs chunks table offset writeTable => ?_, fun q bpp buf => ?_⟩
  · unfold chunkJob
    cases env.write p 0 data <;> exact ⟨_, rfl, rfl, rfl⟩
  · have hl := loop_agrees env D p bufs chunks ⟨table, offset, false, false, [], []⟩ { s with success := false } rfl rfl
    unfold shardEnv shardJob
    dsimp only at hl ⊢
    generalize shardLoop env D p bufs chunks ⟨table, offset, false, false, [], []⟩ = j at hl ⊢
    simp only [writeShard, bind_run, setSuccess, attempt, hl]
    cases he : j.err.isEmpty with
    | false => exact ⟨_, rfl, rfl, rfl⟩
    | true =>
      cases hs : j.success with
      | false => exact ⟨⟨s.downs + 1, s.flag, false⟩, by simp [readSuccess, pure_run, countDown, hs], rfl, rfl⟩
      | true =>
        cases writeTable with
        | false => exact ⟨⟨s.downs + 1, s.flag, true⟩, by simp [readSuccess, pure_run, countDown, hs], rfl, rfl⟩
        | true =>
          cases hw : env.write p j.offset (j.table.flatMap u64le) with
          | stored => exact ⟨⟨s.downs + 1, s.flag, true⟩, by simp [readSuccess, pure_run, bind_run, countDown, hs, op, callOf, setSuccess], rfl, rfl⟩
          | silent => exact ⟨⟨s.downs + 1, s.flag, true⟩, by simp [readSuccess, pure_run, bind_run, countDown, hs, op, callOf, setSuccess], rfl, rfl⟩
          | failed => exact ⟨⟨s.downs + 1, s.flag, false⟩, by simp [readSuccess, pure_run, bind_run, countDown, hs, op, callOf, setSuccess], rfl, rfl⟩
          | threw => exact ⟨⟨s.downs + 1, s.flag, true⟩, by simp [readSuccess, pure_run, bind_run, countDown, hs, op, callOf, setSuccess, act], rfl, rfl⟩
  · unfold compressJob
    cases env.compress q bpp buf <;> exact ⟨_, rfl, rfl, rfl⟩

end AZ.Jobs
