import Verif.Model.Memory
import Verif.Props.Sample

/-!
# C89: running out of memory is reported
-/

namespace AZ.Memory

/-- A function that ends with a result or an exception. -/
def Safe {α : Type} (m : M α) : Prop := ∀ n, m n ≠ .terminated

theorem bind_ret {α β : Type} {m : M α} {f : α → M β} {n n' : Nat} {a : α} (h : m n = .ret a n') : (m >>= f) n = f a n' := by
  show (match m n with
    | .ret a n' => f a n'
    | .threw n' => .threw n'
    | .terminated => .terminated) = _
  rw [h]

theorem bind_threw {α β : Type} {m : M α} {f : α → M β} {n n' : Nat} (h : m n = .threw n') : (m >>= f) n = .threw n' := by
  show (match m n with
    | .ret a n' => f a n'
    | .threw n' => .threw n'
    | .terminated => .terminated) = _
  rw [h]

theorem bind_terminated {α β : Type} {m : M α} {f : α → M β} {n : Nat} (h : m n = .terminated) : (m >>= f) n = .terminated := by
  show (match m n with
    | .ret a n' => f a n'
    | .threw n' => .threw n'
    | .terminated => .terminated) = _
  rw [h]

theorem safe_pure {α : Type} (a : α) : Safe (pure a : M α) := fun _ => nofun

theorem safe_bind {α β : Type} {m : M α} {f : α → M β} (h : Safe m) (hf : ∀ a, Safe (f a)) : Safe (m >>= f) := by
  intro n
  show (match m n with
    | .ret a n' => f a n'
    | .threw n' => .threw n'
    | .terminated => .terminated) ≠ Ends.terminated
  split
  · exact hf _ _
  · exact nofun
  · exact absurd (by assumption) (h n)

theorem safe_alloc (e : Env) (s : Site) (b : Nat) : Safe (alloc e s b) := by
  intro n
  unfold alloc
  split <;> exact nofun

/-- The chunk buffers can be allocated. -/
def BuffersFit (e : Env) : Prop := ∀ b n, e .chunkBuffer b n = true

theorem allocBuffers_ok {e : Env} (h : BuffersFit e) (b k n : Nat) : allocBuffers e b k n = .ret () (n + k) := by
  induction k generalizing n with
  | zero => rfl
  | succ k ih =>
    simp only [allocBuffers]
    rw [bind_ret (a := ()) (n' := n + 1) (by rw [alloc, if_pos (h b n)])]
    rw [ih]
    congr 1; omega

theorem safe_writeFrame {e : Env} (h : BuffersFit e) (l : Level) : Safe (writeFrame e l) := by
  unfold writeFrame
  split
  · exact safe_pure _
  · refine safe_bind ?_ fun _ => safe_pure _
    intro n
    unfold makeBuffers noexcept
    rw [allocBuffers_ok h]
    exact nofun

theorem safe_writePyramid {e : Env} (h : BuffersFit e) (t : DType) (ls : List Level) (w k : Nat) : Safe (writePyramid e t ls w k) := by
  induction ls generalizing w k with
  | nil => exact safe_pure _
  | cons l ls ih =>
    unfold writePyramid
    refine safe_bind (safe_alloc e _ _) fun _ => ?_
    split
    · exact safe_bind (safe_writeFrame h l) fun _ => safe_bind (ih _ _) fun _ => safe_pure _
    · exact safe_pure _

theorem safe_appendFrames {e : Env} (h : BuffersFit e) (k : Nat) (ls : List Level) : Safe (appendFrames e k ls) := by
  induction k generalizing ls with
  | zero => exact safe_pure _
  | succ k ih =>
    refine safe_bind ?_ fun _ => ih _
    cases ls with
    | nil => exact safe_pure _
    | cons l ls => exact safe_bind (safe_writeFrame h l) fun _ => safe_bind (safe_writePyramid h _ _ _ _) fun _ => safe_pure _

theorem writeFrame_ok {e : Env} (h : BuffersFit e) (l : Level) (n : Nat) : ∃ n', writeFrame e l n = .ret { l with buffers := true } n' := by
  unfold writeFrame
  split
  next hb => exact ⟨n, by cases l; simp only at hb; rw [hb]; rfl⟩
  · refine ⟨n + l.dims.numberOfChunksInMemory, ?_⟩
    refine (bind_ret (a := ()) (n' := n + l.dims.numberOfChunksInMemory) ?_).trans rfl
    unfold makeBuffers noexcept
    rw [allocBuffers_ok h]

theorem writePyramid_ok {e : Env} (h : BuffersFit e) (hs : ∀ b n, e .scaledFrame b n = true) (t : DType) (ls : List Level) (w k n : Nat) : ∃ ls' n', writePyramid e t ls w k n = .ret ls' n' := by
  induction ls generalizing w k n with
  | nil => exact ⟨[], n, rfl⟩
  | cons l ls ih =>
    unfold writePyramid
    rw [bind_ret (a := ()) (n' := n + 1) (by rw [alloc, if_pos (hs _ n)])]
    split
    · obtain ⟨n1, h1⟩ := writeFrame_ok h l (n + 1)
      rw [bind_ret h1]
      obtain ⟨ls', n2, h2⟩ := ih ((w + w % 2) / 2) ((k + k % 2) / 2) n1
      rw [bind_ret h2]
      exact ⟨_, _, rfl⟩
    · exact ⟨_, _, rfl⟩

theorem appendFrames_ok {e : Env} (h : BuffersFit e) (hs : ∀ b n, e .scaledFrame b n = true) (k : Nat) (ls : List Level) (n : Nat) : ∃ ls' n', appendFrames e k ls n = .ret ls' n' := by
  induction k generalizing ls n with
  | zero => exact ⟨ls, n, rfl⟩
  | succ k ih =>
    have : ∃ ls' n', appendFrame e ls n = .ret ls' n' := by
      cases ls with
      | nil => exact ⟨[], n, rfl⟩
      | cons l ls =>
        obtain ⟨n1, h1⟩ := writeFrame_ok h l n
        obtain ⟨ls', n2, h2⟩ := writePyramid_ok h hs l.dims.dtype ls l.dims.width.arraySize l.dims.height.arraySize n1
        refine ⟨{ l with buffers := true } :: ls', n2, ?_⟩
        simp only [appendFrame]
        rw [bind_ret h1, bind_ret h2]
        rfl
    obtain ⟨ls', n', h'⟩ := this
    simp only [appendFrames]
    rw [bind_ret h']
    exact ih ls' n'

/-- **C89, the part that holds.** Creating a stream, and appending to one as long as the chunk buffers can be allocated, return: creating succeeds exactly if there is memory for the
frame buffer; appending succeeds if there is memory for the frames of the pyramid, and reports an error if there is none for the first. -/
theorem memory_reported_partial (e : Env) :
    (∀ D, create e D = if e .frameBuffer (bytesOfFrame D) 0 then .success else .error) ∧
    (BuffersFit e → ∀ k ls, append e k ls ≠ .terminated) ∧
    (BuffersFit e → (∀ b n, e .scaledFrame b n = true) → ∀ k ls, append e k ls = .success) ∧
    (BuffersFit e → (∀ b n, e .scaledFrame b n = false) → ∀ k l l' ls, append e (k + 1) (l :: l' :: ls) = .error) := by
  refine ⟨?_, ?_, ?_, ?_⟩
  · intro D
    unfold create catching alloc
    cases e .frameBuffer (bytesOfFrame D) 0 <;> simp
  · intro h k ls
    have := safe_appendFrames h k ls 0
    unfold append catching
    cases hr : appendFrames e k ls 0 with
    | ret _ _ => simp
    | threw _ => simp
    | terminated => exact absurd hr this
  · intro h hs k ls
    obtain ⟨ls', n', h'⟩ := appendFrames_ok h hs k ls 0
    unfold append catching
    rw [h']
  · intro h hs k l l' ls
    obtain ⟨n1, h1⟩ := writeFrame_ok h l 0
    have h2 : appendFrames e (k + 1) (l :: l' :: ls) 0 = .threw n1 := by
      simp only [appendFrames, appendFrame]
      refine bind_threw ?_
      rw [bind_ret h1]
      refine bind_threw ?_
      unfold writePyramid
      exact bind_threw (by rw [alloc, if_neg (by rw [hs _ n1]; exact nofun)])
    unfold append catching
    rw [h2]

/-- If a buffer of that size cannot be allocated, the loop throws at the latest at that one. -/
theorem allocBuffers_fails {e : Env} {b k : Nat} (hk : 0 < k) (h : ∀ n, e .chunkBuffer b n = false) (n : Nat) : allocBuffers e b k n = .threw n := by
  obtain ⟨k, rfl⟩ : ∃ k', k = k' + 1 := ⟨k - 1, by omega⟩
  simp only [allocBuffers]
  exact bind_threw (by rw [alloc, if_neg (by rw [h n]; exact nofun)])

/-- **C89 is violated by the code.** If a chunk does not fit into memory, the first append terminates the process: every stream, however many levels, frames, and whatever
else fits. -/
theorem chunk_buffers_terminate_violated {e : Env} {l : Level} (hl : l.buffers = false) (hc : 0 < l.dims.numberOfChunksInMemory)
    (h : ∀ n, e .chunkBuffer l.dims.bytesPerChunk n = false) (ls : List Level) (k : Nat) : append e (k + 1) (l :: ls) = .terminated := by
  have h0 : writeFrame e l 0 = .terminated := by
    unfold writeFrame
    rw [if_neg (by rw [hl]; exact nofun)]
    refine bind_terminated ?_
    unfold makeBuffers noexcept
    rw [allocBuffers_fails hc h]
  have h1 : appendFrames e (k + 1) (l :: ls) 0 = .terminated := by
    simp only [appendFrames, appendFrame]
    exact bind_terminated (bind_terminated h0)
  unfold append catching
  rw [h1]

/-- Memory of which no 30 bytes are left in one piece. -/
def tight : Env := fun _ b _ => b < 30

/-- A stream as the first append finds it, and its second level. -/
def fresh : Level := ⟨Sample.dims, false, false⟩

/-- Not vacuous: a chunk of the sample array has 48 bytes and there are chunks in memory; with enough memory appending succeeds, and if only the frames of the pyramid fail
it reports an error. -/
example : append tight 1 [fresh] = .terminated ∧ create tight Sample.dims = .error ∧
    append (fun _ _ _ => true) 3 [fresh, fresh] = .success ∧
    append (fun s _ _ => s == .chunkBuffer) 3 [fresh, fresh] = .error ∧
    fresh.buffers = false ∧ 0 < fresh.dims.numberOfChunksInMemory := by decide

example : append tight 5 [fresh, fresh] = .terminated :=
  chunk_buffers_terminate_violated rfl (by decide) (fun _ => rfl) _ _

end AZ.Memory
