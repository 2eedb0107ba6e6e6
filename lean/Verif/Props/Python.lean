import Verif.Spec.Numpy
import Mathlib.Data.List.Basic

/-! # C46, C47, C52: the Python binding -/

set_option linter.unusedSimpArgs false

namespace AZ.Py
open Spec

/-! ### C46 -/

theorem bytesAt_add (mem : Int → UInt8) (a : Int) (m n : Nat) :
    bytesAt mem a (m + n) = bytesAt mem a m ++ bytesAt mem (a + (m : Int)) n := by
  unfold bytesAt
  rw [List.range_add, List.map_append, List.map_map]
  congr 1
  apply List.map_congr_left
  intro k _
  show mem _ = mem _
  congr 1
  simp only [Int.natCast_add]
  omega

theorem bytesAt_blocks (mem : Int → UInt8) (a : Int) (m n : Nat) :
    (List.range n).flatMap (fun (i : Nat) => bytesAt mem (a + (i : Int) * (m : Int)) m) = bytesAt mem a (m * n) := by
  induction n with
  | zero => simp [bytesAt]
  | succ n ih =>
    rw [List.range_succ, List.flatMap_append, ih, Nat.mul_succ, bytesAt_add, List.flatMap_singleton]
    congr 2
    rw [Int.natCast_mul, Int.mul_comm]

theorem contiguous_bytes (mem : Int → UInt8) (itemsize : Nat) (axes : List (Nat × Int)) (h : CContiguous itemsize axes)
    (a : Int) : (cOrder axes a).flatMap (fun x => bytesAt mem x itemsize) =
      bytesAt mem a (itemsize * (axes.map (·.1)).prod) := by
  induction axes generalizing a with
  | nil => simp [cOrder]
  | cons d axes ih =>
    obtain ⟨n, stride⟩ := d
    obtain ⟨h1, h2⟩ := h
    rw [cOrder, List.flatMap_assoc]
    have : (fun i : Nat => (cOrder axes (a + (i : Int) * stride)).flatMap fun x => bytesAt mem x itemsize) =
        fun i : Nat => bytesAt mem (a + (i : Int) * ((itemsize * (axes.map (·.1)).prod : Nat) : Int))
          (itemsize * (axes.map (·.1)).prod) := by
      funext i
      rw [ih h2, h1]
    rw [this, bytesAt_blocks, List.map_cons, List.prod_cons]
    congr 1
    rw [Nat.mul_comm, Nat.mul_left_comm]

/-- **C46** for C-contiguous arrays: any shape, item size and memory contents; what is appended are the elements in
C order. Missing for the full property: other memory layouts, for which it is false (`python_append_violated`). -/
theorem python_append_partial (a : Py.Array) (h : CContiguous a.itemsize a.axes) : appendBytes a = tobytes a :=
  (contiguous_bytes a.mem a.itemsize a.axes h a.ptr).symm

/-- Both sides of C46 for the layout conditions of the axes, one axis at a time. -/
def Dense (itemsize : Nat) : List (Nat × Int) → Prop
  | [] => True
  | (n, stride) :: axes => (n ≠ 1 → stride = (itemsize * (axes.map (·.1)).prod : Nat)) ∧ Dense itemsize axes

theorem dense_iff (itemsize : Nat) (axes : List (Nat × Int)) : Dense itemsize axes ↔
    ∀ (before : List (Nat × Int)) (n : Nat) (stride : Int) (after : List (Nat × Int)), axes = before ++ (n, stride) :: after → n ≠ 1 →
      stride = (itemsize * (after.map (·.1)).prod : Nat) := by
  induction axes with
  | nil => simp [Dense]
  | cons d axes ih =>
    obtain ⟨m, t⟩ := d
    rw [Dense, ih]
    constructor
    · rintro ⟨h1, h2⟩ before n stride after e hn
      cases before with
      | nil =>
        simp only [List.nil_append, List.cons.injEq, Prod.mk.injEq] at e
        obtain ⟨⟨rfl, rfl⟩, rfl⟩ := e
        exact h1 hn
      | cons b before =>
        simp only [List.cons_append, List.cons.injEq] at e
        exact h2 before n stride after e.2 hn
    · intro h
      exact ⟨fun hm => h [] m t axes rfl hm,
        fun before n stride after e hn => h ((m, t) :: before) n stride after (by rw [e]; rfl) hn⟩

theorem dense_bytes (mem : Int → UInt8) (itemsize : Nat) (axes : List (Nat × Int)) (h : Dense itemsize axes)
    (a : Int) : (cOrder axes a).flatMap (fun x => bytesAt mem x itemsize) =
      bytesAt mem a (itemsize * (axes.map (·.1)).prod) := by
  induction axes generalizing a with
  | nil => simp [cOrder]
  | cons d axes ih =>
    obtain ⟨n, stride⟩ := d
    obtain ⟨h1, h2⟩ := h
    rw [cOrder, List.flatMap_assoc]
    by_cases hn : n = 1
    · subst hn
      simp [ih h2]
    have : (fun i : Nat => (cOrder axes (a + (i : Int) * stride)).flatMap fun x => bytesAt mem x itemsize) =
        fun i : Nat => bytesAt mem (a + (i : Int) * ((itemsize * (axes.map (·.1)).prod : Nat) : Int))
          (itemsize * (axes.map (·.1)).prod) := by
      funext i
      rw [ih h2, h1 hn]
    rw [this, bytesAt_blocks, List.map_cons, List.prod_cons]
    congr 1
    rw [Nat.mul_comm, Nat.mul_left_comm]

theorem cOrder_head (axes : List (Nat × Int)) (h : ∀ d ∈ axes, d.1 ≠ 0) (a : Int) : ∃ r, cOrder axes a = a :: r := by
  induction axes generalizing a with
  | nil => exact ⟨[], rfl⟩
  | cons d axes ih =>
    obtain ⟨n, stride⟩ := d
    obtain ⟨m, rfl⟩ : ∃ m, n = m + 1 := ⟨n - 1, by have := h (n, stride) (by simp); simp only at this; omega⟩
    obtain ⟨r, hr⟩ := ih (fun d hd => h d (by simp [hd])) a
    rw [cOrder, List.range_succ_eq_map, List.flatMap_cons]
    simp only [Int.natCast_zero, Int.zero_mul, Int.add_zero, hr]
    exact ⟨_, rfl⟩

theorem cOrder_length (axes : List (Nat × Int)) (a : Int) : (cOrder axes a).length = (axes.map (·.1)).prod := by
  induction axes generalizing a with
  | nil => rfl
  | cons d axes ih =>
    obtain ⟨n, stride⟩ := d
    rw [cOrder, List.length_flatMap]
    simp [ih]

theorem bytes_length (mem : Int → UInt8) (itemsize : Nat) (l : List Int) :
    (l.flatMap fun x => bytesAt mem x itemsize).length = itemsize * l.length := by
  induction l with
  | nil => simp
  | cons x l ih => simp [List.flatMap_cons, ih, bytesAt, Nat.mul_succ, Nat.add_comm, Nat.mul_comm]

theorem dense_of_bytes (itemsize : Nat) (hi : 0 < itemsize) (axes : List (Nat × Int)) (h : ∀ d ∈ axes, d.1 ≠ 0) (a : Int)
    (e : ∀ mem : Int → UInt8, (cOrder axes a).flatMap (fun x => bytesAt mem x itemsize) =
      bytesAt mem a (itemsize * (axes.map (·.1)).prod)) : Dense itemsize axes := by
  induction axes generalizing a with
  | nil => trivial
  | cons d axes ih =>
    obtain ⟨n, stride⟩ := d
    have h' : ∀ d ∈ axes, d.1 ≠ 0 := fun d hd => h d (by simp [hd])
    obtain ⟨m, rfl⟩ : ∃ m, n = m + 1 := ⟨n - 1, by have := h (n, stride) (by simp); simp only at this; omega⟩
    have hP : 0 < itemsize * (axes.map (·.1)).prod := by
      obtain ⟨r, hr⟩ := cOrder_head axes h' 0
      have := cOrder_length axes 0
      rw [hr] at this
      simp only [List.length_cons] at this
      exact Nat.mul_pos hi (by omega)
    have e' : ∀ mem : Int → UInt8, (cOrder axes a).flatMap (fun x => bytesAt mem x itemsize) =
          bytesAt mem a (itemsize * (axes.map (·.1)).prod) ∧
        ((List.range m).flatMap fun (i : Nat) => cOrder axes (a + ((i + 1 : Nat) : Int) * stride)).flatMap
            (fun x => bytesAt mem x itemsize) =
          bytesAt mem (a + ((itemsize * (axes.map (·.1)).prod : Nat) : Int)) (itemsize * (axes.map (·.1)).prod * m) := by
      intro mem
      have := e mem
      rw [cOrder, List.range_succ_eq_map, List.flatMap_cons, List.flatMap_append, List.map_cons, List.prod_cons,
        show itemsize * ((m + 1) * (axes.map (·.1)).prod) =
          itemsize * (axes.map (·.1)).prod + itemsize * (axes.map (·.1)).prod * m by
            rw [Nat.add_mul, Nat.mul_add, Nat.one_mul, Nat.add_comm, Nat.mul_comm m, Nat.mul_assoc],
        bytesAt_add] at this
      obtain ⟨h1, h2⟩ := List.append_inj this (by
        rw [bytes_length, cOrder_length, bytesAt, List.length_map, List.length_range])
      rw [List.flatMap_map] at h2
      simp only [Int.natCast_zero, Int.zero_mul, Int.add_zero] at h1
      exact ⟨h1, h2⟩
    refine ⟨fun hm => ?_, ih h' a fun mem => (e' mem).1⟩
    obtain ⟨k, rfl⟩ : ∃ k, m = k + 1 := ⟨m - 1, by omega⟩
    obtain ⟨r, hr⟩ := cOrder_head axes h' (a + stride)
    have h2 := (e' fun x => if x = a + stride then 1 else 0).2
    generalize hQ : itemsize * (axes.map (·.1)).prod = P at h2 hP ⊢
    obtain ⟨i, rfl⟩ : ∃ i, itemsize = i + 1 := ⟨itemsize - 1, by omega⟩
    obtain ⟨q, rfl⟩ : ∃ q, P = q + 1 := ⟨P - 1, by omega⟩
    rw [List.range_succ_eq_map, List.flatMap_cons] at h2
    simp only [Nat.zero_add, Int.natCast_one, Int.one_mul, hr, List.cons_append, List.flatMap_cons, bytesAt,
      List.range_succ_eq_map, List.map_cons, Int.natCast_zero, Int.add_zero, if_true, Nat.mul_succ,
      ← Nat.add_assoc] at h2
    have h3 := (List.cons.inj h2).1
    split at h3
    · omega
    · exact absurd h3 (by decide)

/-- **C46, exactly.** For every start address, item size and axes: the binding appends the elements in C order whatever
the memory contains, if and only if numpy calls the layout C-contiguous. (For other layouts there is memory for which
the bytes stored are not the array.) -/
theorem python_append_exact_partial (ptr : Int) (itemsize : Nat) (hi : 0 < itemsize) (axes : List (Nat × Int)) :
    (∀ mem, appendBytes ⟨mem, ptr, itemsize, axes⟩ = tobytes ⟨mem, ptr, itemsize, axes⟩) ↔
      NumpyContiguous itemsize axes := by
  unfold NumpyContiguous
  rw [← dense_iff]
  by_cases h0 : ∃ d ∈ axes, d.1 = 0
  · refine iff_of_true (fun mem => ?_) (Or.inl h0)
    have hp : (axes.map (·.1)).prod = 0 := by
      obtain ⟨d, hd, hd0⟩ := h0
      clear hi
      induction axes with
      | nil => simp at hd
      | cons b axes ih =>
        rw [List.map_cons, List.prod_cons]
        rcases List.mem_cons.mp hd with rfl | hd
        · rw [hd0, Nat.zero_mul]
        · rw [ih hd, Nat.mul_zero]
    have hl : cOrder axes ptr = [] := List.length_eq_zero_iff.mp (by rw [cOrder_length, hp])
    simp [appendBytes, tobytes, Array.size, hp, hl, bytesAt]
  · have h : ∀ d ∈ axes, d.1 ≠ 0 := fun d hd e => h0 ⟨d, hd, e⟩
    constructor
    · intro e
      exact Or.inr (dense_of_bytes itemsize hi axes h ptr fun mem => (e mem).symm)
    · rintro (hz | hd) mem
      · exact absurd hz h0
      · exact (dense_bytes mem itemsize axes hd ptr).symm

/-- Both cases occur: one frame of a C-contiguous stack (an axis of size one with any stride) is appended as it is; every
second column of a row-major image is not. -/
example : NumpyContiguous 2 [(1, 4096), (2, 6), (3, 2)] ∧ ¬NumpyContiguous 1 [(2, 6), (3, 2)] := by
  unfold NumpyContiguous
  rw [← dense_iff, ← dense_iff]
  constructor
  · right; simp [Dense]
  · simp [Dense]

/-- A C-contiguous array of 2 x 3 16-bit elements. -/
def Sample.plain : Py.Array := ⟨fun a => UInt8.ofNat a.toNat, 100, 2, [(2, 6), (3, 2)]⟩

example : CContiguous Sample.plain.itemsize Sample.plain.axes ∧
    tobytes Sample.plain = [100, 101, 102, 103, 104, 105, 106, 107, 108, 109, 110, 111] := by
  refine ⟨by simp [CContiguous, Sample.plain], by decide⟩

/-- The transpose of a 2 x 2 array of bytes `[[0, 1], [2, 3]]`. -/
def Sample.transposed : Py.Array := ⟨fun a => UInt8.ofNat a.toNat, 0, 1, [(2, 1), (2, 2)]⟩

/-- **C46 is violated** by a transposed array: the logical array is `[[0, 2], [1, 3]]`, the bytes appended are
0, 1, 2, 3. -/
theorem python_append_violated : tobytes Sample.transposed = [0, 2, 1, 3] ∧ appendBytes Sample.transposed = [0, 1, 2, 3] := by
  decide

/-- **C46 is violated** by every reversed one-dimensional view of at least two bytes: memory after the first element
(beyond the array) is appended instead of the array. -/
theorem python_append_reversed_violated (mem : Int → UInt8) (n : Nat) (hn : 2 ≤ n) (h : mem 1 ≠ mem (-1)) :
    appendBytes ⟨mem, 0, 1, [(n, -1)]⟩ ≠ tobytes ⟨mem, 0, 1, [(n, -1)]⟩ := by
  intro e
  obtain ⟨k, rfl⟩ : ∃ k, n = 2 + k := ⟨n - 2, by omega⟩
  have e1 := congrArg (·[1]?) e
  simp only [appendBytes, tobytes, Array.size, bytesAt, cOrder, List.map_cons, List.map_nil, List.prod_cons,
    List.prod_nil, Nat.mul_one, Nat.one_mul] at e1
  rw [List.range_add] at e1
  simp [List.flatMap_singleton', List.range_succ] at e1
  exact h e1

/-! ### C47 -/

/-- **C47.** The representation of S3 settings is a function of the other fields, the first five characters of the
secret, and of whether the secret is longer than five characters: two secrets that agree in this are shown alike. -/
theorem repr_hides_secret (s : S3) (a b : Text) (h : a.take 5 = b.take 5) (hl : 5 < a.length ↔ 5 < b.length) :
    S3.repr { s with secretAccessKey := a } = S3.repr { s with secretAccessKey := b } := by
  unfold S3.repr shownSecret
  dsimp only
  congr 2
  by_cases ha : a.length < 6
  · have hb : b.length < 6 := by omega
    rw [if_pos ha, if_pos hb]
    rw [List.take_of_length_le (by omega), List.take_of_length_le (by omega)] at h
    exact h
  · rw [if_neg ha, if_neg (by omega), h]

/-- **C47.** The same for stream settings that contain S3 settings. -/
theorem settings_repr_hides_secret (t : Settings) (s : S3) (a b : Text) (h : a.take 5 = b.take 5)
    (hl : 5 < a.length ↔ 5 < b.length) :
    Settings.repr { t with s3 := some { s with secretAccessKey := a } } =
    Settings.repr { t with s3 := some { s with secretAccessKey := b } } := by
  unfold Settings.repr
  dsimp only
  rw [repr_hides_secret s a b h hl]

/-- **C47.** The part of the representation that stands for the secret consists of at most its first five characters,
and an ellipsis. -/
theorem shown_secret (s : Text) : shownSecret s = s.take 5 ∨ shownSecret s = s.take 5 ++ "...".toList := by
  unfold shownSecret
  split
  · left
    rw [List.take_of_length_le (by omega)]
  · right
    rfl

example : S3.repr ⟨"e".toList, "b".toList, "k".toList, "secret123".toList⟩ =
    "S3Settings(endpoint='e', bucket_name='b', access_key_id='k', secret_access_key='secre...')".toList := by
  decide +kernel

/-! ### C52 -/

theorem cStr_id {s : Text} (h : Char.ofNat 0 ∉ s) : cStr s = s := by
  unfold cStr
  induction s with
  | nil => rfl
  | cons c s ih =>
    rw [List.mem_cons, not_or] at h
    rw [List.takeWhile_cons_of_pos (by simpa using fun e => h.1 e.symm), ih h.2]

/-- Python strings of the settings, none of which contains a NUL character. -/
def NoNul (s : Settings) : Prop :=
  Char.ofNat 0 ∉ s.storePath ∧ (∀ m, s.customMetadata = some m → Char.ofNat 0 ∉ m) ∧
  (∀ x, s.s3 = some x → Char.ofNat 0 ∉ x.endpoint ∧ Char.ofNat 0 ∉ x.bucketName ∧ Char.ofNat 0 ∉ x.accessKeyId ∧
    Char.ofNat 0 ∉ x.secretAccessKey) ∧
  ∀ d ∈ s.dimensions, Char.ofNat 0 ∉ d.name

/-- **C52.** A Python stream is created with exactly the settings given: every field of the C settings equals the
Python one, `None` becomes NULL. -/
theorem python_settings_exact_partial (s : Settings) (h : NoNul s) :
    (toC s).storePath = some s.storePath ∧ (toC s).customMetadata = s.customMetadata ∧
    (toC s).s3 = (s.s3.map fun x => ⟨some x.endpoint, some x.bucketName, some x.accessKeyId, some x.secretAccessKey⟩) ∧
    (toC s).compression = (s.compression.map fun c => ⟨c.compressor, c.codec, c.level, c.shuffle⟩) ∧
    ((toC s).dimensions.getD []) =
      (s.dimensions.map fun d => ⟨some d.name, d.kind, d.arraySize, d.chunkSize, d.shardSize⟩) ∧
    (toC s).multiscale = s.multiscale ∧ (toC s).dataType = s.dataType ∧ (toC s).version = s.version := by
  obtain ⟨h1, h2, h3, h4⟩ := h
  refine ⟨?_, ?_, ?_, rfl, ?_, rfl, rfl, rfl⟩
  · show some (cStr _) = _
    rw [cStr_id h1]
  · show s.customMetadata.map cStr = _
    cases hm : s.customMetadata with
    | none => rfl
    | some m => rw [Option.map_some, cStr_id (h2 m hm)]
  · show s.s3.map _ = s.s3.map _
    cases hx : s.s3 with
    | none => rfl
    | some x =>
      obtain ⟨a, b, c, d⟩ := h3 x hx
      rw [Option.map_some, Option.map_some, cStr_id a, cStr_id b, cStr_id c, cStr_id d]
  · show (if s.dimensions.isEmpty then none else some _).getD [] = _
    split
    · rename_i he
      rw [List.isEmpty_iff.1 he]
      rfl
    · rw [Option.getD_some]
      apply List.map_congr_left
      intro d hd
      rw [cStr_id (h4 d hd)]

/-- Without dimensions the C settings carry a NULL dimension array. -/
theorem python_no_dimensions (s : Settings) (h : s.dimensions = []) : (toC s).dimensions = none := by
  show (if s.dimensions.isEmpty then none else some _) = none
  rw [h]
  rfl

def Sample.settings : Settings :=
  ⟨"/tmp/a".toList, some "{}".toList, none, some ⟨1, 1, 3, 1⟩, [⟨"t".toList, 2, 0, 5, 1⟩, ⟨"y".toList, 0, 48, 16, 1⟩,
    ⟨"x".toList, 0, 64, 16, 1⟩], false, 1, 2⟩

example : NoNul Sample.settings := by
  refine ⟨by decide, ?_, ?_, by decide⟩
  · intro m hm
    cases hm
    decide
  · intro x hx
    cases hx

/-- A NUL character in a string cuts it short, so the data set is stored elsewhere. -/
theorem python_nul_violated (a b : Text) (ha : Char.ofNat 0 ∉ a) (t : Settings) :
    (toC { t with storePath := a ++ Char.ofNat 0 :: b }).storePath = some a := by
  show some (cStr _) = _
  congr 1
  unfold cStr
  rw [List.takeWhile_append_of_pos]
  · rw [List.takeWhile_cons_of_neg (by simp), List.append_nil]
  · intro c hc
    simp only [decide_eq_true_eq, ne_eq]
    rintro rfl
    exact ha hc

end AZ.Py
