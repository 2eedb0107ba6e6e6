import Verif.Lemmas.Dimension
import Verif.Lemmas.Frame

set_option linter.unusedSimpArgs false

/-! # The chunk lattice index

`chunk_lattice_index` gives the position, in the grid of chunks, of the chunk that holds a frame. -/

namespace AZ
open Spec

theorem unravel_digit (ss : List Nat) (f j : Nat) :
    (unravel ss (f % prod ss))[j]? = ss[j]?.map fun _ => f % prod (ss.drop j) / prod (ss.drop (j + 1)) := by
  induction ss generalizing j with
  | nil => simp [unravel]
  | cons x xs ih =>
    cases j with
    | zero => simp [unravel]
    | succ j =>
      rw [unravel, List.getElem?_cons_succ, List.getElem?_cons_succ]
      rw [prod_cons, Nat.mod_mul_left_mod, ih]
      simp

theorem gridOf_getElem (c x : List Nat) (j : Nat) : (gridOf c x)[j]? = match c[j]?, x[j]? with
    | some a, some b => some (b / a)
    | _, _ => none := by
  induction c generalizing x j with
  | nil => simp [gridOf]
  | cons a cs ih =>
    cases x with
    | nil => simp [gridOf]
    | cons b xs =>
      cases j with
      | zero => simp [gridOf]
      | succ j => simpa [gridOf] using ih xs j

/-- `chunk_lattice_index` for frame `f` and any dimension but the last two: the coordinate of the chunk that holds the frame,
provided a chunk holds fewer than 2^32 frames. -/
theorem chunkLatticeIndex_spec {D : ArrayDims} (hv : D.Valid) (hf : D.Room)
    (hs : D.append.chunkSize * prod (aShape D.inner) < 2 ^ 32) {f i : Nat} (hfl : f < 2 ^ 32) (hi : i < D.inner.length + 1) :
    ∃ k, D.chunkLatticeIndex f i = .ok k ∧
      (gridOf (cShape (D.append :: D.inner)) (unravel (0 :: aShape D.inner) f))[i]? = some k := by
  have hok : ∀ d ∈ D.inner, DimOk d := fun d hd => ArrayDims.dimOk hv hf d (by simp [ArrayDims.tailDims, hd])
  have hc0 : 0 < D.append.chunkSize := hv.append_chunk
  have hnd : D.ndims - 2 = D.inner.length + 1 := by
    simp [ArrayDims.ndims, ArrayDims.toList]
  have hposA : ∀ x ∈ D.inner, 0 < x.arraySize := fun x hx => (hok x hx).2.1
  have hpa : 0 < prod (aShape D.inner) := prod_pos (by
    intro y hy
    obtain ⟨z, hz, rfl⟩ := List.mem_map.1 hy
    exact hposA z hz)
  unfold ArrayDims.chunkLatticeIndex
  rw [hnd, decide_eq_true hi, check_true, Res.bind_ok]
  rw [gridOf_getElem]
  cases i with
  | zero =>
    rw [if_pos rfl]
    have e := foldl_u32_eq (fun d : Dim => d.arraySize) D.inner D.append.chunkSize hposA hs
    have hm : (D.inner.map fun d : Dim => d.arraySize) = aShape D.inner := rfl
    rw [hm] at e
    refine ⟨f / (D.append.chunkSize * prod (aShape D.inner)), ?_, ?_⟩
    · unfold ArrayDims.latticeIndexAppend
      dsimp only
      rw [e, decide_eq_true (by exact Nat.ne_of_gt (Nat.mul_pos hc0 hpa)), check_true, Res.bind_ok,
        u32_of_lt (Nat.lt_of_le_of_lt (Nat.div_le_self _ _) hfl)]
      rfl
    · simp only [cShape, List.map_cons, unravel, List.getElem?_cons_zero]
      rw [Nat.mul_comm, Nat.div_div_eq_div_mul]
  | succ j =>
    rw [if_neg (by omega)]
    have hj : j < D.inner.length := by omega
    have hdrop : D.inner.drop j = D.inner[j] :: D.inner.drop (j + 1) := List.drop_eq_getElem_cons hj
    have hle : prod (aShape (D.inner.drop j)) ≤ prod (aShape D.inner) := by
      conv => rhs; rw [← List.take_append_drop j D.inner]
      rw [aShape_append, prod_append]
      refine Nat.le_mul_of_pos_left _ (prod_pos ?_)
      intro y hy
      obtain ⟨z, hz, rfl⟩ := List.mem_map.1 hy
      exact hposA z (List.mem_of_mem_take hz)
    have h32 : prod (aShape D.inner) < 2 ^ 32 := Nat.lt_of_le_of_lt (Nat.le_mul_of_pos_left _ hc0) hs
    have hokd : ∀ x ∈ D.inner[j] :: D.inner.drop (j + 1), DimOk x := by
      rw [← hdrop]; exact fun x hx => hok x (List.mem_of_mem_drop hx)
    obtain ⟨g1, g2, g3⟩ := hokd D.inner[j] (List.mem_cons_self)
    have hA : prod (aShape (D.inner[j] :: D.inner.drop (j + 1))) < 2 ^ 64 := by
      rw [← hdrop]; omega
    have hr : prod (aShape (D.inner.drop (j + 1))) < 2 ^ 32 := by
      refine Nat.lt_of_le_of_lt (Nat.le_trans ?_ hle) h32
      rw [hdrop, aShape_cons, prod_cons]
      exact Nat.le_mul_of_pos_left _ g2
    have hC : D.inner[j].chunkSize * prod (aShape (D.inner.drop (j + 1))) < 2 ^ 64 := by
      have h1 : D.inner[j].chunkSize ≤ 2 ^ 32 := by omega
      calc _ ≤ 2 ^ 32 * prod (aShape (D.inner.drop (j + 1))) := Nat.mul_le_mul_right _ h1
        _ < 2 ^ 32 * 2 ^ 32 := Nat.mul_lt_mul_of_pos_left hr (by norm_num)
        _ = _ := by norm_num
    have e := foldl_u64_eq (fun d : Dim => d.arraySize) (D.inner.drop j) 1 (fun x hx => hposA x (List.mem_of_mem_drop hx))
      (by rw [Nat.one_mul]; show prod (aShape _) < _; rw [hdrop]; exact hA)
    refine ⟨f / prod (aShape (D.inner.drop (j + 1))) % D.inner[j].arraySize / D.inner[j].chunkSize, ?_, ?_⟩
    · dsimp only
      have hdiv : ArrayDims.latticeDivisor (D.inner.drop j) ≠ 0 := by
        rw [hdrop, latticeDivisor_eq hokd hC]
        refine Nat.ne_of_gt (Nat.mul_pos (by omega) (prod_pos ?_))
        intro y hy
        obtain ⟨z, hz, rfl⟩ := List.mem_map.1 hy
        exact hposA z (List.mem_of_mem_drop hz)
      rw [Nat.add_sub_cancel, e, decide_eq_true, check_true, Res.bind_ok, decide_eq_true hdiv, check_true, Res.bind_ok, hdrop,
        latticeIndexInner_eq hokd hA hC]
      · rfl
      · rw [Nat.one_mul]
        refine Nat.ne_of_gt (prod_pos ?_)
        intro y hy
        obtain ⟨z, hz, rfl⟩ := List.mem_map.1 hy
        exact hposA z (List.mem_of_mem_drop hz)
    · simp only [cShape, List.map_cons, unravel, List.getElem?_cons_succ]
      rw [unravel_digit]
      have hgc : (D.inner.map fun d => d.chunkSize)[j]? = some D.inner[j].chunkSize := by simp [hj]
      have hga : (aShape D.inner)[j]? = some D.inner[j].arraySize := by simp [aShape, hj]
      rw [hgc, hga]
      simp only [Option.map_some]
      have d1 : (aShape D.inner).drop j = D.inner[j].arraySize :: aShape (D.inner.drop (j + 1)) := by
        show (D.inner.map _).drop j = _
        rw [← List.map_drop, hdrop]; rfl
      have d2 : (aShape D.inner).drop (j + 1) = aShape (D.inner.drop (j + 1)) := by
        show (D.inner.map _).drop _ = _
        rw [← List.map_drop]; rfl
      rw [d1, d2, prod_cons, Nat.mod_mul_left_div_self]

end AZ
