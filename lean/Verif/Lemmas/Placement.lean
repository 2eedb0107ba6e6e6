import Verif.Lemmas.ReadV2
import Verif.Spec.Place

/-! # Pointwise effect of writing one frame -/

namespace AZ
open Spec ArrayDims

variable {D : ArrayDims}

/-- Effect at a decomposed position. -/
theorem write_cell (hv : D.Valid) (hf : D.Room) (f : Nat) {data : Bytes} {bufs : List Bytes}
    (hd : data.length = D.frameBytes) (hs : Sized D bufs) {c b : Nat} (k : Cell D c b) :
    byteAt (applyOps data (D.frameOps f) bufs) c b =
      if InBounds (aShape D.inner) (globalCoord (cShape D.inner) k.l k.o) ∧
          f = D.frameIndex (f / D.framesPerChunk * D.append.chunkSize + k.o0)
            (globalCoord (cShape D.inner) k.l k.o) ∧
          k.ly * D.height.chunkSize + k.oy < D.height.arraySize ∧
          k.lx * D.width.chunkSize + k.ox < D.width.arraySize
      then data[((k.ly * D.height.chunkSize + k.oy) * D.width.arraySize +
        (k.lx * D.width.chunkSize + k.ox)) * D.dtype.bytes + k.s]?
      else byteAt bufs c b := by
  have h := frameOps_byteAt hv hf f hd hs (L := ravel (nShape D.inner) k.l)
    (R := k.o0 * prod (cShape D.inner) + ravel (cShape D.inner) k.o) k.hly k.hlx k.hoy k.hox k.hs
  rw [← k.hc, ← k.hb] at h
  rw [h]
  have hp := placement_iff hv hf (n := f) rfl k.hl k.ho k.ho0
  congr 1
  rw [← and_assoc, hp, and_assoc]

theorem coordOf_tail_inBounds {tail : List Nat} {item B : Nat} (hp : ∀ a ∈ tail, 0 < a) :
    InBounds tail (coordOf tail item B).tail := by
  unfold coordOf
  simp only [unravel, List.tail_cons]
  exact unravel_inBounds (Nat.mod_lt _ (prod_pos hp))

theorem ravel_coordOf {tail : List Nat} {item B : Nat} (hp : ∀ a ∈ tail, 0 < a) :
    ravel (0 :: tail) (coordOf tail item B) = B / item := by
  unfold coordOf
  simp only [unravel, ravel]
  rw [ravel_unravel (Nat.mod_lt _ (prod_pos hp)), Nat.mul_comm]
  exact Nat.div_add_mod _ _

theorem ravel_head_irrel (a b : Nat) (ss x : List Nat) : ravel (a :: ss) x = ravel (b :: ss) x := by
  cases x <;> rfl

/-- Different acquired bytes have different places. -/
theorem place_inj {tail chunks : List Nat} {item : Nat} (hi : 0 < item) (ht : ∀ a ∈ tail, 0 < a)
    (hc : ∀ c ∈ chunks, 0 < c) (hl : chunks.length = tail.length + 1) {B B' : Nat}
    (h : place tail chunks item B = place tail chunks item B') : B = B' := by
  obtain ⟨c0, cs, rfl⟩ : ∃ c0 cs, chunks = c0 :: cs := by
    cases chunks with
    | nil => simp at hl
    | cons c0 cs => exact ⟨c0, cs, rfl⟩
  simp only [List.length_cons, Nat.add_right_cancel_iff] at hl
  have hcs : ∀ c ∈ cs, 0 < c := fun c h => hc c (List.mem_cons_of_mem _ h)
  have hb := coordOf_tail_inBounds (item := item) (B := B) ht
  have hb' := coordOf_tail_inBounds (item := item) (B := B') ht
  have hr := ravel_coordOf (item := item) (B := B) ht
  have hr' := ravel_coordOf (item := item) (B := B') ht
  have hlen : (coordOf tail item B).length = (c0 :: cs).length := by
    have := hb.length
    unfold coordOf at *
    simp only [unravel, List.tail_cons, List.length_cons] at *
    omega
  have hlen' : (coordOf tail item B').length = (c0 :: cs).length := by
    have := hb'.length
    unfold coordOf at *
    simp only [unravel, List.tail_cons, List.length_cons] at *
    omega
  unfold place at h
  simp only [List.headD_cons, List.tail_cons, Prod.mk.injEq] at h
  obtain ⟨h1, h2, h3⟩ := h
  have g := ravel_inj (gridOf_inBounds hcs hl hb) (gridOf_inBounds hcs hl hb') h2
  obtain ⟨w, hs⟩ := digit_eq (Nat.mod_lt B hi) (Nat.mod_lt B' hi) h3
  have w := ravel_inj (withinOf_inBounds hc hlen) (withinOf_inBounds hc hlen') w
  have gg : gridOf (c0 :: cs) (coordOf tail item B) = gridOf (c0 :: cs) (coordOf tail item B') := by
    generalize coordOf tail item B = x at *
    generalize coordOf tail item B' = x' at *
    cases x with
    | nil => simp at hlen
    | cons a x => cases x' with
      | nil => simp at hlen'
      | cons a' x' =>
        simp only [List.headD_cons, List.tail_cons] at h1 g
        simp only [gridOf, h1, g]
  have hx : coordOf tail item B = coordOf tail item B' := by
    rw [← globalCoord_grid_within hlen, gg, w, globalCoord_grid_within hlen']
  rw [hx, hr'] at hr
  rw [← Nat.div_add_mod B item, ← Nat.div_add_mod B' item, hr, hs]

/-- The two directions of the correspondence between storage positions and acquired bytes. -/
theorem cell_place (hv : D.Valid) (hf : D.Room) {f q : Nat} (hq : q < D.frameBytes) :
    ∃ c b, c < D.chunkCount ∧ b < D.chunkBytes ∧
      place (aShape D.tailDims) (cShape D.toList) D.dtype.bytes (f * D.frameBytes + q) =
        (f / D.framesPerChunk, c, b) ∧
      ∀ k : Cell D c b, InBounds (aShape D.inner) (globalCoord (cShape D.inner) k.l k.o) ∧
          f = D.frameIndex (f / D.framesPerChunk * D.append.chunkSize + k.o0)
            (globalCoord (cShape D.inner) k.l k.o) ∧
          k.ly * D.height.chunkSize + k.oy < D.height.arraySize ∧
          k.lx * D.width.chunkSize + k.ox < D.width.arraySize ∧
          ((k.ly * D.height.chunkSize + k.oy) * D.width.arraySize +
            (k.lx * D.width.chunkSize + k.ox)) * D.dtype.bytes + k.s = q := by
  have hi := dtype_pos D
  have hF := frameBytes_pos hv hf
  have hFB := framesPerChunk_pos hv hf
  have ht : ∀ a ∈ aShape D.tailDims, 0 < a := by
    intro a ha
    obtain ⟨d, hd, rfl⟩ := List.mem_map.1 ha
    exact hv.tail_array d hd
  have hcp : ∀ c ∈ cShape D.tailDims, 0 < c := by
    intro c hc
    obtain ⟨d, hd, rfl⟩ := List.mem_map.1 hc
    exact hv.tail_chunk d hd
  have hcs : cShape D.toList = D.append.chunkSize :: cShape D.tailDims := rfl
  generalize hB : f * D.frameBytes + q = B
  have hb := coordOf_tail_inBounds (item := D.dtype.bytes) (B := B) ht
  have hr := ravel_coordOf (item := D.dtype.bytes) (B := B) ht
  obtain ⟨t, r, hx⟩ : ∃ t r, coordOf (aShape D.tailDims) D.dtype.bytes B = t :: r := by
    unfold coordOf; simp only [unravel]; exact ⟨_, _, rfl⟩
  unfold place
  rw [hx] at hb hr ⊢
  simp only [List.tail_cons, List.headD_cons, hcs] at hb hr ⊢
  have ha : aShape D.tailDims = aShape D.inner ++ [D.height.arraySize, D.width.arraySize] := by
    simp [tailDims, aShape_append]
  have hbl := hb.length
  have hb0 := hb
  rw [ha] at hb
  obtain ⟨i, y, x, rfl, hi', hy, hxx⟩ := inBounds_split2 hb
  have hil : i.length = D.inner.length := by simpa using hi'.length
  -- frame number and byte in the frame
  have hlin := ravel_coord D t y x (i := i) hil
  rw [hr] at hlin
  have hdm := Nat.div_add_mod B D.dtype.bytes
  have hmod := Nat.mod_lt B hi
  have hpix := pixel_lt hv hf hy hxx hmod
  have hBe : B = D.frameIndex t i * D.frameBytes +
      ((y * D.width.arraySize + x) * D.dtype.bytes + B % D.dtype.bytes) := by
    rw [Nat.mul_comm] at hdm
    omega
  obtain ⟨hfe, hqe⟩ := digit_eq hq hpix (hB.trans hBe)
  have hz := zipWith_ceilDiv D.tailDims
  rw [hz]
  have hgb : InBounds (nShape D.tailDims) (gridOf (cShape D.tailDims) (i ++ [y, x])) := by
    rw [← hz]
    exact gridOf_inBounds hcp (by simp) hb0
  have hwl : (t :: (i ++ [y, x])).length = (cShape D.toList).length := by
    rw [hcs]; simp at hbl ⊢; omega
  have hwb : InBounds (cShape D.toList) (withinOf (cShape D.toList) (t :: (i ++ [y, x]))) :=
    withinOf_inBounds (by
      intro c hc
      rw [hcs] at hc
      rcases List.mem_cons.1 hc with rfl | hc
      · exact hv.append_chunk
      · exact hcp c hc) hwl
  have hgrp : t / D.append.chunkSize = f / D.framesPerChunk := by
    rw [hfe]
    unfold frameIndex framesPerChunk
    rw [Nat.mul_comm D.append.chunkSize, ← Nat.div_div_eq_div_mul, Nat.mul_comm t,
      Nat.mul_add_div (by have := ravel_lt hi'; omega), Nat.div_eq_of_lt (ravel_lt hi'), Nat.add_zero]
  refine ⟨_, _, ravel_lt hgb, ?_, by rw [hgrp], ?_⟩
  · rw [← hcs]
    unfold ArrayDims.chunkBytes
    have := ravel_lt hwb
    calc _ < ravel (cShape D.toList) (withinOf (cShape D.toList) (t :: (i ++ [y, x]))) * D.dtype.bytes
          + D.dtype.bytes := by omega
      _ = (ravel (cShape D.toList) (withinOf (cShape D.toList) (t :: (i ++ [y, x]))) + 1) * D.dtype.bytes := by ring
      _ ≤ _ := Nat.mul_le_mul_right _ this
  · intro k
    have e1 := k.hun
    rw [unravel_ravel hgb] at e1
    have e2 := k.huo
    have aux : (ravel (D.append.chunkSize :: cShape D.tailDims)
        (withinOf (D.append.chunkSize :: cShape D.tailDims) (t :: (i ++ [y, x]))) * D.dtype.bytes +
        B % D.dtype.bytes) / D.dtype.bytes = ravel (cShape D.toList)
        (withinOf (cShape D.toList) (t :: (i ++ [y, x]))) := by
      rw [Nat.mul_comm _ D.dtype.bytes, Nat.mul_add_div hi, Nat.div_eq_of_lt hmod, Nat.add_zero]
      rfl
    rw [aux, unravel_ravel hwb] at e2
    have e3 := k.hsm
    have aux2 : (ravel (D.append.chunkSize :: cShape D.tailDims)
        (withinOf (D.append.chunkSize :: cShape D.tailDims) (t :: (i ++ [y, x]))) * D.dtype.bytes +
        B % D.dtype.bytes) % D.dtype.bytes = B % D.dtype.bytes := by
      rw [Nat.mul_comm _ D.dtype.bytes, Nat.mul_add_mod, Nat.mod_eq_of_lt hmod]
    rw [aux2] at e3
    have hct : cShape D.tailDims = cShape D.inner ++ [D.height.chunkSize, D.width.chunkSize] := by
      simp [tailDims, cShape_append]
    have e4 : ∀ G W : List Nat, G = gridOf (cShape D.tailDims) (i ++ [y, x]) →
        W = withinOf (cShape D.toList) (t :: (i ++ [y, x])) →
        globalCoord (D.append.chunkSize :: (cShape D.inner ++ [D.height.chunkSize, D.width.chunkSize]))
        (t / D.append.chunkSize :: G) W = t :: (i ++ [y, x]) := by
      intro G W h1 h2
      rw [h1, h2, ← hct]
      exact globalCoord_grid_within hwl
    have e4 := e4 _ _ e1.symm e2.symm
    rw [globalCoord, globalCoord_append (by simpa using k.hl.length) (by simpa using k.ho.length)] at e4
    simp only [globalCoord, List.cons.injEq] at e4
    obtain ⟨e5, e6⟩ := e4
    have e7 := List.append_inj e6 (by
      rw [globalCoord_length (by simpa using k.hl.length) (by simpa using k.ho.length)]
      simpa using hil.symm)
    obtain ⟨e7, e8⟩ := e7
    simp only [List.cons.injEq, and_true] at e8
    rw [e7, ← hgrp, e5, e8.1, e8.2, ← e3]
    exact ⟨hi', hfe, hy, hxx, hqe.symm⟩

theorem globalCoord_inj {cs l o l' o' : List Nat} (a : InBounds cs o) (b : InBounds cs o')
    (c : l.length = cs.length) (d : l'.length = cs.length)
    (e : globalCoord cs l o = globalCoord cs l' o') : l = l' ∧ o = o' := by
  induction cs generalizing l o l' o' with
  | nil =>
    have h1 := a.length
    have h2 := b.length
    simp only [List.length_nil, List.length_eq_zero_iff] at h1 h2 c d
    subst h1 h2 c d
    exact ⟨rfl, rfl⟩
  | cons x xs ih =>
    cases l with
    | nil => simp at c
    | cons l0 l => cases l' with
      | nil => simp at d
      | cons l0' l' => cases o with
        | nil => exact a.elim
        | cons o0 o => cases o' with
          | nil => exact b.elim
          | cons o0' o' =>
            simp only [globalCoord, List.cons.injEq] at e
            obtain ⟨b1, b2⟩ := digit_eq a.1 b.1 e.1
            obtain ⟨b3, b4⟩ := ih a.2 b.2 (by simpa using c) (by simpa using d) e.2
            subst b1 b2 b3 b4
            exact ⟨rfl, rfl⟩

/-- Conversely, a position accepted by the write belongs to a byte of the frame. -/
theorem place_cell (hv : D.Valid) (hf : D.Room) {f c b : Nat} (hc : c < D.chunkCount) (hb : b < D.chunkBytes)
    (k : Cell D c b)
    (h1 : InBounds (aShape D.inner) (globalCoord (cShape D.inner) k.l k.o))
    (h2 : f = D.frameIndex (f / D.framesPerChunk * D.append.chunkSize + k.o0)
      (globalCoord (cShape D.inner) k.l k.o))
    (h3 : k.ly * D.height.chunkSize + k.oy < D.height.arraySize)
    (h4 : k.lx * D.width.chunkSize + k.ox < D.width.arraySize) :
    ∃ q, q < D.frameBytes ∧
      place (aShape D.tailDims) (cShape D.toList) D.dtype.bytes (f * D.frameBytes + q) =
        (f / D.framesPerChunk, c, b) := by
  refine ⟨((k.ly * D.height.chunkSize + k.oy) * D.width.arraySize +
            (k.lx * D.width.chunkSize + k.ox)) * D.dtype.bytes + k.s, pixel_lt hv hf h3 h4 k.hs, ?_⟩
  obtain ⟨c', b', hc', hb', hp, hk⟩ := cell_place hv hf (f := f) (pixel_lt hv hf h3 h4 k.hs)
  rw [hp]
  obtain ⟨k'⟩ := exists_cell D hc' hb'
  obtain ⟨g1, g2, g3, g4, g5⟩ := hk k'
  obtain ⟨e1, e2⟩ := digit_eq k'.hs k.hs g5
  have wpos : 0 < D.width.arraySize := by omega
  obtain ⟨e3, e4⟩ := digit_eq g4 h4 e1
  obtain ⟨e5, e6⟩ := digit_eq k'.hoy k.hoy e3
  obtain ⟨e7, e8⟩ := digit_eq k'.hox k.hox e4
  have e9 : k'.l = k.l ∧ k'.o0 = k.o0 ∧ k'.o = k.o := by
    have e := g2.symm.trans h2
    unfold frameIndex at e
    obtain ⟨a1, a2⟩ := digit_eq (ravel_lt g1) (ravel_lt h1) e
    have a3 := ravel_inj g1 h1 a2
    obtain ⟨a4, a5⟩ := globalCoord_inj k'.ho k.ho (by simpa using k'.hl.length)
      (by simpa using k.hl.length) a3
    exact ⟨a4, by omega, a5⟩
  have ec : c' = c := by rw [k'.hc, k.hc, e9.1, e5, e7]
  have eb : b' = b := by rw [k'.hb, k.hb, e9.2.1, e9.2.2, e6, e8, e2]
  rw [ec, eb]

end AZ
