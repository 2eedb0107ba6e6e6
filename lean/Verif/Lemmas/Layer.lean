import Verif.Lemmas.Frame
import Verif.Spec.Logical

set_option linter.unusedSimpArgs false

namespace AZ
open Spec

/-- The chunk buffers of append-chunk `g` that the specification demands for an acquired stream. -/
def layer (D : ArrayDims) (stream : Bytes) (g : Nat) : List Bytes :=
  (List.range D.chunkCount).map fun c =>
    Spec.chunkBytes (aShape D.tailDims) (cShape D.toList) D.dtype.bytes stream
      (g :: unravel (nShape D.tailDims) c)

theorem getElem?_map_range {α : Type} (f : Nat → α) {n i : Nat} (h : i < n) :
    ((List.range n).map f)[i]? = some (f i) := by
  simp [List.getElem?_map, List.getElem?_range h]

theorem layer_sized (D : ArrayDims) (stream : Bytes) (g : Nat) : Sized D (layer D stream g) := by
  refine ⟨by simp [layer], ?_⟩
  intro buf hbuf
  obtain ⟨c, _, rfl⟩ := List.mem_map.1 hbuf
  simp [Spec.chunkBytes, ArrayDims.chunkBytes]

theorem layer_byteAt (D : ArrayDims) (stream : Bytes) (g : Nat) {c b : Nat}
    (hc : c < D.chunkCount) (hb : b < D.chunkBytes) :
    byteAt (layer D stream g) c b = some (logicalByte (aShape D.tailDims) D.dtype.bytes stream
      (globalCoord (cShape D.toList) (g :: unravel (nShape D.tailDims) c)
        (unravel (cShape D.toList) (b / D.dtype.bytes))) (b % D.dtype.bytes)) := by
  unfold byteAt layer
  rw [getElem?_map_range _ hc]
  simp only [Option.bind_some, Spec.chunkBytes]
  exact getElem?_map_range _ hb

theorem eq_of_byteAt {D : ArrayDims} {b1 b2 : List Bytes} (h1 : Sized D b1) (h2 : Sized D b2)
    (h : ∀ c b, c < D.chunkCount → b < D.chunkBytes → byteAt b1 c b = byteAt b2 c b) : b1 = b2 := by
  apply List.ext_getElem (by rw [h1.1, h2.1])
  intro c hc1 hc2
  have l1 := h1.2 _ (List.getElem_mem hc1)
  have l2 := h2.2 _ (List.getElem_mem hc2)
  apply List.ext_getElem (by rw [l1, l2])
  intro b hb1 hb2
  have := h c b (by rw [← h1.1]; exact hc1) (by rw [← l1]; exact hb1)
  simp only [byteAt, List.getElem?_eq_getElem hc1, List.getElem?_eq_getElem hc2, Option.bind_some,
    List.getElem?_eq_getElem hb1, List.getElem?_eq_getElem hb2, Option.some.injEq] at this
  exact this

/-! ### Coordinates split as (append, inner, y, x) -/

theorem globalCoord_append {c1 l1 o1 c2 l2 o2 : List Nat} (h1 : l1.length = c1.length)
    (h2 : o1.length = c1.length) :
    globalCoord (c1 ++ c2) (l1 ++ l2) (o1 ++ o2) = globalCoord c1 l1 o1 ++ globalCoord c2 l2 o2 := by
  induction c1 generalizing l1 o1 with
  | nil => cases l1 <;> cases o1 <;> simp_all [globalCoord]
  | cons c cs ih => cases l1 with
    | nil => simp at h1
    | cons l ls => cases o1 with
      | nil => simp at h2
      | cons o os =>
        simp only [List.cons_append, globalCoord, List.cons.injEq, true_and]
        exact ih (by simpa using h1) (by simpa using h2)

theorem globalCoord_length {cs ls os : List Nat} (h1 : ls.length = cs.length)
    (h2 : os.length = cs.length) : (globalCoord cs ls os).length = cs.length := by
  induction cs generalizing ls os with
  | nil => cases ls <;> cases os <;> simp_all [globalCoord]
  | cons c cs ih => cases ls with
    | nil => simp at h1
    | cons l ls => cases os with
      | nil => simp at h2
      | cons o os => simp only [globalCoord, List.length_cons]; rw [ih (by simpa using h1) (by simpa using h2)]

/-- Splitting the last two components off a bounded multi-index. -/
theorem inBounds_split2 {s : List Nat} {a b : Nat} {i : List Nat} (h : InBounds (s ++ [a, b]) i) :
    ∃ i' y x, i = i' ++ [y, x] ∧ InBounds s i' ∧ y < a ∧ x < b := by
  induction s generalizing i with
  | nil => match i, h with
    | [y, x], h => exact ⟨[], y, x, rfl, trivial, h.1, h.2.1⟩
    | [], h => exact h.elim
    | [_], h => exact h.2.elim
    | _ :: _ :: _ :: _, h => exact h.2.2.elim
  | cons t ts ih => match i, h with
    | [], h => exact h.elim
    | j :: js, h =>
      obtain ⟨i', y, x, rfl, h1, h2, h3⟩ := ih h.2
      exact ⟨j :: i', y, x, rfl, ⟨h.1, h1⟩, h2, h3⟩

namespace ArrayDims
variable {D : ArrayDims}

/-- Every byte position of the chunk buffers, decomposed. -/
structure Cell (D : ArrayDims) (c b : Nat) where
  l : List Nat
  ly : Nat
  lx : Nat
  o0 : Nat
  o : List Nat
  oy : Nat
  ox : Nat
  s : Nat
  hl : InBounds (nShape D.inner) l
  hly : ly < D.tilesY
  hlx : lx < D.tilesX
  ho0 : o0 < D.append.chunkSize
  ho : InBounds (cShape D.inner) o
  hoy : oy < D.height.chunkSize
  hox : ox < D.width.chunkSize
  hs : s < D.dtype.bytes
  hun : unravel (nShape D.tailDims) c = l ++ [ly, lx]
  huo : unravel (cShape D.toList) (b / D.dtype.bytes) = o0 :: (o ++ [oy, ox])
  hsm : b % D.dtype.bytes = s
  hc : c = (ravel (nShape D.inner) l * D.tilesY + ly) * D.tilesX + lx
  hb : b = (((o0 * prod (cShape D.inner) + ravel (cShape D.inner) o) * D.height.chunkSize + oy) *
    D.width.chunkSize + ox) * D.dtype.bytes + s

theorem exists_cell (D : ArrayDims) {c b : Nat} (hc : c < D.chunkCount) (hb : b < D.chunkBytes) :
    Nonempty (Cell D c b) := by
  have hn : nShape D.tailDims = nShape D.inner ++ [D.tilesY, D.tilesX] := by
    simp [tailDims, nShape_append]; exact ⟨rfl, rfl⟩
  have hcs : cShape D.toList = D.append.chunkSize :: (cShape D.inner ++
      [D.height.chunkSize, D.width.chunkSize]) := by simp [toList, cShape_append]
  have h1 := unravel_inBounds (s := nShape D.tailDims) hc
  have r1 := ravel_unravel (s := nShape D.tailDims) hc
  have hb' : b / D.dtype.bytes < prod (cShape D.toList) := by
    rw [Nat.div_lt_iff_lt_mul (dtype_pos D)]; exact hb
  have h2 := unravel_inBounds hb'
  have r2 := ravel_unravel hb'
  rw [hn] at h1
  obtain ⟨l, ly, lx, e1, hl, hly, hlx⟩ := inBounds_split2 h1
  generalize hu : unravel (cShape D.toList) (b / D.dtype.bytes) = u at *
  rw [hcs] at h2
  match u, h2 with
  | [], h2 => exact h2.elim
  | o0 :: os, h2 =>
    obtain ⟨o, oy, ox, e2, ho, hoy, hox⟩ := inBounds_split2 h2.2
    subst e2
    rw [← hn] at e1
    refine ⟨⟨l, ly, lx, o0, o, oy, ox, b % D.dtype.bytes, hl, hly, hlx, h2.1, ho, hoy, hox,
      Nat.mod_lt _ (dtype_pos D), e1, hu, rfl, ?_, ?_⟩⟩
    · rw [e1] at r1
      rw [← r1, hn, ravel_append _ _ (by simpa using hl.length)]
      simp only [ravel, prod_cons, prod_nil]
      ring
    · have e3 := Nat.div_add_mod b D.dtype.bytes
      have e4 : b / D.dtype.bytes = ((o0 * prod (cShape D.inner) + ravel (cShape D.inner) o) *
          D.height.chunkSize + oy) * D.width.chunkSize + ox := by
        rw [← r2, hcs]
        simp only [ravel]
        rw [ravel_append _ _ (by simpa using ho.length)]
        simp only [ravel, prod_append, prod_cons, prod_nil]
        ring
      rw [← e4, Nat.mul_comm (b / D.dtype.bytes)]
      omega

/-- Row-major rank of a frame position in the append-and-inner dimensions. -/
def frameIndex (D : ArrayDims) (t : Nat) (x : List Nat) : Nat :=
  t * prod (aShape D.inner) + ravel (aShape D.inner) x

theorem ravel_coord (D : ArrayDims) (t y x : Nat) {i : List Nat} (hi : i.length = D.inner.length) :
    ravel (0 :: aShape D.tailDims) (t :: (i ++ [y, x])) * D.dtype.bytes =
      D.frameIndex t i * D.frameBytes + (y * D.width.arraySize + x) * D.dtype.bytes := by
  have ha : aShape D.tailDims = aShape D.inner ++ [D.height.arraySize, D.width.arraySize] := by
    simp [tailDims, aShape_append]
  simp only [ravel, ha]
  rw [ravel_append _ _ (by simpa using hi)]
  simp only [ravel, prod_append, prod_cons, prod_nil, frameIndex, frameBytes]
  ring

theorem logicalByte_coord (D : ArrayDims) (stream : Bytes) (t y x s : Nat) {i : List Nat}
    (hi : i.length = D.inner.length) :
    logicalByte (aShape D.tailDims) D.dtype.bytes stream (t :: (i ++ [y, x])) s =
      if InBounds (aShape D.inner) i ∧ y < D.height.arraySize ∧ x < D.width.arraySize then
        stream.getD (D.frameIndex t i * D.frameBytes + ((y * D.width.arraySize + x) * D.dtype.bytes + s)) 0
      else 0 := by
  have ha : aShape D.tailDims = aShape D.inner ++ [D.height.arraySize, D.width.arraySize] := by
    simp [tailDims, aShape_append]
  unfold logicalByte
  rw [ravel_coord D t y x hi, ha]
  have : InBounds (aShape D.inner ++ [D.height.arraySize, D.width.arraySize]) ((t :: (i ++ [y, x])).tail)
      ↔ (InBounds (aShape D.inner) i ∧ y < D.height.arraySize ∧ x < D.width.arraySize) := by
    simp only [List.tail_cons]
    rw [inBounds_append _ _ (by simpa using hi)]
    simp [InBounds]
  simp only [this, Nat.add_assoc]

theorem pixel_lt (hv : D.Valid) (hf : D.Room) {y x s : Nat} (hy : y < D.height.arraySize)
    (hx : x < D.width.arraySize) (hs : s < D.dtype.bytes) :
    (y * D.width.arraySize + x) * D.dtype.bytes + s < D.frameBytes := by
  unfold frameBytes
  calc (y * D.width.arraySize + x) * D.dtype.bytes + s
      < (y * D.width.arraySize + x) * D.dtype.bytes + D.dtype.bytes := by omega
    _ = (y * D.width.arraySize + (x + 1)) * D.dtype.bytes := by ring
    _ ≤ (y * D.width.arraySize + D.width.arraySize) * D.dtype.bytes :=
        Nat.mul_le_mul_right _ (by omega)
    _ = ((y + 1) * D.width.arraySize) * D.dtype.bytes := by ring
    _ ≤ _ := Nat.mul_le_mul_right _ (Nat.mul_le_mul_right _ hy)

/-- The byte the specification puts at a cell of append-chunk `g`. -/
theorem layer_cell (D : ArrayDims) (stream : Bytes) (g : Nat) {c b : Nat} (hc : c < D.chunkCount)
    (hb : b < D.chunkBytes) (k : Cell D c b) :
    byteAt (layer D stream g) c b = some (
      if InBounds (aShape D.inner) (globalCoord (cShape D.inner) k.l k.o) ∧
          k.ly * D.height.chunkSize + k.oy < D.height.arraySize ∧
          k.lx * D.width.chunkSize + k.ox < D.width.arraySize then
        stream.getD (D.frameIndex (g * D.append.chunkSize + k.o0) (globalCoord (cShape D.inner) k.l k.o) *
          D.frameBytes + (((k.ly * D.height.chunkSize + k.oy) * D.width.arraySize +
            (k.lx * D.width.chunkSize + k.ox)) * D.dtype.bytes + k.s)) 0
      else 0) := by
  rw [layer_byteAt D stream g hc hb, k.hun, k.huo, k.hsm]
  have hcs : cShape D.toList = D.append.chunkSize :: (cShape D.inner ++
      [D.height.chunkSize, D.width.chunkSize]) := by simp [toList, cShape_append]
  have hl : k.l.length = (cShape D.inner).length := by simpa using k.hl.length
  have ho : k.o.length = (cShape D.inner).length := k.ho.length
  have e : globalCoord (cShape D.toList) (g :: (k.l ++ [k.ly, k.lx])) (k.o0 :: (k.o ++ [k.oy, k.ox])) =
      (g * D.append.chunkSize + k.o0) :: (globalCoord (cShape D.inner) k.l k.o ++
        [k.ly * D.height.chunkSize + k.oy, k.lx * D.width.chunkSize + k.ox]) := by
    rw [hcs]
    simp only [globalCoord]
    rw [globalCoord_append hl ho]
    rfl
  rw [e, logicalByte_coord D stream _ _ _ _ (by rw [globalCoord_length hl ho]; simp)]

theorem frameIndex_lt (D : ArrayDims) (g : Nat) {o0 : Nat} {x : List Nat}
    (ho : o0 < D.append.chunkSize) (hx : InBounds (aShape D.inner) x) :
    D.frameIndex (g * D.append.chunkSize + o0) x < (g + 1) * D.framesPerChunk := by
  have h1 := ravel_lt hx
  unfold frameIndex framesPerChunk
  calc (g * D.append.chunkSize + o0) * prod (aShape D.inner) + ravel (aShape D.inner) x
      < (g * D.append.chunkSize + o0) * prod (aShape D.inner) + prod (aShape D.inner) := by omega
    _ = (g * D.append.chunkSize + (o0 + 1)) * prod (aShape D.inner) := by ring
    _ ≤ (g * D.append.chunkSize + D.append.chunkSize) * prod (aShape D.inner) :=
        Nat.mul_le_mul_right _ (by omega)
    _ = _ := by ring

theorem le_frameIndex (D : ArrayDims) (g o0 : Nat) (x : List Nat) :
    g * D.framesPerChunk ≤ D.frameIndex (g * D.append.chunkSize + o0) x := by
  unfold frameIndex framesPerChunk
  calc g * (D.append.chunkSize * prod (aShape D.inner))
      = (g * D.append.chunkSize) * prod (aShape D.inner) := by ring
    _ ≤ (g * D.append.chunkSize + o0) * prod (aShape D.inner) := Nat.mul_le_mul_right _ (by omega)
    _ ≤ _ := Nat.le_add_right _ _

/-- Frame `n` of group `g` is stored at a cell iff the cell's coordinates have frame index `n`. -/
theorem placement_iff (hv : D.Valid) (hf : D.Room) {n g : Nat} (hg : n / D.framesPerChunk = g)
    {l o : List Nat} {o0 : Nat} (hl : InBounds (nShape D.inner) l) (ho : InBounds (cShape D.inner) o)
    (ho0 : o0 < D.append.chunkSize) :
    (latG D.inner n = ravel (nShape D.inner) l ∧
      D.frameRank n = o0 * prod (cShape D.inner) + ravel (cShape D.inner) o) ↔
    (InBounds (aShape D.inner) (globalCoord (cShape D.inner) l o) ∧
      n = D.frameIndex (g * D.append.chunkSize + o0) (globalCoord (cShape D.inner) l o)) := by
  have hok := innerOk hv hf
  have hpa := prodA_pos hok
  have hc0 := hv.append_chunk
  have hiff := latGO_iff hok n hl ho
  unfold frameRank
  rw [digit_iff (latO_lt hok n) (ravel_lt ho)]
  have hg' : n / prod (aShape D.inner) / D.append.chunkSize = g := by
    rw [Nat.div_div_eq_div_mul, Nat.mul_comm]; exact hg
  have hdm := Nat.div_add_mod n (prod (aShape D.inner))
  have hdm2 := Nat.div_add_mod (n / prod (aShape D.inner)) D.append.chunkSize
  constructor
  · rintro ⟨a1, a2, a3⟩
    obtain ⟨b1, b2⟩ := hiff.1 ⟨a1, a3⟩
    refine ⟨b1, ?_⟩
    have : n / prod (aShape D.inner) = g * D.append.chunkSize + o0 := by
      rw [hg', a2, Nat.mul_comm] at hdm2; exact hdm2.symm
    unfold frameIndex
    rw [this, b2, Nat.mul_comm] at hdm
    exact hdm.symm
  · rintro ⟨b1, b2⟩
    unfold frameIndex at b2
    have hr := ravel_lt b1
    have e1 : n / prod (aShape D.inner) = g * D.append.chunkSize + o0 ∧
        n % prod (aShape D.inner) = ravel (aShape D.inner) (globalCoord (cShape D.inner) l o) := by
      apply digit_eq (Nat.mod_lt _ hpa) hr
      rw [Nat.mul_comm, hdm]; exact b2
    obtain ⟨c1, c2⟩ := hiff.2 ⟨b1, e1.2⟩
    refine ⟨c1, ?_, c2⟩
    rw [e1.1, Nat.mul_comm, Nat.mul_add_mod, Nat.mod_eq_of_lt ho0]

/-- **Writing one frame extends the layer by that frame.** -/
theorem applyOps_layer (hv : D.Valid) (hf : D.Room) {stream data : Bytes} {n g : Nat}
    (hlen : stream.length = n * D.frameBytes) (hd : data.length = D.frameBytes)
    (hg : n / D.framesPerChunk = g) :
    applyOps data (D.frameOps n) (layer D stream g) = layer D (stream ++ data) g := by
  have hs := layer_sized D stream g
  apply eq_of_byteAt (writeFrameToChunks_sized hv hf n hd hs) (layer_sized D _ g)
  intro c b hc hb
  obtain ⟨k⟩ := exists_cell D hc hb
  have hF := frameBytes_pos hv hf
  have h1 := frameOps_byteAt hv hf n hd hs (L := ravel (nShape D.inner) k.l)
    (R := k.o0 * prod (cShape D.inner) + ravel (cShape D.inner) k.o) k.hly k.hlx k.hoy k.hox k.hs
  rw [← k.hc, ← k.hb] at h1
  have h2 := placement_iff hv hf hg k.hl k.ho k.ho0
  rw [h1, layer_cell D _ g hc hb k, layer_cell D _ g hc hb k]
  generalize hX : globalCoord (cShape D.inner) k.l k.o = X at *
  generalize hY : k.ly * D.height.chunkSize + k.oy = y at *
  generalize hW : k.lx * D.width.chunkSize + k.ox = x at *
  generalize hI : D.frameIndex (g * D.append.chunkSize + k.o0) X = I at *
  by_cases hin : InBounds (aShape D.inner) X ∧ y < D.height.arraySize ∧ x < D.width.arraySize
  · have hpix := pixel_lt hv hf hin.2.1 hin.2.2 k.hs
    generalize (y * D.width.arraySize + x) * D.dtype.bytes + k.s = q at *
    rw [if_pos hin, if_pos hin]
    by_cases hn : n = I
    · obtain ⟨p1, p2⟩ := h2.2 ⟨hin.1, hn⟩
      rw [if_pos ⟨p1, p2, hin.2⟩]
      have hsplit : (stream ++ data).getD (I * D.frameBytes + q) 0 = data.getD q 0 := by
        rw [List.getD_eq_getElem?_getD, List.getD_eq_getElem?_getD, ← hn, ← hlen]
        rw [List.getElem?_append_right (by omega), Nat.add_sub_cancel_left]
      rw [hsplit, List.getD_eq_getElem?_getD, List.getElem?_eq_getElem (by omega)]
      rfl
    · rw [if_neg (fun h => hn (h2.1 ⟨h.1, h.2.1⟩).2)]
      congr 1
      rcases Nat.lt_or_gt_of_ne hn with h | h
      · -- the cell belongs to a later frame: both are fill
        have : (n + 1) * D.frameBytes ≤ I * D.frameBytes := Nat.mul_le_mul_right _ h
        rw [Nat.add_mul, Nat.one_mul] at this
        rw [List.getD_eq_getElem?_getD, List.getD_eq_getElem?_getD,
          List.getElem?_eq_none (by omega), List.getElem?_eq_none (by simp; omega)]
      · have : (I + 1) * D.frameBytes ≤ n * D.frameBytes := Nat.mul_le_mul_right _ h
        rw [Nat.add_mul, Nat.one_mul] at this
        rw [List.getD_eq_getElem?_getD, List.getD_eq_getElem?_getD,
          List.getElem?_append_left (by omega)]
  · rw [if_neg hin, if_neg hin]
    rw [if_neg (fun h => hin ⟨(h2.1 ⟨h.1, h.2.1⟩).1, h.2.2⟩)]

/-- Before any frame of the group is written the layer is all zero. -/
theorem layer_fresh (hv : D.Valid) (hf : D.Room) {stream : Bytes} {g : Nat}
    (hlen : stream.length ≤ g * D.framesPerChunk * D.frameBytes) :
    layer D stream g = List.replicate D.chunkCount (List.replicate D.chunkBytes 0) := by
  have hz : Sized D (List.replicate D.chunkCount (List.replicate D.chunkBytes (0 : UInt8))) :=
    ⟨by simp, fun b hb => by rw [List.eq_of_mem_replicate hb]; simp⟩
  apply eq_of_byteAt (layer_sized D _ g) hz
  intro c b hc hb
  obtain ⟨k⟩ := exists_cell D hc hb
  rw [layer_cell D _ g hc hb k]
  have hr : byteAt (List.replicate D.chunkCount (List.replicate D.chunkBytes (0 : UInt8))) c b = some 0 := by
    simp [byteAt, List.getElem?_replicate, hc, hb]
  rw [hr]
  congr 1
  split
  · have h := le_frameIndex D g k.o0 (globalCoord (cShape D.inner) k.l k.o)
    have := Nat.mul_le_mul_right D.frameBytes h
    rw [List.getD_eq_getElem?_getD, List.getElem?_eq_none (by omega)]
    rfl
  · rfl

theorem makeBuffers_eq (hv : D.Valid) (hf : D.Room) {stream : Bytes} {g : Nat}
    (hlen : stream.length ≤ g * D.framesPerChunk * D.frameBytes) :
    makeBuffers D = layer D stream g := by
  rw [layer_fresh hv hf hlen, makeBuffers, numberOfChunksInMemory_eq hv hf, bytesPerChunk_eq hv hf]

/-- Once the group is complete, later frames do not change it. -/
theorem layer_stable (hv : D.Valid) (hf : D.Room) {s1 s2 : Bytes} {g : Nat}
    (hlen : (g + 1) * D.framesPerChunk * D.frameBytes ≤ s1.length) :
    layer D (s1 ++ s2) g = layer D s1 g := by
  apply eq_of_byteAt (layer_sized D _ g) (layer_sized D _ g)
  intro c b hc hb
  obtain ⟨k⟩ := exists_cell D hc hb
  rw [layer_cell D _ g hc hb k, layer_cell D _ g hc hb k]
  congr 1
  split
  · rename_i hin
    have hpix := pixel_lt hv hf hin.2.1 hin.2.2 k.hs
    have h := frameIndex_lt D g k.ho0 hin.1
    have := Nat.mul_le_mul_right D.frameBytes h
    rw [Nat.succ_mul] at this
    rw [List.getD_eq_getElem?_getD, List.getD_eq_getElem?_getD, List.getElem?_append_left (by omega)]
  · rfl

end ArrayDims
end AZ
