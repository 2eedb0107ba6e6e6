import Verif.Lemmas.Placement
import Verif.Props.Sample

/-!
# C05, C06: placement of the frame bytes in the chunk buffers

`byteAt bufs c b` is byte `b` of chunk buffer `c`; `Sized D bufs` says the buffers are the allocated ones:
`prod (nShape ..)` buffers of `prod (cShape ..) * item` bytes.
-/

namespace AZ
open Spec ArrayDims

/-- **C06.** For valid dimensions within the size limits, writing frame number `f` (any number) of the
right size into the allocated buffers never leaves them: no out-of-range access (`ub`), no exception,
no early "buffer overflow" return; all bytes are reported written and the buffers keep their sizes. -/
theorem frame_write_in_bounds {D : ArrayDims} (hv : D.Valid) (hf : D.Fits) (f : Nat) (data : Bytes)
    (hd : data.length = D.height.arraySize * D.width.arraySize * D.dtype.bytes) (bufs : List Bytes)
    (hn : bufs.length = prod (nShape D.tailDims))
    (hs : ∀ b ∈ bufs, b.length = prod (cShape D.toList) * D.dtype.bytes) :
    ∃ bufs', writeFrameToChunks D f data bufs = .ok (bufs', data.length) ∧
      bufs'.length = bufs.length ∧ ∀ b ∈ bufs', b.length = prod (cShape D.toList) * D.dtype.bytes := by
  have hsz : Sized D bufs := ⟨hn, hs⟩
  have h := writeFrameToChunks_sized hv hf f hd hsz
  refine ⟨_, (writeFrameToChunks_eq hv hf f hd hsz).trans (by rw [hd]; rfl), ?_, h.2⟩
  rw [h.1, hn]; rfl

/-- The buffers `make_buffers_` allocates are of that size. -/
theorem make_buffers_sized {D : ArrayDims} (hv : D.Valid) (hf : D.Fits) :
    (makeBuffers D).length = prod (nShape D.tailDims) ∧
    ∀ b ∈ makeBuffers D, b.length = prod (cShape D.toList) * D.dtype.bytes := by
  unfold makeBuffers
  rw [numberOfChunksInMemory_eq hv hf, bytesPerChunk_eq hv hf]
  refine ⟨by simp [chunkCount], fun b hb => ?_⟩
  rw [List.eq_of_mem_replicate hb]
  simp [ArrayDims.chunkBytes]

example : ∃ bufs', writeFrameToChunks Sample.dims 11 (Sample.frame 4) (makeBuffers Sample.dims) =
      .ok (bufs', 70) ∧ bufs'.length = 18 ∧ ∀ b ∈ bufs', b.length = 48 :=
  frame_write_in_bounds Sample.dims_valid Sample.dims_fits 11 (Sample.frame 4) rfl _
    (make_buffers_sized Sample.dims_valid Sample.dims_fits).1
    (make_buffers_sized Sample.dims_valid Sample.dims_fits).2

/-- **C05, first half.** Different acquired bytes never share a storage location: the place of a byte
(append-chunk number, chunk, byte in the chunk; see `Spec.place`) determines the byte. -/
theorem places_distinct {D : ArrayDims} (hv : D.Valid) {B B' : Nat}
    (h : place (aShape D.tailDims) (cShape D.toList) D.dtype.bytes B =
      place (aShape D.tailDims) (cShape D.toList) D.dtype.bytes B') : B = B' := by
  refine place_inj (dtype_pos D) ?_ ?_ ?_ h
  · intro a ha
    obtain ⟨d, hd, rfl⟩ := List.mem_map.1 ha
    exact hv.tail_array d hd
  · intro c hc
    obtain ⟨d, hd, rfl⟩ := List.mem_map.1 hc
    rcases List.mem_cons.1 hd with rfl | hd
    · exact hv.append_chunk
    · exact hv.tail_chunk d hd
  · simp [toList, tailDims]

/-- **C05, second half.** Writing frame `f` stores byte `q` of the frame at the place of acquired byte
`f * frameBytes + q`, for every `q`, and changes no other byte of any buffer. -/
theorem frame_write_exact {D : ArrayDims} (hv : D.Valid) (hf : D.Fits) (f : Nat) (data : Bytes)
    (hd : data.length = D.height.arraySize * D.width.arraySize * D.dtype.bytes) (bufs : List Bytes)
    (hs : Sized D bufs) :
    ∃ bufs', writeFrameToChunks D f data bufs = .ok (bufs', data.length) ∧
      (∀ q, q < data.length → ∃ c b, place (aShape D.tailDims) (cShape D.toList) D.dtype.bytes
          (f * data.length + q) = (f / D.framesPerChunk, c, b) ∧ byteAt bufs' c b = data[q]?) ∧
      (∀ c b, (∀ q, q < data.length → place (aShape D.tailDims) (cShape D.toList) D.dtype.bytes
          (f * data.length + q) ≠ (f / D.framesPerChunk, c, b)) → byteAt bufs' c b = byteAt bufs c b) := by
  have hsz' := writeFrameToChunks_sized hv hf f hd hs
  have hd' : data.length = D.frameBytes := hd
  refine ⟨_, (writeFrameToChunks_eq hv hf f hd hs).trans (by rw [hd]; rfl), ?_, ?_⟩
  · intro q hq
    rw [hd'] at hq ⊢
    obtain ⟨c, b, hc, hb, hp, hk⟩ := cell_place hv hf (f := f) hq
    refine ⟨c, b, hp, ?_⟩
    obtain ⟨k⟩ := exists_cell D hc hb
    obtain ⟨h1, h2, h3, h4, h5⟩ := hk k
    rw [write_cell hv hf f hd hs k, if_pos ⟨h1, h2, h3, h4⟩, h5]
  · intro c b hne
    rw [hd'] at hne
    by_cases hcb : c < D.chunkCount ∧ b < D.chunkBytes
    · obtain ⟨k⟩ := exists_cell D hcb.1 hcb.2
      rw [write_cell hv hf f hd hs k, if_neg]
      rintro ⟨h1, h2, h3, h4⟩
      obtain ⟨q, hq, hp⟩ := place_cell hv hf hcb.1 hcb.2 k h1 h2 h3 h4
      exact hne q hq hp
    · have hnone : ∀ bs, Sized D bs → byteAt bs c b = none := by
        intro bs hbs
        unfold byteAt
        rcases Nat.lt_or_ge c bs.length with h | h
        · rw [List.getElem?_eq_getElem h, Option.bind_some]
          have hl := hbs.2 _ (List.getElem_mem h)
          have hcc : c < D.chunkCount := by rw [← hbs.1]; exact h
          exact List.getElem?_eq_none (by omega)
        · rw [List.getElem?_eq_none h]; rfl
      rw [hnone _ hsz', hnone _ hs]

example : Sized Sample.dims (makeBuffers Sample.dims) ∧ (Sample.frame 4).length = 5 * 7 * 2 :=
  ⟨make_buffers_sized Sample.dims_valid Sample.dims_fits, rfl⟩

/-- Acquired byte 137 of the sample array is byte 1 of pixel (4, 5) of frame 1; it is stored in
chunk 7 (grid position 0, 2, 1) of the first chunk group. -/
example : place (aShape Sample.dims.tailDims) (cShape Sample.dims.toList) 2 137 = (0, 7, 17) := by decide

end AZ
