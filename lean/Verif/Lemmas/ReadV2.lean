import Verif.Lemmas.FilesV2
import Verif.Spec.ZarrV2

set_option linter.unusedSimpArgs false

namespace AZ
open Spec

theorem chunkKey_cons (g : Nat) (l : List Nat) : chunkKey (g :: l) = decimal g ++ suffix l := by
  unfold chunkKey
  induction l generalizing g with
  | nil => simp [joinSlash, decimal]
  | cons k l ih =>
    have := ih k
    simp only [List.map_cons] at this ⊢
    rw [joinSlash, this, suffix_cons]
    rfl

/-- A slice of a specified chunk is the logical element. -/
theorem chunkBytes_slice {tail chunk : List Nat} {item : Nat} (hi : 0 < item) (S : Bytes) (grid : List Nat)
    {w : List Nat} (hw : InBounds chunk w) :
    ((Spec.chunkBytes tail chunk item S grid).drop (ravel chunk w * item)).take item =
      (List.range item).map fun s => logicalByte tail item S (globalCoord chunk grid w) s := by
  have hr := ravel_lt hw
  have hle : ravel chunk w * item + item ≤ prod chunk * item := by
    rw [← Nat.succ_mul]; exact Nat.mul_le_mul_right _ hr
  have hl : (Spec.chunkBytes tail chunk item S grid).length = prod chunk * item := by
    simp [Spec.chunkBytes]
  apply List.ext_getElem
  · simp [hl]; omega
  · intro s h1 h2
    simp only [List.length_map, List.length_range] at h2
    simp only [List.getElem_take, List.getElem_drop, Spec.chunkBytes, List.getElem_map, List.getElem_range]
    rw [Nat.mul_comm _ item, Nat.mul_add_div hi, Nat.div_eq_of_lt h2, Nat.add_zero, Nat.mul_add_mod,
      Nat.mod_eq_of_lt h2, unravel_ravel hw]

/-- Directory of the array of a V2 writer. -/
def arrayDirV2 (cfg : WConfig) : Text :=
  baseOf cfg.bucket.isSome cfg.storePath ++ (decimal cfg.level ++ ['/'])

theorem objectPath_key {cfg : WConfig} (hV : cfg.version = .v2) (g : Nat) (l : List Nat) :
    objectPath cfg g l = arrayDirV2 cfg ++ chunkKey (g :: l) := by
  unfold objectPath arrayDirV2 dataMid
  rw [hV, chunkKey_cons]
  simp

theorem zipWith_ceilDiv (ds : List Dim) : List.zipWith ceilDiv (aShape ds) (cShape ds) = nShape ds := by
  induction ds with
  | nil => rfl
  | cons d ds ih =>
    unfold aShape cShape nShape at *
    simp [ih]

/-- Reading an element of the array of a completed V2 run: whatever has been acquired, at its
coordinate, zero elsewhere. `decode` inverts what was stored. -/
theorem readV2_run (env : Env) {cfg : WConfig} (hV : cfg.version = .v2) (hv : cfg.dims.Valid)
    (hf : cfg.dims.Room) (S : Bytes) (n : Nat) (hS : S.length = n * cfg.dims.frameBytes)
    {file : Text → Option Bytes}
    (hfile : ∀ p, (∃ g l, p = arrayDirV2 cfg ++ chunkKey (g :: l)) → file p = fileAfter p (runEventsV2 env cfg S n))
    {decode : Bytes → Option Bytes}
    (hdec : ∀ b : Bytes, b.length = cfg.dims.chunkBytes → decode (storedForm env cfg b) = some b)
    {t : Nat} {y : List Nat} (hy : InBounds (aShape cfg.dims.tailDims) y) :
    readV2 file (arrayDirV2 cfg) decode
      (cShape cfg.dims.toList) cfg.dims.dtype.bytes (t :: y) =
    some ((List.range cfg.dims.dtype.bytes).map fun s =>
      logicalByte (aShape cfg.dims.tailDims) cfg.dims.dtype.bytes S (t :: y) s) := by
  have hFB := ArrayDims.framesPerChunk_pos hv hf
  have hcs : cShape cfg.dims.toList = cfg.dims.append.chunkSize :: cShape cfg.dims.tailDims := rfl
  have hcp : ∀ c ∈ cShape cfg.dims.tailDims, 0 < c := by
    intro c hc
    obtain ⟨d, hd, rfl⟩ := List.mem_map.1 hc
    exact hv.tail_chunk d hd
  have hcp' : ∀ c ∈ cShape cfg.dims.toList, 0 < c := by
    rw [hcs]
    intro c hc
    rcases List.mem_cons.1 hc with rfl | hc
    · exact hv.append_chunk
    · exact hcp c hc
  have hyl : y.length = (cShape cfg.dims.tailDims).length := by rw [hy.length]; simp
  have hgrid : gridOf (cShape cfg.dims.toList) (t :: y) =
      (t / cfg.dims.append.chunkSize) :: gridOf (cShape cfg.dims.tailDims) y := by
    rw [hcs]; rfl
  have hgb := gridOf_inBounds (cs := cShape cfg.dims.tailDims) hcp (by simp) hy
  rw [zipWith_ceilDiv] at hgb
  generalize hgl : gridOf (cShape cfg.dims.tailDims) y = gl at *
  have hwb := withinOf_inBounds (cs := cShape cfg.dims.toList) (x := t :: y) hcp' (by rw [hcs]; simp [hyl])
  have hgw := globalCoord_grid_within (cs := cShape cfg.dims.toList) (x := t :: y) (by rw [hcs]; simp [hyl])
  unfold readV2
  rw [hgrid, hfile _ ⟨_, _, rfl⟩, ← objectPath_key hV]
  have hpath : objectPath cfg (t / cfg.dims.append.chunkSize) gl =
      chunkPath cfg (t / cfg.dims.append.chunkSize) (ravel (nShape cfg.dims.tailDims) gl) := by
    unfold chunkPath
    rw [unravel_ravel hgb]
  rw [hpath]
  have hc : ravel (nShape cfg.dims.tailDims) gl < cfg.dims.chunkCount := ravel_lt hgb
  by_cases hg : t / cfg.dims.append.chunkSize < groups cfg n
  · rw [fileAfter_chunk_v2 env hv hf S hg hc, unravel_ravel hgb]
    have hlen : (Spec.chunkBytes (aShape cfg.dims.tailDims) (cShape cfg.dims.toList)
          cfg.dims.dtype.bytes S ((t / cfg.dims.append.chunkSize) :: gl)).length =
        prod (cShape cfg.dims.toList) * cfg.dims.dtype.bytes := by simp [Spec.chunkBytes]
    simp only [hdec _ hlen, hlen, if_true]
    rw [chunkBytes_slice (ArrayDims.dtype_pos _) _ _ hwb, ← hgrid, hgw]
  · rw [fileAfter_none_v2 env hv hf S n (p := chunkPath cfg (t / cfg.dims.append.chunkSize)
        (ravel (nShape cfg.dims.tailDims) gl)) (objectPath_ne_meta _ _ _) (by
      intro g c hg' hc' h
      obtain ⟨h1, _⟩ := chunkPath_inj hc hc' h
      omega)]
    simp only [Option.some.injEq]
    apply List.ext_getElem (by simp)
    intro s h1 h2
    simp only [List.getElem_replicate, List.getElem_map, List.getElem_range]
    unfold logicalByte
    rw [if_pos (by simpa using hy)]
    rw [List.getD_eq_getElem?_getD, List.getElem?_eq_none]
    · rfl
    · -- the element lies beyond the acquired frames
      have hlt : n ≤ (t / cfg.dims.append.chunkSize) * cfg.dims.framesPerChunk := by
        unfold groups at hg
        rw [lt_ceilDiv_iff hFB] at hg
        omega
      have ht : (t / cfg.dims.append.chunkSize) * cfg.dims.framesPerChunk ≤ t * prod (aShape cfg.dims.inner) := by
        unfold ArrayDims.framesPerChunk
        rw [← Nat.mul_assoc]
        exact Nat.mul_le_mul_right _ (Nat.div_mul_le_self _ _)
      have hF : cfg.dims.frameBytes = cfg.dims.height.arraySize * cfg.dims.width.arraySize *
        cfg.dims.dtype.bytes := rfl
      have hprod : prod (aShape cfg.dims.tailDims) = prod (aShape cfg.dims.inner) *
          (cfg.dims.height.arraySize * cfg.dims.width.arraySize) := by
        simp [ArrayDims.tailDims, aShape_append, prod_append]
      rw [hS]
      calc n * cfg.dims.frameBytes ≤ (t * prod (aShape cfg.dims.inner)) * cfg.dims.frameBytes :=
            Nat.mul_le_mul_right _ (Nat.le_trans hlt ht)
        _ = t * prod (aShape cfg.dims.tailDims) * cfg.dims.dtype.bytes := by rw [hF, hprod]; ring
        _ ≤ ravel (0 :: aShape cfg.dims.tailDims) (t :: y) * cfg.dims.dtype.bytes := by
            apply Nat.mul_le_mul_right
            simp only [ravel]
            omega
        _ ≤ _ := Nat.le_add_right _ _

/-- The acquired element is the pixel of the frame at its rank. -/
theorem logicalByte_frame {D : ArrayDims} (hv : D.Valid) (hf : D.Room) {frames : List Bytes}
    (hd : ∀ f ∈ frames, f.length = D.frameBytes) {t y x s : Nat} {i : List Nat}
    (hi : InBounds (aShape D.inner) i) (hy : y < D.height.arraySize) (hx : x < D.width.arraySize)
    (hs : s < D.dtype.bytes) :
    logicalByte (aShape D.tailDims) D.dtype.bytes frames.flatten (t :: (i ++ [y, x])) s =
      match frames[t * prod (aShape D.inner) + ravel (aShape D.inner) i]? with
      | some fr => fr.getD ((y * D.width.arraySize + x) * D.dtype.bytes + s) 0
      | none => 0 := by
  rw [ArrayDims.logicalByte_coord D _ t y x s (by rw [hi.length]; simp), if_pos ⟨hi, hy, hx⟩]
  have hq := ArrayDims.pixel_lt hv hf hy hx hs
  generalize (y * D.width.arraySize + x) * D.dtype.bytes + s = q at *
  show _ = match frames[D.frameIndex t i]? with
    | some fr => fr.getD q 0
    | none => 0
  generalize D.frameIndex t i = k at *
  clear hi hy hx hs
  induction frames generalizing k with
  | nil => simp
  | cons fr frs ih =>
    have hl := hd fr (by simp)
    cases k with
    | zero =>
      simp only [List.flatten_cons, Nat.zero_mul, Nat.zero_add, List.getElem?_cons_zero]
      rw [List.getD_eq_getElem?_getD, List.getD_eq_getElem?_getD, List.getElem?_append_left (by omega)]
    | succ k =>
      have ih := ih (fun f hf => hd f (by simp [hf])) (k := k)
      simp only [List.getElem?_cons_succ, List.flatten_cons]
      rw [← ih, List.getD_eq_getElem?_getD, List.getD_eq_getElem?_getD,
        List.getElem?_append_right (by rw [hl, Nat.succ_mul]; omega)]
      congr 2
      rw [hl, Nat.succ_mul]; omega

end AZ
