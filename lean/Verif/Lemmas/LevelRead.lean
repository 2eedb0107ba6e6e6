import Verif.Props.Metadata

set_option linter.unusedSimpArgs false

/-! # Reading any level of a V2 dataset -/

namespace AZ
open Spec

section
variable {w : World} {env : Env} {fuel : Nat} {s : Settings} {cfg : WConfig} {cfgs : List WConfig}
  {a y x : DimProps} {inner : List DimProps} {root : Text} {calls : List (List Bytes)} {tr : List Ev}

theorem level_item (hv : validateSettings w (some s) = .ok true) {c : WConfig}
    {i : Nat} (hL : LevelShape s c a y x inner i) : c.dims.dtype.bytes = itemSize s.dataType := by
  rw [hL.dtype]; exact fromC_bytes (validateSettings_ok hv).dtype

theorem v2_level_read0 (h : Setup0 w fuel s cfg cfgs) (hz : SizesInRange s) (hE : StorageOk env s) (hV : s.version = 2)
    (hd : s.dimensions = some (a :: (inner ++ [y, x]))) (hr : StoredAt s root) (hfr : Fresh w s root)
    {decode : Bytes → Option Bytes} (hdec : Decodes env s decode) {frames : List Bytes}
    (h3 : SessionV2 env cfg cfgs frames tr) {lv : Nat} {c : WConfig} (hc : cfgs[lv]? = some c)
    {t : Nat} {i : List Nat} {py px : Nat} (hi : InBounds (sizesAt lv inner) i)
    (hpy : py < levelSize y.isChannel y.arraySize lv) (hpx : px < levelSize x.isChannel x.arraySize lv) :
    readV2 (fun p => fileInStore w cfg p tr) (levelDir root lv) decode
      (chunksAt lv (a :: (inner ++ [y, x]))) (itemSize s.dataType) (t :: (i ++ [py, px])) =
    some (match (framesOfLevel cfg lv frames)[t * prod (sizesAt lv inner) + ravel (sizesAt lv inner) i]? with
      | some f => pixelOf f (levelSize x.isChannel x.arraySize lv) (itemSize s.dataType) py px
      | none => List.replicate (itemSize s.dataType) 0) := by
  have hL := h.levelShape hz hd hc
  have hit := level_item h.valid hL
  obtain ⟨hv, hfit⟩ := h.levelDims.1 c (List.mem_of_getElem? hc)
  have hff := h3.sizes lv c hc
  have hin := (levelConfigs_inherits h.levels hc).1
  have hD := dimsOf h.valid h.commit hd
  have hib : InBounds (aShape c.dims.inner) i := by rw [hL.innerSizes]; exact hi
  have hy' : py < c.dims.height.arraySize := by rw [hL.height]; exact hpy
  have hx' : px < c.dims.width.arraySize := by rw [hL.width]; exact hpx
  have hread := readV2_run env (h.versionV2 hV c (List.mem_of_getElem? hc)) hv hfit
    (framesOfLevel cfg lv frames).flatten (framesOfLevel cfg lv frames).length (flatten_length_const hff)
    (file := fun p => fileInStore w cfg p tr)
    (by
      rintro p ⟨g, l, rfl⟩
      rw [levelDir_eq0 h hr hc]
      exact level_chunk0 h hr hfr h3 hV hc g l)
    (decode := decode) (fun b hb => hdec.stored0 hE h hin hD.item b (by rw [hb]; exact h.chunk_le (List.mem_of_getElem? hc)))
    (t := t) (y := i ++ [py, px]) (by
      unfold ArrayDims.tailDims
      rw [aShape_append]
      exact (inBounds_append _ _ hib.length).2 ⟨hib, hy', hx', trivial⟩)
  rw [levelDir_eq0 h hr hc, hL.chunks, hit] at hread
  rw [hread]
  congr 1
  have hbyte : ∀ sb, sb < itemSize s.dataType → logicalByte (aShape c.dims.tailDims) (itemSize s.dataType)
      (framesOfLevel cfg lv frames).flatten (t :: (i ++ [py, px])) sb =
      match (framesOfLevel cfg lv frames)[t * prod (sizesAt lv inner) + ravel (sizesAt lv inner) i]? with
      | some fr => fr.getD ((py * levelSize x.isChannel x.arraySize lv + px) * itemSize s.dataType + sb) 0
      | none => 0 := fun sb hsb => by
    have := logicalByte_frame hv hfit hff (t := t) hib hy' hx' (s := sb) (by rw [hit]; exact hsb)
    rw [hL.innerSizes, hL.width, hit] at this
    exact this
  cases hfr' : (framesOfLevel cfg lv frames)[t * prod (sizesAt lv inner) + ravel (sizesAt lv inner) i]? with
  | none =>
    dsimp only
    apply List.ext_getElem (by simp)
    intro k k1 k2
    simp only [List.getElem_map, List.getElem_range, List.getElem_replicate]
    simp at k2
    rw [hbyte k k2, hfr']
  | some f =>
    dsimp only
    have hfl := hff f (List.mem_of_getElem? hfr')
    unfold pixelOf
    have hfb : c.dims.frameBytes = levelSize y.isChannel y.arraySize lv * levelSize x.isChannel x.arraySize lv *
        itemSize s.dataType := by
      unfold ArrayDims.frameBytes; rw [hit, hL.height, hL.width]
    rw [slice_eq_map (by rw [hfl, hfb]; exact pixel_fits hpy hpx)]
    apply List.map_congr_left
    intro k hk
    have hk := List.mem_range.1 hk
    rw [hbyte k hk, hfr']

theorem v2_level_read (h : Setup w fuel s cfg cfgs) (hz : SizesInRange s) (hE : StorageOk env s) (hV : s.version = 2)
    (hd : s.dimensions = some (a :: (inner ++ [y, x]))) (hr : StoredAt s root) (hfr : Fresh w s root)
    {decode : Bytes → Option Bytes} (hdec : Decodes env s decode) {frames : List Bytes}
    (h3 : SessionV2 env cfg cfgs frames tr) {lv : Nat} {c : WConfig} (hc : cfgs[lv]? = some c)
    {t : Nat} {i : List Nat} {py px : Nat} (hi : InBounds (sizesAt lv inner) i)
    (hpy : py < levelSize y.isChannel y.arraySize lv) (hpx : px < levelSize x.isChannel x.arraySize lv) :
    readV2 (fun p => fileInStore w cfg p tr) (levelDir root lv) decode
      (chunksAt lv (a :: (inner ++ [y, x]))) (itemSize s.dataType) (t :: (i ++ [py, px])) =
    some (match (framesOfLevel cfg lv frames)[t * prod (sizesAt lv inner) + ravel (sizesAt lv inner) i]? with
      | some f => pixelOf f (levelSize x.isChannel x.arraySize lv) (itemSize s.dataType) py px
      | none => List.replicate (itemSize s.dataType) 0) :=
  v2_level_read0 h.base hz hE hV hd hr hfr hdec h3 hc hi hpy hpx

end

/-! ### The frames of a level -/

theorem half_eq (n : Nat) : (n + n % 2) / 2 = ceilDiv n 2 := by unfold ceilDiv; omega

theorem levelFrames_succ (t : DType) (i w h : Nat) (fs : List Bytes) :
    levelFrames t (i + 1) w h fs =
      nextFrames t (ceilDiv w (2 ^ i)) (ceilDiv h (2 ^ i)) (levelFrames t i w h fs) := by
  induction i generalizing w h fs with
  | zero => simp [levelFrames, ceilDiv_one]
  | succ i ih =>
    rw [levelFrames, ih, levelFrames, half_eq, half_eq]
    have e : ∀ n, ceilDiv (ceilDiv n 2) (2 ^ i) = ceilDiv n (2 ^ (i + 1)) := by
      intro n
      unfold ceilDiv
      have hp : 0 < 2 ^ i := Nat.two_pow_pos i
      rw [Nat.pow_succ]
      have : ((n + 2 - 1) / 2 + 2 ^ i - 1) / 2 ^ i = (n + 2 - 1 + 2 * (2 ^ i - 1)) / 2 / 2 ^ i := by
        congr 1
        generalize 2 ^ i = q at *
        omega
      rw [this, Nat.div_div_eq_div_mul]
      congr 1
      · generalize 2 ^ i = q at *; omega
      · exact Nat.mul_comm ..
    rw [e, e]

theorem nextFrames_getElem? (t : DType) (w h : Nat) (fs : List Bytes) (j : Nat) :
    (nextFrames t w h fs)[j]? = match fs[2 * j]?, fs[2 * j + 1]? with
      | some a, some b => some (averageFrames t (scaledPx b w h) (scaledPx a w h))
      | _, _ => none := by
  fun_induction nextFrames t w h fs generalizing j with
  | case1 a b rest ih =>
    cases j with
    | zero => rfl
    | succ j =>
      rw [List.getElem?_cons_succ, ih, show 2 * (j + 1) = 2 * j + 1 + 1 by omega]
      simp only [List.getElem?_cons_succ]
  | case2 fs hne =>
    have hlen : fs.length ≤ 1 := by
      match fs, hne with
      | [], _ => simp
      | [_], _ => simp
      | a :: b :: r, hne => exact absurd rfl (hne a b r)
    rw [List.getElem?_eq_none (l := fs) (i := 2 * j + 1) (by omega)]
    cases fs[2 * j]? <;> simp

end AZ
