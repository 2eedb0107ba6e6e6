import Verif.Model.Frame
import Verif.Lemmas.Dimension
import Verif.Lemmas.Bytes
import Verif.Spec.LargeFrames

set_option linter.unusedSimpArgs false

namespace AZ
open Spec

/-- Byte `b` of chunk buffer `c`. -/
def byteAt (bufs : List Bytes) (c b : Nat) : Option UInt8 := bufs[c]?.bind (·[b]?)

/-- The buffers have the shape `make_buffers_` gives them. -/
def Sized (D : ArrayDims) (bufs : List Bytes) : Prop :=
  bufs.length = D.chunkCount ∧ ∀ buf ∈ bufs, buf.length = D.chunkBytes

/-- One contiguous copy: `n` bytes of the frame from `start` to byte `pos` of chunk `c`. -/
structure RowOp where
  c : Nat
  pos : Nat
  start : Nat
  n : Nat

def RowOp.InRange (op : RowOp) (nC nB nD : Nat) : Prop :=
  op.c < nC ∧ op.pos + op.n ≤ nB ∧ op.start + op.n ≤ nD

def RowOp.Covers (op : RowOp) (c b : Nat) : Prop := op.c = c ∧ op.pos ≤ b ∧ b < op.pos + op.n

instance (op : RowOp) (c b) : Decidable (op.Covers c b) := by unfold RowOp.Covers; infer_instance

def applyOp (data : Bytes) (bufs : List Bytes) (op : RowOp) : List Bytes :=
  match bufs[op.c]? with
  | none => bufs
  | some chunk => bufs.set op.c (pwrite chunk op.pos (slice data op.start op.n))

theorem applyOp_sized {data : Bytes} {bufs : List Bytes} {op : RowOp} {nC nB : Nat}
    (hl : bufs.length = nC) (hb : ∀ buf ∈ bufs, buf.length = nB) (hr : op.InRange nC nB data.length) :
    (applyOp data bufs op).length = nC ∧ ∀ buf ∈ applyOp data bufs op, buf.length = nB := by
  obtain ⟨h1, h2, h3⟩ := hr
  have hc : op.c < bufs.length := by omega
  unfold applyOp
  rw [List.getElem?_eq_getElem hc]
  refine ⟨by simp [hl], ?_⟩
  intro buf hbuf
  rcases List.mem_or_eq_of_mem_set hbuf with h | h
  · exact hb _ h
  · rw [h]
    have := hb _ (List.getElem_mem hc)
    rw [pwrite_length, this]
    rw [slice_length h3, this]; exact h2

theorem applyOp_byteAt {data : Bytes} {bufs : List Bytes} {op : RowOp} {nC nB : Nat}
    (hl : bufs.length = nC) (hb : ∀ buf ∈ bufs, buf.length = nB) (hr : op.InRange nC nB data.length)
    (c b : Nat) :
    byteAt (applyOp data bufs op) c b =
      if op.Covers c b then data[op.start + (b - op.pos)]? else byteAt bufs c b := by
  obtain ⟨h1, h2, h3⟩ := hr
  have hc : op.c < bufs.length := by omega
  unfold applyOp byteAt RowOp.Covers
  rw [List.getElem?_eq_getElem hc]
  have hlen := hb _ (List.getElem_mem hc)
  by_cases h : op.c = c
  · subst h
    simp only [List.getElem?_set_self hc, Option.bind_some, List.getElem?_eq_getElem hc]
    rw [pwrite_getElem? (by omega), slice_length h3]
    simp only [true_and]
    split
    · rw [slice_getElem? (by omega)]
    · rfl
  · simp only [List.getElem?_set_ne h, h, false_and, if_false]

def applyOps (data : Bytes) (ops : List RowOp) (bufs : List Bytes) : List Bytes :=
  ops.foldl (applyOp data) bufs

theorem applyOps_sized {data : Bytes} {ops : List RowOp} {bufs : List Bytes} {nC nB : Nat}
    (hl : bufs.length = nC) (hb : ∀ buf ∈ bufs, buf.length = nB)
    (hr : ∀ op ∈ ops, op.InRange nC nB data.length) :
    (applyOps data ops bufs).length = nC ∧ ∀ buf ∈ applyOps data ops bufs, buf.length = nB := by
  induction ops generalizing bufs with
  | nil => exact ⟨hl, hb⟩
  | cons op ops ih =>
    have := applyOp_sized hl hb (hr op (by simp))
    exact ih this.1 this.2 fun o ho => hr o (by simp [ho])

theorem applyOps_not_covered {data : Bytes} {ops : List RowOp} {bufs : List Bytes} {nC nB : Nat}
    (hl : bufs.length = nC) (hb : ∀ buf ∈ bufs, buf.length = nB)
    (hr : ∀ op ∈ ops, op.InRange nC nB data.length) {c b : Nat}
    (hn : ∀ op ∈ ops, ¬ op.Covers c b) :
    byteAt (applyOps data ops bufs) c b = byteAt bufs c b := by
  induction ops generalizing bufs with
  | nil => rfl
  | cons op ops ih =>
    have := applyOp_sized hl hb (hr op (by simp))
    have e := ih this.1 this.2 (fun o ho => hr o (by simp [ho])) (fun o ho => hn o (by simp [ho]))
    show byteAt (applyOps data ops (applyOp data bufs op)) c b = _
    rw [e, applyOp_byteAt hl hb (hr op (by simp)), if_neg (hn op (by simp))]

theorem applyOps_covered {data : Bytes} {ops : List RowOp} {bufs : List Bytes} {nC nB : Nat}
    (hl : bufs.length = nC) (hb : ∀ buf ∈ bufs, buf.length = nB)
    (hr : ∀ op ∈ ops, op.InRange nC nB data.length) {c b : Nat} {v : Option UInt8}
    (hv : ∀ op ∈ ops, op.Covers c b → data[op.start + (b - op.pos)]? = v)
    (hex : ∃ op ∈ ops, op.Covers c b) :
    byteAt (applyOps data ops bufs) c b = v := by
  induction ops generalizing bufs with
  | nil => simp at hex
  | cons op ops ih =>
    have hsz := applyOp_sized hl hb (hr op (by simp))
    show byteAt (applyOps data ops (applyOp data bufs op)) c b = _
    by_cases h : ∃ o ∈ ops, o.Covers c b
    · exact ih hsz.1 hsz.2 (fun o ho => hr o (by simp [ho])) (fun o ho => hv o (by simp [ho])) h
    · have hcov : op.Covers c b := by
        obtain ⟨o, ho, hc⟩ := hex
        rcases List.mem_cons.1 ho with rfl | ho
        · exact hc
        · exact absurd ⟨o, ho, hc⟩ h
      rw [applyOps_not_covered hsz.1 hsz.2 (fun o ho => hr o (by simp [ho]))
        (fun o ho hc => h ⟨o, ho, hc⟩), applyOp_byteAt hl hb (hr op (by simp)), if_pos hcov]
      exact hv op (by simp) hcov

/-! ### The rows of one frame -/

namespace ArrayDims
variable {D : ArrayDims}

def tilesY (D : ArrayDims) : Nat := ceilDiv D.height.arraySize D.height.chunkSize
def tilesX (D : ArrayDims) : Nat := ceilDiv D.width.arraySize D.width.chunkSize

/-- Width in pixels of tile column `j`. -/
def tileWidth (D : ArrayDims) (j : Nat) : Nat :=
  min (j * D.width.chunkSize + D.width.chunkSize) D.width.arraySize - j * D.width.chunkSize

/-- Exact form of the copy made for `(i, j, k)`. -/
def rowOp (D : ArrayDims) (f : Nat) (t : Nat × Nat × Nat) : RowOp where
  c := (latG D.inner f * D.tilesY + t.1) * D.tilesX + t.2.1
  pos := (D.frameRank f * D.height.chunkSize + t.2.2) * D.width.chunkSize * D.dtype.bytes
  start := ((t.1 * D.height.chunkSize + t.2.2) * D.width.arraySize + t.2.1 * D.width.chunkSize)
    * D.dtype.bytes
  n := D.tileWidth t.2.1 * D.dtype.bytes

/-- The rows of the tiles that lie inside the frame. -/
def realRow (D : ArrayDims) (t : Nat × Nat × Nat) : Bool :=
  decide (t.1 * D.height.chunkSize + t.2.2 < D.height.arraySize)

def InTiles (D : ArrayDims) (t : Nat × Nat × Nat) : Prop :=
  t.1 < D.tilesY ∧ t.2.1 < D.tilesX ∧ t.2.2 < D.height.chunkSize

theorem mem_tileRowsOf {a b c : Nat} {t : Nat × Nat × Nat} :
    t ∈ tileRowsOf a b c ↔ t.1 < a ∧ t.2.1 < b ∧ t.2.2 < c := by
  obtain ⟨i, j, k⟩ := t
  simp [tileRowsOf]
  
theorem rowOp_inRange (hv : D.Valid) (hf : D.Room) (f : Nat) {t : Nat × Nat × Nat}
    (ht : D.InTiles t) (hr : D.realRow t = true) :
    (D.rowOp f t).InRange D.chunkCount D.chunkBytes D.frameBytes := by
  obtain ⟨i, j, k⟩ := t
  obtain ⟨hi, hj, hk⟩ := ht
  simp only [realRow, decide_eq_true_eq] at hr
  simp only at hi hj hk
  refine ⟨?_, ?_, ?_⟩
  · rw [chunkCount_eq]
    have h1 := latG_lt (innerOk hv hf) f
    simp only [rowOp]
    calc (latG D.inner f * D.tilesY + i) * D.tilesX + j
        < (latG D.inner f * D.tilesY + i) * D.tilesX + D.tilesX := by omega
      _ = (latG D.inner f * D.tilesY + (i + 1)) * D.tilesX := by ring
      _ ≤ (latG D.inner f * D.tilesY + D.tilesY) * D.tilesX :=
          Nat.mul_le_mul_right _ (by omega)
      _ = (latG D.inner f + 1) * (D.tilesY * D.tilesX) := by ring
      _ ≤ prod (nShape D.inner) * (D.tilesY * D.tilesX) := Nat.mul_le_mul_right _ h1
  · rw [chunkBytes_eq]
    have h1 := frameRank_lt hv hf f
    have hw : D.tileWidth j ≤ D.width.chunkSize := by unfold tileWidth; omega
    simp only [rowOp]
    calc (D.frameRank f * D.height.chunkSize + k) * D.width.chunkSize * D.dtype.bytes +
          D.tileWidth j * D.dtype.bytes
        ≤ (D.frameRank f * D.height.chunkSize + k) * D.width.chunkSize * D.dtype.bytes +
          D.width.chunkSize * D.dtype.bytes := Nat.add_le_add_left (Nat.mul_le_mul_right _ hw) _
      _ = (D.frameRank f * D.height.chunkSize + (k + 1)) * (D.width.chunkSize * D.dtype.bytes) := by ring
      _ ≤ (D.frameRank f * D.height.chunkSize + D.height.chunkSize) *
          (D.width.chunkSize * D.dtype.bytes) := Nat.mul_le_mul_right _ (by omega)
      _ = (D.frameRank f + 1) * (D.height.chunkSize * (D.width.chunkSize * D.dtype.bytes)) := by ring
      _ ≤ (D.append.chunkSize * prod (cShape D.inner)) *
          (D.height.chunkSize * (D.width.chunkSize * D.dtype.bytes)) := Nat.mul_le_mul_right _ h1
      _ = _ := by ring
  · have hjw : j * D.width.chunkSize < D.width.arraySize := (lt_ceilDiv_iff (widthOk hv hf).1).1 hj
    have hw : j * D.width.chunkSize + D.tileWidth j ≤ D.width.arraySize := by unfold tileWidth; omega
    simp only [rowOp, frameBytes]
    calc ((i * D.height.chunkSize + k) * D.width.arraySize + j * D.width.chunkSize) * D.dtype.bytes +
          D.tileWidth j * D.dtype.bytes
        = ((i * D.height.chunkSize + k) * D.width.arraySize +
            (j * D.width.chunkSize + D.tileWidth j)) * D.dtype.bytes := by ring
      _ ≤ ((i * D.height.chunkSize + k) * D.width.arraySize + D.width.arraySize) * D.dtype.bytes :=
          Nat.mul_le_mul_right _ (by omega)
      _ = ((i * D.height.chunkSize + k + 1) * D.width.arraySize) * D.dtype.bytes := by ring
      _ ≤ _ := Nat.mul_le_mul_right _ (Nat.mul_le_mul_right _ hr)

/-- Which cell of the chunk grid a copied byte belongs to. `R` is the rank of the in-chunk frame
position. -/
theorem rowOp_covers_iff (hv : D.Valid) (hf : D.Room) (f : Nat) {t : Nat × Nat × Nat}
    (ht : D.InTiles t) {L ly lx R oy ox s : Nat} (hly : ly < D.tilesY) (hlx : lx < D.tilesX)
    (hoy : oy < D.height.chunkSize) (hox : ox < D.width.chunkSize) (hs : s < D.dtype.bytes) :
    (D.rowOp f t).Covers ((L * D.tilesY + ly) * D.tilesX + lx)
      (((R * D.height.chunkSize + oy) * D.width.chunkSize + ox) * D.dtype.bytes + s) ↔
    latG D.inner f = L ∧ D.frameRank f = R ∧ t = (ly, lx, oy) ∧
      lx * D.width.chunkSize + ox < D.width.arraySize := by
  obtain ⟨i, j, k⟩ := t
  obtain ⟨hi, hj, hk⟩ := ht
  simp only at hi hj hk
  have hb : 0 < D.dtype.bytes := dtype_pos D
  have hwc := (widthOk hv hf).1
  simp only [RowOp.Covers, rowOp]
  rw [digit_iff hj hlx, digit_iff hi hly]
  have hw : D.tileWidth j ≤ D.width.chunkSize := by unfold tileWidth; omega
  have hox' : ox < D.tileWidth j ↔ j * D.width.chunkSize + ox < D.width.arraySize := by
    unfold tileWidth; omega
  generalize hP : D.frameRank f * D.height.chunkSize + k = P
  generalize hQ : R * D.height.chunkSize + oy = Q
  have hPQ : P = Q ↔ D.frameRank f = R ∧ k = oy := by
    rw [← hP, ← hQ]; exact digit_iff hk hoy
  have key : (P * D.width.chunkSize * D.dtype.bytes ≤ (Q * D.width.chunkSize + ox) * D.dtype.bytes + s ∧
      (Q * D.width.chunkSize + ox) * D.dtype.bytes + s <
        P * D.width.chunkSize * D.dtype.bytes + D.tileWidth j * D.dtype.bytes) ↔
      (P = Q ∧ ox < D.tileWidth j) := by
    constructor
    · rintro ⟨h1, h2⟩
      have h3 : P * D.width.chunkSize ≤ Q * D.width.chunkSize + ox := by
        by_contra hlt
        push Not at hlt
        have : (Q * D.width.chunkSize + ox + 1) * D.dtype.bytes ≤ P * D.width.chunkSize * D.dtype.bytes :=
          Nat.mul_le_mul_right _ hlt
        rw [Nat.add_mul, Nat.one_mul] at this
        omega
      have h4 : Q * D.width.chunkSize + ox < P * D.width.chunkSize + D.tileWidth j := by
        by_contra hge
        push Not at hge
        have : (P * D.width.chunkSize + D.tileWidth j) * D.dtype.bytes ≤
            (Q * D.width.chunkSize + ox) * D.dtype.bytes := Nat.mul_le_mul_right _ hge
        rw [Nat.add_mul] at this
        omega
      have h5 : P = Q := by
        rcases Nat.lt_trichotomy P Q with h | h | h
        · have : (P + 1) * D.width.chunkSize ≤ Q * D.width.chunkSize := Nat.mul_le_mul_right _ h
          rw [Nat.add_mul, Nat.one_mul] at this
          omega
        · exact h
        · have : (Q + 1) * D.width.chunkSize ≤ P * D.width.chunkSize := Nat.mul_le_mul_right _ h
          rw [Nat.add_mul, Nat.one_mul] at this
          omega
      subst h5
      exact ⟨rfl, by omega⟩
    · rintro ⟨rfl, h2⟩
      constructor
      · calc P * D.width.chunkSize * D.dtype.bytes
            ≤ (P * D.width.chunkSize + ox) * D.dtype.bytes := Nat.mul_le_mul_right _ (by omega)
          _ ≤ _ := Nat.le_add_right _ _
      · calc (P * D.width.chunkSize + ox) * D.dtype.bytes + s
            < (P * D.width.chunkSize + ox) * D.dtype.bytes + D.dtype.bytes := by omega
          _ = (P * D.width.chunkSize + (ox + 1)) * D.dtype.bytes := by ring
          _ ≤ (P * D.width.chunkSize + D.tileWidth j) * D.dtype.bytes :=
              Nat.mul_le_mul_right _ (by omega)
          _ = _ := by ring
  rw [key, hPQ, hox']
  simp only [Prod.mk.injEq]
  constructor
  · rintro ⟨⟨⟨a1, a2⟩, a3⟩, ⟨a4, a5⟩, a6⟩
    subst a2 a3 a5
    exact ⟨a1, a4, ⟨rfl, rfl, rfl⟩, a6⟩
  · rintro ⟨a1, a4, ⟨a2, a3, a5⟩, a6⟩
    subst a2 a3 a5
    exact ⟨⟨⟨a1, rfl⟩, rfl⟩, ⟨a4, rfl⟩, a6⟩

/-- The source byte of a covered position. -/
theorem rowOp_source {f ly lx oy R ox s : Nat} (hR : D.frameRank f = R) :
    (D.rowOp f (ly, lx, oy)).start +
      (((R * D.height.chunkSize + oy) * D.width.chunkSize + ox) * D.dtype.bytes + s -
        (D.rowOp f (ly, lx, oy)).pos) =
    ((ly * D.height.chunkSize + oy) * D.width.arraySize + (lx * D.width.chunkSize + ox)) *
      D.dtype.bytes + s := by
  subst hR
  simp only [rowOp]
  have : ((D.frameRank f * D.height.chunkSize + oy) * D.width.chunkSize + ox) * D.dtype.bytes + s -
      (D.frameRank f * D.height.chunkSize + oy) * D.width.chunkSize * D.dtype.bytes =
      ox * D.dtype.bytes + s := by
    rw [Nat.add_mul, Nat.add_assoc, Nat.add_sub_cancel_left]
  rw [this]
  ring

/-! ### The model's loop performs exactly these copies -/

/-- The frame the copy loop takes its pixels from, laid out as the caller's frame. -/
abbrev seen (D : ArrayDims) (data : Bytes) : Bytes :=
  Spec.seenFrame D.dtype.bytes D.width.arraySize D.width.chunkSize data

theorem seen_length (data : Bytes) : (D.seen data).length = data.length := by simp [Spec.seenFrame]

/-- Pixels below `2^32` are themselves. -/
theorem seenPixel_small {w c p : Nat} (h : p < 2 ^ 32) : Spec.seenPixel w c p = p := by
  unfold Spec.seenPixel
  have : p % w % c ≤ p := Nat.le_trans (Nat.mod_le _ _) (Nat.mod_le _ _)
  rw [Nat.mod_eq_of_lt (by omega)]
  omega

/-- Frames of at most `2^32` pixels are stored as they are. -/
theorem seen_eq (h : D.height.arraySize * D.width.arraySize ≤ 2 ^ 32) {data : Bytes}
    (hd : data.length = D.frameBytes) : D.seen data = data := by
  have hb := dtype_pos D
  apply List.ext_getElem (by simp [Spec.seenFrame])
  intro b h1 h2
  have hp : b / D.dtype.bytes < 2 ^ 32 := by
    rw [Nat.div_lt_iff_lt_mul hb]
    have : D.frameBytes ≤ 2 ^ 32 * D.dtype.bytes := Nat.mul_le_mul_right _ h
    omega
  simp only [Spec.seenFrame, List.getElem_map, List.getElem_range, seenPixel_small hp]
  rw [Nat.mul_comm, Nat.div_add_mod, List.getD_eq_getElem?_getD, List.getElem?_eq_getElem h2]
  rfl

/-- A run of pixels of one row inside one tile. -/
theorem slice_seen {data : Bytes} {r j n : Nat} (hd : data.length = D.frameBytes)
    (hr : r < D.height.arraySize) (hn : n ≤ D.width.chunkSize) (hc : 0 < D.width.chunkSize)
    (hw : j * D.width.chunkSize + n ≤ D.width.arraySize) :
    slice (D.seen data) ((r * D.width.arraySize + j * D.width.chunkSize) * D.dtype.bytes) (n * D.dtype.bytes) =
      slice data ((r * D.width.arraySize + j * D.width.chunkSize) % 2 ^ 32 * D.dtype.bytes)
        (n * D.dtype.bytes) := by
  have hb := dtype_pos D
  have hrow : (r * D.width.arraySize + j * D.width.chunkSize + n) * D.dtype.bytes ≤ data.length := by
    rw [hd]
    refine Nat.mul_le_mul_right _ ?_
    calc r * D.width.arraySize + j * D.width.chunkSize + n ≤ (r + 1) * D.width.arraySize := by
          rw [Nat.add_mul, Nat.one_mul]; omega
      _ ≤ _ := Nat.mul_le_mul_right _ hr
  have hmod := Nat.mod_le (r * D.width.arraySize + j * D.width.chunkSize) (2 ^ 32)
  generalize hq : r * D.width.arraySize + j * D.width.chunkSize = q at *
  have hle : (q % 2 ^ 32 + n) * D.dtype.bytes ≤ data.length :=
    Nat.le_trans (Nat.mul_le_mul_right _ (by omega)) hrow
  rw [Nat.add_mul] at hle hrow
  have hl := seen_length (D := D) data
  apply List.ext_getElem (by simp only [slice, List.length_take, List.length_drop, hl]; omega)
  intro i h1 h2
  have hi : i < n * D.dtype.bytes := by simp [slice] at h1; omega
  simp only [slice, List.getElem_take, List.getElem_drop]
  have hin : i / D.dtype.bytes < n := (Nat.div_lt_iff_lt_mul hb).2 hi
  have hdiv : (q * D.dtype.bytes + i) / D.dtype.bytes = q + i / D.dtype.bytes := by
    rw [Nat.mul_comm, Nat.mul_add_div hb]
  have hmodb : (q * D.dtype.bytes + i) % D.dtype.bytes = i % D.dtype.bytes := Nat.mul_add_mod_self_right _ _ _
  have hcol : (q + i / D.dtype.bytes) % D.width.arraySize % D.width.chunkSize = i / D.dtype.bytes := by
    have : (q + i / D.dtype.bytes) % D.width.arraySize = j * D.width.chunkSize + i / D.dtype.bytes := by
      rw [← hq, Nat.add_assoc, Nat.mul_add_mod_self_right, Nat.mod_eq_of_lt (by omega)]
    rw [this, Nat.mul_add_mod_self_right, Nat.mod_eq_of_lt (by omega)]
  have hpix : Spec.seenPixel D.width.arraySize D.width.chunkSize (q + i / D.dtype.bytes) =
      q % 2 ^ 32 + i / D.dtype.bytes := by
    unfold Spec.seenPixel
    rw [hcol, Nat.add_sub_cancel]
  simp only [seen, Spec.seenFrame, List.getElem_map, List.getElem_range, hdiv, hmodb, hpix]
  have he : (q % 2 ^ 32 + i / D.dtype.bytes) * D.dtype.bytes + i % D.dtype.bytes = q % 2 ^ 32 * D.dtype.bytes + i := by
    have := Nat.div_add_mod i D.dtype.bytes
    rw [Nat.add_mul, Nat.mul_comm (i / _)]
    omega
  rw [he, List.getD_eq_getElem?_getD, List.getElem?_eq_getElem (by omega)]
  rfl

theorem copyRow_eq (hv : D.Valid) (hf : D.Room) (f : Nat) {data : Bytes} {st : CopyState}
    (hd : data.length = D.frameBytes) (hs : Sized D st.bufs) (hst : st.stopped = false)
    {t : Nat × Nat × Nat} (ht : D.InTiles t) :
    copyRow D data (D.tileGroupOffset f) (D.chunkInternalOffset f) D.tilesX st t =
      if D.realRow t then
        .ok ⟨applyOp (D.seen data) st.bufs (D.rowOp f t), u64 (st.written + (D.rowOp f t).n), false⟩
      else .ok st := by
  have hrange := fun h => rowOp_inRange hv hf f ht (t := t) h
  obtain ⟨i, j, k⟩ := t
  obtain ⟨hi, hj, hk⟩ := ht
  simp only at hi hj hk
  obtain ⟨h1, h2, h3⟩ := heightOk hv hf
  obtain ⟨w1, w2, w3⟩ := widthOk hv hf
  have hcnt := hf.count
  have hb : 0 < D.dtype.bytes := dtype_pos D
  have hG := latG_lt (innerOk hv hf) f
  have hchunk : (latG D.inner f * D.tilesY + i) * D.tilesX + j < D.chunkCount := by
    rw [chunkCount_eq]
    calc (latG D.inner f * D.tilesY + i) * D.tilesX + j
        < (latG D.inner f * D.tilesY + i) * D.tilesX + D.tilesX := by omega
      _ = (latG D.inner f * D.tilesY + (i + 1)) * D.tilesX := by ring
      _ ≤ (latG D.inner f * D.tilesY + D.tilesY) * D.tilesX := Nat.mul_le_mul_right _ (by omega)
      _ = (latG D.inner f + 1) * (D.tilesY * D.tilesX) := by ring
      _ ≤ prod (nShape D.inner) * (D.tilesY * D.tilesX) := Nat.mul_le_mul_right _ hG
  have hc : u32 (u32 (D.tileGroupOffset f + u32 (i * D.tilesX)) + j) =
      (latG D.inner f * D.tilesY + i) * D.tilesX + j := by
    rw [tileGroupOffset_eq hv hf]
    have e : latG D.inner f * (D.tilesY * D.tilesX) + i * D.tilesX =
      (latG D.inner f * D.tilesY + i) * D.tilesX := by ring
    change u32 (u32 (latG D.inner f * (D.tilesY * D.tilesX) + u32 (i * D.tilesX)) + j) = _
    rw [u32_of_lt (n := i * D.tilesX) (by omega), e, u32_of_lt (n := _ * D.tilesX) (by omega),
      u32_of_lt (by omega)]
  have hY : D.tilesY * D.height.chunkSize < D.height.arraySize + D.height.chunkSize :=
    ceilDiv_mul_lt h2 h1
  have hjw : j * D.width.chunkSize < D.width.arraySize := (lt_ceilDiv_iff w1).1 hj
  have hik : i * D.height.chunkSize + k < D.tilesY * D.height.chunkSize := by
    calc i * D.height.chunkSize + k < i * D.height.chunkSize + D.height.chunkSize := by omega
      _ = (i + 1) * D.height.chunkSize := by ring
      _ ≤ _ := Nat.mul_le_mul_right _ hi
  have hrow : u32 (u32 (i * D.height.chunkSize) + k) = i * D.height.chunkSize + k := by
    rw [u32_of_lt (n := i * D.height.chunkSize) (by omega), u32_of_lt (by omega)]
  have hcol : u32 (j * D.width.chunkSize) = j * D.width.chunkSize := u32_of_lt (by omega)
  have hwid : u32 (min (u32 (j * D.width.chunkSize + D.width.chunkSize)) D.width.arraySize + 2 ^ 32 -
      j * D.width.chunkSize) = D.tileWidth j := by
    rw [u32_of_lt (n := j * D.width.chunkSize + D.width.chunkSize) (by omega)]
    unfold tileWidth u32
    omega
  have hcl : ((latG D.inner f * D.tilesY + i) * D.tilesX + j) < st.bufs.length := by
    rw [hs.1]; exact hchunk
  have hclen := hs.2 _ (List.getElem_mem hcl)
  have hcb := chunkBytes_lt hv hf
  have htile : u64 (D.width.chunkSize * D.dtype.bytes) = D.width.chunkSize * D.dtype.bytes := by
    apply u64_of_lt
    have : D.width.chunkSize * D.dtype.bytes ≤ D.chunkBytes := by
      rw [chunkBytes_eq]
      have p3 := hv.append_chunk
      have p7 := prodC_pos (innerOk hv hf)
      calc D.width.chunkSize * D.dtype.bytes
          ≤ (D.append.chunkSize * prod (cShape D.inner) * D.height.chunkSize) *
            (D.width.chunkSize * D.dtype.bytes) := Nat.le_mul_of_pos_left _ (by positivity)
        _ = _ := by ring
    omega
  have hpos : D.chunkInternalOffset f + k * (D.width.chunkSize * D.dtype.bytes) =
      (D.frameRank f * D.height.chunkSize + k) * D.width.chunkSize * D.dtype.bytes := by
    rw [chunkInternalOffset_eq hv hf]
    ring
  unfold copyRow
  simp only [hst, Bool.false_eq_true, if_false, hc, hrow, hcol, hwid, htile, hpos,
    List.getElem?_eq_getElem hcl]
  by_cases hr : i * D.height.chunkSize + k < D.height.arraySize
  · have hr' : D.realRow (i, j, k) = true := by simpa [realRow] using hr
    obtain ⟨r1, r2, r3⟩ := hrange hr'
    have hfb := frameBytes_lt hv hf
    simp only [rowOp] at r1 r2 r3
    have hle : (i * D.height.chunkSize + k) * D.width.arraySize + j * D.width.chunkSize ≤
        ((i * D.height.chunkSize + k) * D.width.arraySize + j * D.width.chunkSize) * D.dtype.bytes :=
      Nat.le_mul_of_pos_right _ hb
    have hm : (((i * D.height.chunkSize + k) * D.width.arraySize + j * D.width.chunkSize) % 2 ^ 32) * D.dtype.bytes ≤
        ((i * D.height.chunkSize + k) * D.width.arraySize + j * D.width.chunkSize) * D.dtype.bytes :=
      Nat.mul_le_mul_right _ (Nat.mod_le _ _)
    have hstart : u64 (D.dtype.bytes * u32 (u32 ((i * D.height.chunkSize + k) * D.width.arraySize) +
        j * D.width.chunkSize)) =
        ((i * D.height.chunkSize + k) * D.width.arraySize + j * D.width.chunkSize) % 2 ^ 32 * D.dtype.bytes := by
      have : u32 (u32 ((i * D.height.chunkSize + k) * D.width.arraySize) + j * D.width.chunkSize) =
          ((i * D.height.chunkSize + k) * D.width.arraySize + j * D.width.chunkSize) % 2 ^ 32 := by
        unfold u32; omega
      rw [this, Nat.mul_comm, u64_of_lt (by omega)]
    have hn : u64 (D.tileWidth j * D.dtype.bytes) = D.tileWidth j * D.dtype.bytes :=
      u64_of_lt (by omega)
    rw [hstart, hn, if_pos hr, if_neg (by omega), if_neg (by omega), if_pos hr']
    simp only [applyOp, rowOp, List.getElem?_eq_getElem hcl]
    rw [slice_seen hd hr (by unfold tileWidth; omega) w1 (by unfold tileWidth; omega)]
  · have hr' : D.realRow (i, j, k) = false := by simpa [realRow] using hr
    rw [if_neg hr, hr', if_neg (by simp)]

theorem copyRows_eq (hv : D.Valid) (hf : D.Room) (f : Nat) {data : Bytes}
    (hd : data.length = D.frameBytes) (ts : List (Nat × Nat × Nat)) (ht : ∀ t ∈ ts, D.InTiles t)
    {st : CopyState} (hs : Sized D st.bufs) (hst : st.stopped = false)
    (hw : st.written + ((ts.filter D.realRow).map fun t => (D.rowOp f t).n).sum < 2 ^ 64) :
    copyRows D data (D.tileGroupOffset f) (D.chunkInternalOffset f) D.tilesX ts st =
      .ok ⟨applyOps (D.seen data) ((ts.filter D.realRow).map (D.rowOp f)) st.bufs,
        st.written + ((ts.filter D.realRow).map fun t => (D.rowOp f t).n).sum, false⟩ := by
  induction ts generalizing st with
  | nil => cases st; simp_all [copyRows, applyOps]
  | cons t ts ih =>
    have ht0 := ht t (by simp)
    rw [copyRows, copyRow_eq hv hf f hd hs hst ht0]
    by_cases hr : D.realRow t = true
    · rw [if_pos hr]
      simp only [Res.bind_ok]
      rw [List.filter_cons_of_pos hr] at hw ⊢
      simp only [List.map_cons, List.sum_cons] at hw ⊢
      have hlt : u64 (st.written + (D.rowOp f t).n) = st.written + (D.rowOp f t).n :=
        u64_of_lt (by omega)
      have hinr := rowOp_inRange hv hf f ht0 hr
      rw [← hd, ← seen_length (D := D) data] at hinr
      have hsz := applyOp_sized hs.1 hs.2 hinr
      rw [ih (fun x hx => ht x (by simp [hx])) (st := ⟨applyOp (D.seen data) st.bufs (D.rowOp f t), u64 (st.written + (D.rowOp f t).n), false⟩) hsz rfl (by simp only [hlt]; omega)]
      simp only [hlt, applyOps, List.foldl_cons, Nat.add_assoc]
    · rw [if_neg hr]
      simp only [Res.bind_ok]
      rw [List.filter_cons_of_neg hr] at hw ⊢
      exact ih (fun x hx => ht x (by simp [hx])) hs hst hw

/-! ### Every frame byte is copied -/

theorem sum_tileWidths (c W n : Nat) :
    ((List.range n).map fun j => min (j * c + c) W - j * c).sum = min (n * c) W := by
  induction n with
  | zero => simp
  | succ n ih =>
    rw [List.range_succ, List.map_append, List.sum_append, ih]
    simp only [List.map_cons, List.map_nil, List.sum_cons, List.sum_nil, Nat.add_mul, Nat.one_mul]
    omega

theorem sum_rows (x H c : Nat) :
    ((List.range c).map fun k => if x + k < H then 1 else 0).sum = min (x + c) H - x := by
  induction c with
  | zero => simp
  | succ n ih =>
    rw [List.range_succ, List.map_append, List.sum_append, ih]
    simp only [List.map_cons, List.map_nil, List.sum_cons, List.sum_nil]
    split <;> omega

theorem sum_map_mul_right (l : List Nat) (g : Nat → Nat) (m : Nat) :
    (l.map fun x => g x * m).sum = (l.map g).sum * m := by
  induction l with
  | nil => simp
  | cons x xs ih => simp [ih, Nat.add_mul]

theorem sum_map_mul_left (l : List Nat) (g : Nat → Nat) (m : Nat) :
    (l.map fun x => m * g x).sum = m * (l.map g).sum := by
  induction l with
  | nil => simp
  | cons x xs ih => simp [ih, Nat.mul_add]

theorem sum_filter_map {α : Type} (l : List α) (p : α → Bool) (g : α → Nat) :
    ((l.filter p).map g).sum = (l.map fun x => if p x then g x else 0).sum := by
  induction l with
  | nil => rfl
  | cons x xs ih =>
    by_cases h : p x = true
    · simp [List.filter_cons_of_pos h, ih, h]
    · simp [List.filter_cons_of_neg h, ih, h]

theorem sum_flatMap {α β : Type} (l : List α) (g : α → List β) (w : β → Nat) :
    ((l.flatMap g).map w).sum = (l.map fun x => ((g x).map w).sum).sum := by
  induction l with
  | nil => rfl
  | cons x xs ih => simp [List.flatMap_cons, ih]

theorem sum_rowOps (hv : D.Valid) (hf : D.Room) (f : Nat) :
    (((tileRowsOf D.tilesY D.tilesX D.height.chunkSize).filter D.realRow).map
      fun t => (D.rowOp f t).n).sum = D.frameBytes := by
  rw [sum_filter_map]
  unfold tileRowsOf
  rw [sum_flatMap]
  have h1 : ∀ i, ((((List.range D.tilesX).flatMap fun j => (List.range D.height.chunkSize).map
        fun k => (i, j, k)).map fun x => if D.realRow x = true then (D.rowOp f x).n else 0)).sum =
      (min (i * D.height.chunkSize + D.height.chunkSize) D.height.arraySize - i * D.height.chunkSize) *
        (D.width.arraySize * D.dtype.bytes) := by
    intro i
    rw [sum_flatMap]
    have h2 : ∀ j, (((List.range D.height.chunkSize).map fun k => (i, j, k)).map
          fun x => if D.realRow x = true then (D.rowOp f x).n else 0).sum =
        (min (i * D.height.chunkSize + D.height.chunkSize) D.height.arraySize - i * D.height.chunkSize) *
          (D.tileWidth j * D.dtype.bytes) := by
      intro j
      rw [List.map_map, ← sum_rows, ← sum_map_mul_right]
      congr 1
      apply List.map_congr_left
      intro k _
      simp only [Function.comp, realRow, rowOp, decide_eq_true_eq]
      split <;> simp
    simp only [h2]
    rw [sum_map_mul_left, sum_map_mul_right]
    congr 2
    have := sum_tileWidths D.width.chunkSize D.width.arraySize D.tilesX
    unfold tileWidth
    rw [this, Nat.min_eq_right]
    exact ceilDiv_mul_ge (widthOk hv hf).1
  simp only [h1]
  have hH : D.height.arraySize ≤ D.tilesY * D.height.chunkSize := ceilDiv_mul_ge (heightOk hv hf).1
  rw [sum_map_mul_right, sum_tileWidths, Nat.min_eq_right hH, frameBytes, Nat.mul_assoc]

theorem foldl_u64_pos {ds : List Dim} (h : ∀ x ∈ ds, DimOk x) (acc : Nat) (hacc : 0 < acc)
    (hb : acc * prod (aShape ds) < 2 ^ 64) :
    ds.foldl (fun acc d => u64 (acc * d.arraySize)) acc ≠ 0 := by
  have := foldl_u64_eq (fun d : Dim => d.arraySize) ds acc (fun x hx => (h x hx).2.1) hb
  rw [this]
  have := prodA_pos h
  exact (Nat.mul_pos hacc this).ne'

theorem latticeChecks_true {ds : List Dim} (h : ∀ x ∈ ds, DimOk x)
    (hm : prod (nShape ds) * prod (cShape ds) < 2 ^ 63) : latticeChecks ds = true := by
  induction ds with
  | nil => rfl
  | cons d ds ih =>
    have hds := fun x hx => h x (List.mem_cons_of_mem _ hx)
    obtain ⟨h1, h2, h3⟩ := h d (by simp)
    have hnd := ceilDiv_pos h2 h1
    have hal := prodA_le hds
    have hA := prodA_le h
    have hC : d.chunkSize * prod (aShape ds) ≤ prod (nShape (d :: ds)) * prod (cShape (d :: ds)) := by
      simp only [nShape_cons, cShape_cons, prod_cons]
      calc d.chunkSize * prod (aShape ds)
          ≤ (ceilDiv d.arraySize d.chunkSize * d.chunkSize) * (prod (nShape ds) * prod (cShape ds)) :=
            Nat.mul_le_mul (Nat.le_mul_of_pos_left _ hnd) hal
        _ = _ := by ring
    have hm' : prod (nShape ds) * prod (cShape ds) < 2 ^ 63 := by
      refine lt_of_le_of_lt ?_ hm
      simp only [nShape_cons, cShape_cons, prod_cons]
      calc prod (nShape ds) * prod (cShape ds)
          ≤ (ceilDiv d.arraySize d.chunkSize * d.chunkSize) * (prod (nShape ds) * prod (cShape ds)) :=
            Nat.le_mul_of_pos_left _ (Nat.mul_pos hnd h1)
        _ = _ := by ring
    have hc64 : d.chunkSize < 2 ^ 64 := by
      have : d.chunkSize < 2 ^ 32 := by omega
      exact lt_trans this (by norm_num)
    unfold latticeChecks
    rw [ih hds hm', Nat.one_mul, u64_of_lt hc64]
    simp only [Bool.true_and, Bool.and_eq_true, decide_eq_true_eq]
    refine ⟨foldl_u64_pos h 1 (by omega) (by omega), foldl_u64_pos hds _ h1 (by omega)⟩

theorem offsetGuards_ok (hv : D.Valid) (hf : D.Room) : offsetGuards D = .ok () := by
  unfold offsetGuards
  have h1 : D.tailDims.any (fun d => d.chunkSize == 0) = false := by
    rw [List.any_eq_false]
    intro d hd
    have := hv.tail_chunk d hd
    simp; omega
  have h2 : D.inner.any (fun d => d.arraySize == 0) = false := by
    rw [List.any_eq_false]
    intro d hd
    have := (innerOk hv hf d hd).2.1
    simp; omega
  have h3 : (D.append.chunkSize == 0) = false := by
    have := hv.append_chunk
    simp; omega
  rw [h1, h2, h3, latticeChecks_true (innerOk hv hf) (inner_mem hv hf)]
  rfl

/-- The copies made for frame `f`. -/
def frameOps (D : ArrayDims) (f : Nat) : List RowOp :=
  ((tileRowsOf D.tilesY D.tilesX D.height.chunkSize).filter D.realRow).map (D.rowOp f)

theorem frameOps_inRange (hv : D.Valid) (hf : D.Room) (f : Nat) :
    ∀ op ∈ D.frameOps f, op.InRange D.chunkCount D.chunkBytes D.frameBytes := by
  intro op hop
  obtain ⟨t, ht, rfl⟩ := List.mem_map.1 hop
  obtain ⟨h1, h2⟩ := List.mem_filter.1 ht
  exact rowOp_inRange hv hf f (mem_tileRowsOf.1 h1) h2

theorem writeFrameToChunks_seen (hv : D.Valid) (hf : D.Room) (f : Nat) {data : Bytes} {bufs : List Bytes}
    (hd : data.length = D.frameBytes) (hs : Sized D bufs) :
    writeFrameToChunks D f data bufs = .ok (applyOps (D.seen data) (D.frameOps f) bufs, D.frameBytes) := by
  have hfb := frameBytes_lt hv hf
  have hh := heightOk hv hf
  have hw := widthOk hv hf
  unfold writeFrameToChunks
  rw [if_neg (by have := hh.1; have := hw.1; omega)]
  have e1 : u32 (D.width.arraySize + D.width.chunkSize - 1) / D.width.chunkSize = D.tilesX :=
    chunksAlong_eq hw
  have e2 : u32 (D.height.arraySize + D.height.chunkSize - 1) / D.height.chunkSize = D.tilesY :=
    chunksAlong_eq hh
  simp only [e1, e2, offsetGuards_ok hv hf, Res.bind_ok]
  have hsum := sum_rowOps hv hf f
  rw [copyRows_eq hv hf f hd _ (fun t ht => mem_tileRowsOf.1 ht) (st := ⟨bufs, 0, false⟩) hs rfl
    (by simp only [hsum]; omega)]
  simp only [Res.bind_ok, Res.pure_eq, hsum, Nat.zero_add]
  rfl

theorem writeFrameToChunks_eq (hv : D.Valid) (hf : D.Fits) (f : Nat) {data : Bytes} {bufs : List Bytes}
    (hd : data.length = D.frameBytes) (hs : Sized D bufs) :
    writeFrameToChunks D f data bufs = .ok (applyOps data (D.frameOps f) bufs, D.frameBytes) := by
  rw [writeFrameToChunks_seen hv hf f hd hs, seen_eq (Nat.le_of_lt hf.plane) hd]

theorem writeFrameToChunks_sized (hv : D.Valid) (hf : D.Room) (f : Nat) {data : Bytes}
    {bufs : List Bytes} (hd : data.length = D.frameBytes) (hs : Sized D bufs) :
    Sized D (applyOps data (D.frameOps f) bufs) :=
  applyOps_sized hs.1 hs.2 (by rw [hd]; exact frameOps_inRange hv hf f)

/-- Pointwise effect of writing frame `f`, in terms of the chunk grid position `(L, ly, lx)` and the
in-chunk position `(R, oy, ox, s)`. -/
theorem frameOps_byteAt (hv : D.Valid) (hf : D.Room) (f : Nat) {data : Bytes} {bufs : List Bytes}
    (hd : data.length = D.frameBytes) (hs : Sized D bufs)
    {L ly lx R oy ox s : Nat} (hly : ly < D.tilesY) (hlx : lx < D.tilesX)
    (hoy : oy < D.height.chunkSize) (hox : ox < D.width.chunkSize) (hsb : s < D.dtype.bytes) :
    byteAt (applyOps data (D.frameOps f) bufs) ((L * D.tilesY + ly) * D.tilesX + lx)
      (((R * D.height.chunkSize + oy) * D.width.chunkSize + ox) * D.dtype.bytes + s) =
    if latG D.inner f = L ∧ D.frameRank f = R ∧ ly * D.height.chunkSize + oy < D.height.arraySize ∧
        lx * D.width.chunkSize + ox < D.width.arraySize
    then data[((ly * D.height.chunkSize + oy) * D.width.arraySize + (lx * D.width.chunkSize + ox)) *
      D.dtype.bytes + s]?
    else byteAt bufs ((L * D.tilesY + ly) * D.tilesX + lx)
      (((R * D.height.chunkSize + oy) * D.width.chunkSize + ox) * D.dtype.bytes + s) := by
  have hr : ∀ op ∈ D.frameOps f, op.InRange D.chunkCount D.chunkBytes data.length := by
    rw [hd]; exact frameOps_inRange hv hf f
  have hcov : ∀ op ∈ D.frameOps f, op.Covers ((L * D.tilesY + ly) * D.tilesX + lx)
      (((R * D.height.chunkSize + oy) * D.width.chunkSize + ox) * D.dtype.bytes + s) →
      op = D.rowOp f (ly, lx, oy) ∧ latG D.inner f = L ∧ D.frameRank f = R ∧
      ly * D.height.chunkSize + oy < D.height.arraySize ∧
      lx * D.width.chunkSize + ox < D.width.arraySize := by
    intro op hop hc
    obtain ⟨t, ht, rfl⟩ := List.mem_map.1 hop
    obtain ⟨h1, h2⟩ := List.mem_filter.1 ht
    obtain ⟨a1, a2, rfl, a4⟩ := (rowOp_covers_iff hv hf f (mem_tileRowsOf.1 h1) hly hlx hoy hox hsb).1 hc
    exact ⟨rfl, a1, a2, by simpa [realRow] using h2, a4⟩
  split
  · rename_i hcond
    obtain ⟨a1, a2, a3, a4⟩ := hcond
    apply applyOps_covered hs.1 hs.2 hr
    · intro op hop hc
      obtain ⟨rfl, _⟩ := hcov op hop hc
      rw [rowOp_source a2]
    · refine ⟨D.rowOp f (ly, lx, oy), ?_, ?_⟩
      · apply List.mem_map_of_mem
        rw [List.mem_filter]
        exact ⟨mem_tileRowsOf.2 ⟨hly, hlx, hoy⟩, by simpa [realRow] using a3⟩
      · exact (rowOp_covers_iff hv hf f ⟨hly, hlx, hoy⟩ hly hlx hoy hox hsb).2 ⟨a1, a2, rfl, a4⟩
  · rename_i hcond
    apply applyOps_not_covered hs.1 hs.2 hr
    intro op hop hc
    exact hcond (hcov op hop hc).2

end ArrayDims
end AZ
