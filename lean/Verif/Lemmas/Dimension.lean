import Verif.Model.Domain
import Verif.Lemmas.Index

set_option linter.unusedSimpArgs false

namespace AZ
open Spec

/-- One dimension for which chunk counts are exact. -/
def DimOk (d : Dim) : Prop := 0 < d.chunkSize ∧ 0 < d.arraySize ∧ d.arraySize + d.chunkSize ≤ 2 ^ 32

theorem u32_le (n : Nat) : u32 n ≤ n := Nat.mod_le _ _
theorem u64_le (n : Nat) : u64 n ≤ n := Nat.mod_le _ _

theorem chunksAlong_eq {d : Dim} (h : DimOk d) : chunksAlong d = ceilDiv d.arraySize d.chunkSize := by
  unfold chunksAlong ceilDiv
  obtain ⟨h1, h2, h3⟩ := h
  rw [u32_of_lt (by omega)]

@[simp] theorem nShape_cons (d : Dim) (ds) :
    nShape (d :: ds) = ceilDiv d.arraySize d.chunkSize :: nShape ds := rfl
@[simp] theorem aShape_cons (d : Dim) (ds) : aShape (d :: ds) = d.arraySize :: aShape ds := rfl
@[simp] theorem cShape_cons (d : Dim) (ds) : cShape (d :: ds) = d.chunkSize :: cShape ds := rfl
@[simp] theorem kShape_cons (d : Dim) (ds) : kShape (d :: ds) = d.shardSize :: kShape ds := rfl
@[simp] theorem mShape_cons (d : Dim) (ds) :
    mShape (d :: ds) = ceilDiv (ceilDiv d.arraySize d.chunkSize) d.shardSize :: mShape ds := rfl
@[simp] theorem nShape_nil : nShape [] = [] := rfl
@[simp] theorem aShape_nil : aShape [] = [] := rfl
@[simp] theorem cShape_nil : cShape [] = [] := rfl
@[simp] theorem kShape_nil : kShape [] = [] := rfl
@[simp] theorem mShape_nil : mShape [] = [] := rfl
theorem nShape_append (a b : List Dim) : nShape (a ++ b) = nShape a ++ nShape b := by simp [nShape]
theorem aShape_append (a b : List Dim) : aShape (a ++ b) = aShape a ++ aShape b := by simp [aShape]
theorem cShape_append (a b : List Dim) : cShape (a ++ b) = cShape a ++ cShape b := by simp [cShape]
theorem kShape_append (a b : List Dim) : kShape (a ++ b) = kShape a ++ kShape b := by simp [kShape]
theorem mShape_append (a b : List Dim) : mShape (a ++ b) = mShape a ++ mShape b := by simp [mShape]
@[simp] theorem nShape_length (ds : List Dim) : (nShape ds).length = ds.length := by simp [nShape]
@[simp] theorem aShape_length (ds : List Dim) : (aShape ds).length = ds.length := by simp [aShape]
@[simp] theorem cShape_length (ds : List Dim) : (cShape ds).length = ds.length := by simp [cShape]
@[simp] theorem kShape_length (ds : List Dim) : (kShape ds).length = ds.length := by simp [kShape]
@[simp] theorem mShape_length (ds : List Dim) : (mShape ds).length = ds.length := by simp [mShape]

theorem prodN_pos {ds : List Dim} (h : ∀ d ∈ ds, DimOk d) : 0 < prod (nShape ds) := by
  apply prod_pos
  intro x hx
  obtain ⟨d, hd, rfl⟩ := List.mem_map.1 hx
  exact ceilDiv_pos (h d hd).2.1 (h d hd).1

theorem prodA_pos {ds : List Dim} (h : ∀ d ∈ ds, DimOk d) : 0 < prod (aShape ds) := by
  apply prod_pos
  intro x hx
  obtain ⟨d, hd, rfl⟩ := List.mem_map.1 hx
  exact (h d hd).2.1

theorem prodC_pos {ds : List Dim} (h : ∀ d ∈ ds, DimOk d) : 0 < prod (cShape ds) := by
  apply prod_pos
  intro x hx
  obtain ⟨d, hd, rfl⟩ := List.mem_map.1 hx
  exact (h d hd).1

/-- The array volume is covered by the chunk grid. -/
theorem prodA_le {ds : List Dim} (h : ∀ d ∈ ds, DimOk d) :
    prod (aShape ds) ≤ prod (nShape ds) * prod (cShape ds) := by
  induction ds with
  | nil => simp
  | cons d ds ih =>
    have h1 := ceilDiv_mul_ge (a := d.arraySize) (h d (by simp)).1
    have h2 := ih fun x hx => h x (by simp [hx])
    simp only [aShape_cons, nShape_cons, cShape_cons, prod_cons]
    calc d.arraySize * prod (aShape ds)
        ≤ (ceilDiv d.arraySize d.chunkSize * d.chunkSize) * (prod (nShape ds) * prod (cShape ds)) :=
          Nat.mul_le_mul h1 h2
      _ = _ := by ring

theorem foldl_u64_eq {α : Type} (g : α → Nat) (l : List α) (acc : Nat) (hpos : ∀ x ∈ l, 0 < g x)
    (h : acc * prod (l.map g) < 2 ^ 64) :
    l.foldl (fun acc d => u64 (acc * g d)) acc = acc * prod (l.map g) := by
  induction l generalizing acc with
  | nil => simp
  | cons x xs ih =>
    simp only [List.map_cons, prod_cons, List.foldl_cons] at *
    have hp : 0 < prod (xs.map g) := prod_pos (by
      intro y hy
      obtain ⟨z, hz, rfl⟩ := List.mem_map.1 hy
      exact hpos z (by simp [hz]))
    have h' : acc * g x * prod (xs.map g) < 2 ^ 64 := by rw [Nat.mul_assoc]; exact h
    have hlt : acc * g x < 2 ^ 64 := lt_of_le_of_lt (Nat.le_mul_of_pos_right _ hp) h'
    rw [u64_of_lt hlt, ih _ (fun y hy => hpos y (by simp [hy])) h', Nat.mul_assoc]

theorem foldl_u32_eq {α : Type} (g : α → Nat) (l : List α) (acc : Nat) (hpos : ∀ x ∈ l, 0 < g x)
    (h : acc * prod (l.map g) < 2 ^ 32) :
    l.foldl (fun acc d => u32 (acc * g d)) acc = acc * prod (l.map g) := by
  induction l generalizing acc with
  | nil => simp
  | cons x xs ih =>
    simp only [List.map_cons, prod_cons, List.foldl_cons] at *
    have hp : 0 < prod (xs.map g) := prod_pos (by
      intro y hy
      obtain ⟨z, hz, rfl⟩ := List.mem_map.1 hy
      exact hpos z (by simp [hz]))
    have h' : acc * g x * prod (xs.map g) < 2 ^ 32 := by rw [Nat.mul_assoc]; exact h
    have hlt : acc * g x < 2 ^ 32 := lt_of_le_of_lt (Nat.le_mul_of_pos_right _ hp) h'
    rw [u32_of_lt hlt, ih _ (fun y hy => hpos y (by simp [hy])) h', Nat.mul_assoc]

theorem foldr_u64_eq {α : Type} (g : α → Nat) (l : List α) (hpos : ∀ x ∈ l, 0 < g x)
    (h : prod (l.map g) < 2 ^ 64) :
    l.foldr (fun d acc => u64 (acc * g d)) 1 = prod (l.map g) := by
  induction l with
  | nil => simp
  | cons x xs ih =>
    simp only [List.map_cons, prod_cons, List.foldr_cons] at *
    have h' : prod (xs.map g) < 2 ^ 64 :=
      lt_of_le_of_lt (Nat.le_mul_of_pos_left _ (hpos x (by simp))) h
    rw [ih (fun y hy => hpos y (by simp [hy])) h', Nat.mul_comm, u64_of_lt h]

theorem foldr_u32_eq {α : Type} (g : α → Nat) (l : List α) (hpos : ∀ x ∈ l, 0 < g x)
    (h : prod (l.map g) < 2 ^ 32) :
    l.foldr (fun d acc => u32 (acc * g d)) 1 = prod (l.map g) := by
  induction l with
  | nil => simp
  | cons x xs ih =>
    simp only [List.map_cons, prod_cons, List.foldr_cons] at *
    have h' : prod (xs.map g) < 2 ^ 32 :=
      lt_of_le_of_lt (Nat.le_mul_of_pos_left _ (hpos x (by simp))) h
    rw [ih (fun y hy => hpos y (by simp [hy])) h', Nat.mul_comm, u32_of_lt h]

/-! ### Clean recursive forms of the two frame offsets -/

/-- Rank, in the grid of inner chunks, of the chunk that frame `f` belongs to. -/
def latG : List Dim → Nat → Nat
  | [], _ => 0
  | d :: ds, f => (f / prod (aShape ds) % d.arraySize / d.chunkSize) * prod (nShape ds) + latG ds f

/-- Rank, inside a chunk, of frame `f` along the inner dimensions. -/
def latO : List Dim → Nat → Nat
  | [], _ => 0
  | d :: ds, f => (f / prod (aShape ds) % d.arraySize % d.chunkSize) * prod (cShape ds) + latO ds f

theorem latG_lt {ds : List Dim} (h : ∀ d ∈ ds, DimOk d) (f : Nat) : latG ds f < prod (nShape ds) := by
  induction ds with
  | nil => simp [latG]
  | cons d ds ih =>
    have ih := ih fun x hx => h x (by simp [hx])
    obtain ⟨h1, h2, h3⟩ := h d (by simp)
    have hd : f / prod (aShape ds) % d.arraySize / d.chunkSize < ceilDiv d.arraySize d.chunkSize :=
      div_lt_ceilDiv h1 (Nat.mod_lt _ h2)
    simp only [latG, nShape_cons, prod_cons]
    calc _ < (f / prod (aShape ds) % d.arraySize / d.chunkSize) * prod (nShape ds) + prod (nShape ds) := by omega
      _ = (f / prod (aShape ds) % d.arraySize / d.chunkSize + 1) * prod (nShape ds) := by ring
      _ ≤ _ := Nat.mul_le_mul_right _ hd

theorem latO_lt {ds : List Dim} (h : ∀ d ∈ ds, DimOk d) (f : Nat) : latO ds f < prod (cShape ds) := by
  induction ds with
  | nil => simp [latO]
  | cons d ds ih =>
    have ih := ih fun x hx => h x (by simp [hx])
    obtain ⟨h1, h2, h3⟩ := h d (by simp)
    have hd : f / prod (aShape ds) % d.arraySize % d.chunkSize < d.chunkSize := Nat.mod_lt _ h1
    simp only [latO, cShape_cons, prod_cons]
    calc _ < (f / prod (aShape ds) % d.arraySize % d.chunkSize) * prod (cShape ds) + prod (cShape ds) := by omega
      _ = (f / prod (aShape ds) % d.arraySize % d.chunkSize + 1) * prod (cShape ds) := by ring
      _ ≤ _ := Nat.mul_le_mul_right _ hd

/-- The heart of the placement argument: frame `f` lands in inner chunk `l` at inner position `o`
exactly when its inner coordinates are `l * chunk + o`. -/
theorem latGO_iff {ds : List Dim} (h : ∀ d ∈ ds, DimOk d) (f : Nat) {l o : List Nat}
    (hl : InBounds (nShape ds) l) (ho : InBounds (cShape ds) o) :
    (latG ds f = ravel (nShape ds) l ∧ latO ds f = ravel (cShape ds) o) ↔
    (InBounds (aShape ds) (globalCoord (cShape ds) l o) ∧
      f % prod (aShape ds) = ravel (aShape ds) (globalCoord (cShape ds) l o)) := by
  induction ds generalizing l o with
  | nil =>
    cases l <;> cases o <;> simp_all [InBounds, latG, latO, ravel, globalCoord, Nat.mod_one]
  | cons d ds ih =>
    cases l with
    | nil => exact hl.elim
    | cons l0 ls => cases o with
      | nil => exact ho.elim
      | cons o0 os =>
        have hds := fun x hx => h x (List.mem_cons_of_mem _ hx)
        have ih := ih hds hl.2 ho.2
        obtain ⟨h1, h2, h3⟩ := h d (by simp)
        have hpa := prodA_pos hds
        simp only [latG, latO, nShape_cons, cShape_cons, aShape_cons, ravel, globalCoord, InBounds,
          prod_cons]
        rw [digit_iff (latG_lt hds f) (ravel_lt hl.2), digit_iff (latO_lt hds f) (ravel_lt ho.2)]
        have hmod : f % (d.arraySize * prod (aShape ds)) =
            (f / prod (aShape ds) % d.arraySize) * prod (aShape ds) + f % prod (aShape ds) := by
          rw [Nat.mul_comm d.arraySize, Nat.mod_mul, Nat.add_comm, Nat.mul_comm]
        rw [hmod]
        generalize hx : f / prod (aShape ds) % d.arraySize = x
        have hxlt : x < d.arraySize := by rw [← hx]; exact Nat.mod_lt _ h2
        have hxe : (x / d.chunkSize = l0 ∧ x % d.chunkSize = o0) ↔ x = l0 * d.chunkSize + o0 := by
          constructor
          · rintro ⟨rfl, rfl⟩
            rw [Nat.mul_comm, Nat.div_add_mod]
          · intro hx
            have ho0 : o0 < d.chunkSize := ho.1
            rw [hx]
            constructor
            · rw [Nat.add_comm, Nat.add_mul_div_right _ _ h1, Nat.div_eq_of_lt ho0, Nat.zero_add]
            · rw [Nat.mul_comm, Nat.mul_add_mod, Nat.mod_eq_of_lt ho0]
        constructor
        · rintro ⟨⟨a1, a2⟩, a3, a4⟩
          have hx' := hxe.1 ⟨a1, a3⟩
          obtain ⟨b1, b2⟩ := ih.1 ⟨a2, a4⟩
          exact ⟨⟨hx' ▸ hxlt, b1⟩, by rw [b2, hx']⟩
        · rintro ⟨⟨a1, a2⟩, a3⟩
          obtain ⟨b1, b2⟩ := digit_eq (Nat.mod_lt _ hpa) (ravel_lt a2) a3
          obtain ⟨c1, c2⟩ := ih.2 ⟨a2, b2⟩
          obtain ⟨e1, e2⟩ := hxe.2 b1
          exact ⟨⟨e1, c1⟩, e2, c2⟩

/-! ### The model's offsets equal the clean forms -/

theorem tileStride_eq {ds : List Dim} (h : ∀ d ∈ ds, DimOk d) (hb : prod (nShape ds) < 2 ^ 64) :
    ArrayDims.tileStride ds = prod (nShape ds) := by
  unfold ArrayDims.tileStride
  have : ∀ d ∈ ds, u32 (d.arraySize + d.chunkSize - 1) / d.chunkSize
      = ceilDiv d.arraySize d.chunkSize := fun d hd => chunksAlong_eq (h d hd)
  have e : ds.foldr (fun d acc => u64 (acc * (u32 (d.arraySize + d.chunkSize - 1) / d.chunkSize))) 1
      = ds.foldr (fun d acc => u64 (acc * (ceilDiv d.arraySize d.chunkSize))) 1 := by
    clear hb h
    induction ds with
    | nil => rfl
    | cons d ds ih =>
      simp only [List.foldr_cons]
      rw [ih (fun x hx => this x (by simp [hx])), this d (by simp)]
  rw [e]
  exact foldr_u64_eq (fun d : Dim => ceilDiv d.arraySize d.chunkSize) ds
    (fun d hd => ceilDiv_pos (h d hd).2.1 (h d hd).1) hb

theorem chunkStride_eq {ds : List Dim} (h : ∀ d ∈ ds, DimOk d) (hb : prod (nShape ds) < 2 ^ 64) :
    ArrayDims.chunkStride ds = prod (nShape ds) := tileStride_eq h hb

theorem latticeDivisor_eq {d : Dim} {ds : List Dim} (h : ∀ x ∈ d :: ds, DimOk x) (hc : d.chunkSize * prod (aShape ds) < 2 ^ 64) :
    ArrayDims.latticeDivisor (d :: ds) = d.chunkSize * prod (aShape ds) := by
  have hds := fun x hx => h x (List.mem_cons_of_mem _ hx)
  obtain ⟨h1, h2, h3⟩ := h d (by simp)
  have e2 := foldl_u64_eq (fun d : Dim => d.arraySize) ds d.chunkSize
    (fun x hx => (hds x hx).2.1) hc
  have hc64 : d.chunkSize < 2 ^ 64 := by
    have : d.chunkSize < 2 ^ 32 := by omega
    exact lt_trans this (by norm_num)
  unfold ArrayDims.latticeDivisor
  dsimp only
  rw [Nat.one_mul d.chunkSize, u64_of_lt hc64, e2]
  rfl

theorem latticeIndexInner_eq {d : Dim} {ds : List Dim} (h : ∀ x ∈ d :: ds, DimOk x)
    (ha : prod (aShape (d :: ds)) < 2 ^ 64) (hc : d.chunkSize * prod (aShape ds) < 2 ^ 64) (f : Nat) :
    ArrayDims.latticeIndexInner (d :: ds) f = f / prod (aShape ds) % d.arraySize / d.chunkSize := by
  unfold ArrayDims.latticeIndexInner ArrayDims.latticeDivisor
  have hds := fun x hx => h x (List.mem_cons_of_mem _ hx)
  obtain ⟨h1, h2, h3⟩ := h d (by simp)
  have e1 := foldl_u64_eq (fun d : Dim => d.arraySize) (d :: ds) 1
    (fun x hx => (h x hx).2.1) (by rw [Nat.one_mul]; exact ha)
  have e2 := foldl_u64_eq (fun d : Dim => d.arraySize) ds d.chunkSize
    (fun x hx => (hds x hx).2.1) hc
  have hc64 : d.chunkSize < 2 ^ 64 := by
    have : d.chunkSize < 2 ^ 32 := by omega
    exact lt_trans this (by norm_num)
  simp only []
  rw [Nat.one_mul d.chunkSize, u64_of_lt hc64, e1, e2, Nat.one_mul]
  have e3 : ((d :: ds).map fun d : Dim => d.arraySize) = d.arraySize :: aShape ds := rfl
  have e4 : (ds.map fun d : Dim => d.arraySize) = aShape ds := rfl
  rw [e3, e4, prod_cons]
  have : f % (d.arraySize * prod (aShape ds)) / (d.chunkSize * prod (aShape ds))
      = f / prod (aShape ds) % d.arraySize / d.chunkSize := by
    rw [Nat.mul_comm d.chunkSize, ← Nat.div_div_eq_div_mul, Nat.mod_mul_left_div_self]
  rw [this, u32_of_lt]
  calc _ ≤ f / prod (aShape ds) % d.arraySize := Nat.div_le_self _ _
    _ < d.arraySize := Nat.mod_lt _ h2
    _ < 2 ^ 32 := by omega

theorem tileGroupOffsetLoop_eq {hw ds : List Dim} (hhw : ∀ x ∈ hw, DimOk x) (h : ∀ x ∈ ds, DimOk x)
    (hn : prod (nShape (ds ++ hw)) < 2 ^ 32)
    (hm : prod (nShape ds) * prod (cShape ds) < 2 ^ 63) (f : Nat) :
    ArrayDims.tileGroupOffsetLoop hw f ds = latG ds f * prod (nShape hw) := by
  induction ds with
  | nil => simp [ArrayDims.tileGroupOffsetLoop, latG]
  | cons d ds ih =>
    have hds := fun x hx => h x (List.mem_cons_of_mem _ hx)
    have hall : ∀ x ∈ ds ++ hw, DimOk x := by
      intro x hx
      rcases List.mem_append.1 hx with hx | hx
      · exact hds x hx
      · exact hhw x hx
    obtain ⟨h1, h2, h3⟩ := h d (by simp)
    have hnd := ceilDiv_pos h2 h1
    have hn' : prod (nShape (ds ++ hw)) < 2 ^ 32 := by
      refine lt_of_le_of_lt ?_ hn
      simp only [List.cons_append, nShape_cons, prod_cons]
      exact Nat.le_mul_of_pos_left _ hnd
    have hpn := prodN_pos hds
    have hpc := prodC_pos hds
    have hpa := prodA_pos hds
    have hal := prodA_le hds
    have hge := ceilDiv_mul_ge (a := d.arraySize) h1
    have hm' : prod (nShape ds) * prod (cShape ds) < 2 ^ 63 := by
      refine lt_of_le_of_lt ?_ hm
      simp only [nShape_cons, cShape_cons, prod_cons]
      calc prod (nShape ds) * prod (cShape ds)
          ≤ (ceilDiv d.arraySize d.chunkSize * d.chunkSize) * (prod (nShape ds) * prod (cShape ds)) :=
            Nat.le_mul_of_pos_left _ (Nat.mul_pos hnd h1)
        _ = _ := by ring
    have hA : prod (aShape (d :: ds)) < 2 ^ 64 := by
      have := prodA_le h
      omega
    have hC : d.chunkSize * prod (aShape ds) < 2 ^ 64 := by
      have : d.chunkSize * prod (aShape ds) ≤ prod (nShape (d :: ds)) * prod (cShape (d :: ds)) := by
        simp only [nShape_cons, cShape_cons, prod_cons]
        calc d.chunkSize * prod (aShape ds)
            ≤ (ceilDiv d.arraySize d.chunkSize * d.chunkSize) * (prod (nShape ds) * prod (cShape ds)) :=
              Nat.mul_le_mul (Nat.le_mul_of_pos_left _ hnd) hal
          _ = _ := by ring
      omega
    have hts := tileStride_eq hall (lt_trans hn' (by norm_num))
    have hlt := latG_lt h f
    simp only [ArrayDims.tileGroupOffsetLoop]
    rw [ih hds hn' hm', latticeIndexInner_eq h hA hC, hts]
    have hnhw := prodN_pos hhw
    have key : latG (d :: ds) f * prod (nShape hw) < 2 ^ 32 := by
      refine lt_trans ?_ hn
      rw [nShape_append, prod_append]
      exact Nat.mul_lt_mul_of_pos_right hlt hnhw
    have expand : latG (d :: ds) f * prod (nShape hw) =
        latG ds f * prod (nShape hw) +
        f / prod (aShape ds) % d.arraySize / d.chunkSize * prod (nShape (ds ++ hw)) := by
      rw [nShape_append, prod_append]
      simp only [latG]
      ring
    rw [expand] at key ⊢
    have k2 : f / prod (aShape ds) % d.arraySize / d.chunkSize * prod (nShape (ds ++ hw)) < 2 ^ 32 := by
      omega
    rw [u64_of_lt (lt_trans k2 (by norm_num)), u64_of_lt (lt_trans key (by norm_num))]

theorem chunkOffsetLoop_eq {ds : List Dim} (h : ∀ x ∈ ds, DimOk x)
    (hm : prod (nShape ds) * prod (cShape ds) < 2 ^ 63) (f : Nat) :
    ArrayDims.chunkOffsetLoop f ds = (latO ds f, prod (aShape ds), prod (cShape ds)) := by
  induction ds with
  | nil => simp [ArrayDims.chunkOffsetLoop, latO]
  | cons d ds ih =>
    have hds := fun x hx => h x (List.mem_cons_of_mem _ hx)
    obtain ⟨h1, h2, h3⟩ := h d (by simp)
    have hnd := ceilDiv_pos h2 h1
    have hpn := prodN_pos hds
    have hm' : prod (nShape ds) * prod (cShape ds) < 2 ^ 63 := by
      refine lt_of_le_of_lt ?_ hm
      simp only [nShape_cons, cShape_cons, prod_cons]
      calc prod (nShape ds) * prod (cShape ds)
          ≤ (ceilDiv d.arraySize d.chunkSize * d.chunkSize) * (prod (nShape ds) * prod (cShape ds)) :=
            Nat.le_mul_of_pos_left _ (Nat.mul_pos hnd h1)
        _ = _ := by ring
    have hA := prodA_le h
    have hCle : prod (cShape (d :: ds)) ≤ prod (nShape (d :: ds)) * prod (cShape (d :: ds)) :=
      Nat.le_mul_of_pos_left _ (prodN_pos h)
    have hlt := latO_lt h f
    simp only [ArrayDims.chunkOffsetLoop, ih hds hm']
    simp only [aShape_cons, cShape_cons, prod_cons, latO] at *
    have e1 : prod (aShape ds) * d.arraySize = d.arraySize * prod (aShape ds) := Nat.mul_comm _ _
    have e2 : prod (cShape ds) * d.chunkSize = d.chunkSize * prod (cShape ds) := Nat.mul_comm _ _
    have k : f / prod (aShape ds) % d.arraySize % d.chunkSize * prod (cShape ds) < 2 ^ 64 := by omega
    rw [e1, e2, u64_of_lt (n := d.arraySize * _) (by omega), u64_of_lt (n := d.chunkSize * _) (by omega),
      u64_of_lt k, Nat.add_comm (latO ds f), u64_of_lt (by omega)]

namespace ArrayDims
variable {D : ArrayDims}

theorem dimOk (hv : D.Valid) (hf : D.Room) : ∀ d ∈ D.tailDims, DimOk d :=
  fun d hd => ⟨hv.tail_chunk d hd, hv.tail_array d hd, hf.size d hd⟩

theorem innerOk (hv : D.Valid) (hf : D.Room) : ∀ d ∈ D.inner, DimOk d :=
  fun d hd => dimOk hv hf d (by simp [tailDims, hd])

theorem heightOk (hv : D.Valid) (hf : D.Room) : DimOk D.height := dimOk hv hf _ (by simp [tailDims])
theorem widthOk (hv : D.Valid) (hf : D.Room) : DimOk D.width := dimOk hv hf _ (by simp [tailDims])

theorem DType.bytes_pos (t : DType) : 0 < t.bytes := by cases t <;> decide

theorem dtype_pos (D : ArrayDims) : 0 < D.dtype.bytes := DType.bytes_pos _

theorem chunkCount_eq (D : ArrayDims) : D.chunkCount = prod (nShape D.inner) *
    (ceilDiv D.height.arraySize D.height.chunkSize * ceilDiv D.width.arraySize D.width.chunkSize) := by
  simp [chunkCount, tailDims, nShape_append, prod_append]

theorem chunkBytes_eq (D : ArrayDims) : D.chunkBytes = D.append.chunkSize * (prod (cShape D.inner) *
    (D.height.chunkSize * D.width.chunkSize)) * D.dtype.bytes := by
  simp [chunkBytes, toList, cShape_append, prod_append]

theorem chunkBytes_pos (hv : D.Valid) : 0 < D.chunkBytes := by
  unfold chunkBytes
  refine Nat.mul_pos (prod_pos ?_) (dtype_pos D)
  intro x hx
  obtain ⟨d, hd, rfl⟩ := List.mem_map.1 hx
  rcases List.mem_cons.1 hd with rfl | hd
  · exact hv.append_chunk
  · exact hv.tail_chunk d hd

theorem chunkCount_pos (hv : D.Valid) : 0 < D.chunkCount := by
  unfold chunkCount
  apply prod_pos
  intro x hx
  obtain ⟨d, hd, rfl⟩ := List.mem_map.1 hx
  exact ceilDiv_pos (hv.tail_array d hd) (hv.tail_chunk d hd)

theorem chunkBytes_lt (hv : D.Valid) (hf : D.Room) : D.chunkBytes < 2 ^ 63 :=
  lt_of_le_of_lt (Nat.le_mul_of_pos_left _ (chunkCount_pos hv)) hf.mem

/-- All frames of one append-chunk together are no larger than the chunk buffers. -/
theorem frames_le_mem (hv : D.Valid) (hf : D.Room) :
    D.framesPerChunk * D.frameBytes ≤ D.chunkCount * D.chunkBytes := by
  have h1 := prodA_le (innerOk hv hf)
  have h2 := ceilDiv_mul_ge (a := D.height.arraySize) (heightOk hv hf).1
  have h3 := ceilDiv_mul_ge (a := D.width.arraySize) (widthOk hv hf).1
  rw [chunkCount_eq, chunkBytes_eq]
  unfold framesPerChunk frameBytes
  calc D.append.chunkSize * prod (aShape D.inner) *
        (D.height.arraySize * D.width.arraySize * D.dtype.bytes)
      ≤ D.append.chunkSize * (prod (nShape D.inner) * prod (cShape D.inner)) *
        ((ceilDiv D.height.arraySize D.height.chunkSize * D.height.chunkSize) *
         (ceilDiv D.width.arraySize D.width.chunkSize * D.width.chunkSize) * D.dtype.bytes) :=
        Nat.mul_le_mul (Nat.mul_le_mul_left _ h1)
          (Nat.mul_le_mul_right _ (Nat.mul_le_mul h2 h3))
    _ = _ := by ring

theorem framesPerChunk_pos (hv : D.Valid) (hf : D.Room) : 0 < D.framesPerChunk :=
  Nat.mul_pos hv.append_chunk (prodA_pos (innerOk hv hf))

theorem frameBytes_pos (hv : D.Valid) (hf : D.Room) : 0 < D.frameBytes :=
  Nat.mul_pos (Nat.mul_pos (heightOk hv hf).2.1 (widthOk hv hf).2.1) (dtype_pos D)

theorem frameBytes_lt (hv : D.Valid) (hf : D.Room) : D.frameBytes < 2 ^ 63 := by
  have h1 := frames_le_mem hv hf
  have h2 := hf.mem
  have h3 : D.frameBytes ≤ D.framesPerChunk * D.frameBytes :=
    Nat.le_mul_of_pos_left _ (framesPerChunk_pos hv hf)
  omega

theorem framesPerChunk_lt (hv : D.Valid) (hf : D.Room) : D.framesPerChunk < 2 ^ 63 := by
  have h1 := frames_le_mem hv hf
  have h2 := hf.mem
  have h3 : D.framesPerChunk ≤ D.framesPerChunk * D.frameBytes :=
    Nat.le_mul_of_pos_right _ (frameBytes_pos hv hf)
  omega

theorem inner_mem (hv : D.Valid) (hf : D.Room) :
    prod (nShape D.inner) * prod (cShape D.inner) < 2 ^ 63 := by
  refine lt_of_le_of_lt ?_ hf.mem
  rw [chunkCount_eq, chunkBytes_eq]
  have p1 := ceilDiv_pos (heightOk hv hf).2.1 (heightOk hv hf).1
  have p2 := ceilDiv_pos (widthOk hv hf).2.1 (widthOk hv hf).1
  have p3 := hv.append_chunk
  have p4 := (heightOk hv hf).1
  have p5 := (widthOk hv hf).1
  have p6 := dtype_pos D
  calc prod (nShape D.inner) * prod (cShape D.inner)
      ≤ (prod (nShape D.inner) * prod (cShape D.inner)) *
        (ceilDiv D.height.arraySize D.height.chunkSize * ceilDiv D.width.arraySize D.width.chunkSize *
          D.append.chunkSize * D.height.chunkSize * D.width.chunkSize * D.dtype.bytes) :=
        Nat.le_mul_of_pos_right _ (by positivity)
    _ = _ := by ring

theorem bytesOfFrame_eq (hv : D.Valid) (hf : D.Room) : bytesOfFrame D = D.frameBytes := by
  unfold bytesOfFrame
  have h := frameBytes_lt hv hf
  have hw := (widthOk hv hf).2.1
  unfold frameBytes at *
  have e : D.dtype.bytes * D.height.arraySize * D.width.arraySize =
      D.height.arraySize * D.width.arraySize * D.dtype.bytes := by ring
  have h1 : D.dtype.bytes * D.height.arraySize ≤ D.dtype.bytes * D.height.arraySize * D.width.arraySize :=
    Nat.le_mul_of_pos_right _ hw
  rw [u64_of_lt (n := D.dtype.bytes * _) (by omega), u64_of_lt (by omega), e]

theorem numberOfChunksInMemory_eq (hv : D.Valid) (hf : D.Room) :
    D.numberOfChunksInMemory = D.chunkCount := by
  have hok := dimOk hv hf
  have hc := hf.count
  unfold numberOfChunksInMemory
  have e : D.tailDims.foldl (fun acc d => u32 (acc * chunksAlong d)) 1 =
      1 * prod (D.tailDims.map chunksAlong) := by
    apply foldl_u32_eq
    · intro d hd
      rw [chunksAlong_eq (hok d hd)]
      exact ceilDiv_pos (hok d hd).2.1 (hok d hd).1
    · have : D.tailDims.map chunksAlong = nShape D.tailDims :=
        List.map_congr_left fun d hd => chunksAlong_eq (hok d hd)
      rw [this, Nat.one_mul]
      exact lt_trans hc (by norm_num)
  rw [e, Nat.one_mul]
  exact congrArg prod (List.map_congr_left fun d hd => chunksAlong_eq (hok d hd))

theorem bytesPerChunk_eq (hv : D.Valid) (hf : D.Room) : D.bytesPerChunk = D.chunkBytes := by
  have h := chunkBytes_lt hv hf
  unfold bytesPerChunk
  have := foldl_u64_eq (fun d : Dim => d.chunkSize) D.toList D.dtype.bytes (by
      intro d hd
      rcases List.mem_cons.1 hd with rfl | hd
      · exact hv.append_chunk
      · exact hv.tail_chunk d hd) (by
      have : D.dtype.bytes * prod (D.toList.map fun d => d.chunkSize) = D.chunkBytes := by
        rw [Nat.mul_comm]; rfl
      omega)
  rw [this, Nat.mul_comm]
  rfl

theorem tileGroupOffset_eq (hv : D.Valid) (hf : D.Room) (f : Nat) :
    D.tileGroupOffset f = latG D.inner f *
      (ceilDiv D.height.arraySize D.height.chunkSize * ceilDiv D.width.arraySize D.width.chunkSize) := by
  have hc := hf.count
  unfold tileGroupOffset
  have h := tileGroupOffsetLoop_eq (hw := [D.height, D.width]) (ds := D.inner)
    (by intro x hx; exact dimOk hv hf x (by simp [tailDims] at *; tauto)) (innerOk hv hf)
    (lt_trans hc (by norm_num)) (inner_mem hv hf) f
  rw [h]
  have e : prod (nShape [D.height, D.width]) = ceilDiv D.height.arraySize D.height.chunkSize *
      ceilDiv D.width.arraySize D.width.chunkSize := by simp
  rw [e]
  apply u32_of_lt
  refine lt_trans ?_ (lt_trans hc (by norm_num))
  rw [chunkCount_eq]
  exact Nat.mul_lt_mul_of_pos_right (latG_lt (innerOk hv hf) f)
    (Nat.mul_pos (ceilDiv_pos (heightOk hv hf).2.1 (heightOk hv hf).1)
      (ceilDiv_pos (widthOk hv hf).2.1 (widthOk hv hf).1))

/-- Frame rank inside its chunk, including the append dimension. -/
def frameRank (D : ArrayDims) (f : Nat) : Nat :=
  f / prod (aShape D.inner) % D.append.chunkSize * prod (cShape D.inner) + latO D.inner f

theorem frameRank_lt (hv : D.Valid) (hf : D.Room) (f : Nat) :
    D.frameRank f < D.append.chunkSize * prod (cShape D.inner) := by
  have h1 := latO_lt (innerOk hv hf) f
  have h2 : f / prod (aShape D.inner) % D.append.chunkSize < D.append.chunkSize :=
    Nat.mod_lt _ hv.append_chunk
  unfold frameRank
  calc _ < f / prod (aShape D.inner) % D.append.chunkSize * prod (cShape D.inner)
          + prod (cShape D.inner) := by omega
    _ = (f / prod (aShape D.inner) % D.append.chunkSize + 1) * prod (cShape D.inner) := by ring
    _ ≤ _ := Nat.mul_le_mul_right _ h2

theorem chunkInternalOffset_eq (hv : D.Valid) (hf : D.Room) (f : Nat) :
    D.chunkInternalOffset f =
      D.frameRank f * (D.height.chunkSize * D.width.chunkSize * D.dtype.bytes) := by
  have hb := chunkBytes_lt hv hf
  rw [chunkBytes_eq] at hb
  have hr := frameRank_lt hv hf f
  have p4 := (heightOk hv hf).1
  have p5 := (widthOk hv hf).1
  have p6 := dtype_pos D
  have p3 := hv.append_chunk
  have p7 := prodC_pos (innerOk hv hf)
  have ht : D.height.chunkSize * D.width.chunkSize * D.dtype.bytes ≤
      D.append.chunkSize * (prod (cShape D.inner) * (D.height.chunkSize * D.width.chunkSize)) *
        D.dtype.bytes := by
    calc _ ≤ (D.append.chunkSize * prod (cShape D.inner)) *
          (D.height.chunkSize * D.width.chunkSize * D.dtype.bytes) :=
          Nat.le_mul_of_pos_left _ (by positivity)
      _ = _ := by ring
  have hw : D.dtype.bytes * D.width.chunkSize ≤
      D.dtype.bytes * D.width.chunkSize * D.height.chunkSize := Nat.le_mul_of_pos_right _ p4
  have e1 : D.dtype.bytes * D.width.chunkSize * D.height.chunkSize =
      D.height.chunkSize * D.width.chunkSize * D.dtype.bytes := by ring
  unfold chunkInternalOffset
  rw [chunkOffsetLoop_eq (innerOk hv hf) (inner_mem hv hf)]
  simp only []
  have hrk : latO D.inner f + f / prod (aShape D.inner) % D.append.chunkSize * prod (cShape D.inner)
      = D.frameRank f := Nat.add_comm _ _
  have hfr : D.append.chunkSize * prod (cShape D.inner) ≤
      D.append.chunkSize * (prod (cShape D.inner) * (D.height.chunkSize * D.width.chunkSize)) *
        D.dtype.bytes := by
    calc _ ≤ (D.append.chunkSize * prod (cShape D.inner)) *
          (D.height.chunkSize * D.width.chunkSize * D.dtype.bytes) :=
          Nat.le_mul_of_pos_right _ (by positivity)
      _ = _ := by ring
  rw [u64_of_lt (n := f / prod (aShape D.inner) % D.append.chunkSize * prod (cShape D.inner))
    (by unfold frameRank at *; omega), hrk]
  rw [u64_of_lt (n := D.dtype.bytes * D.width.chunkSize) (by omega), e1,
    u64_of_lt (n := D.frameRank f) (by omega),
    u64_of_lt (n := D.height.chunkSize * D.width.chunkSize * D.dtype.bytes) (by omega)]
  apply u64_of_lt
  calc D.frameRank f * (D.height.chunkSize * D.width.chunkSize * D.dtype.bytes)
      ≤ (D.append.chunkSize * prod (cShape D.inner)) *
        (D.height.chunkSize * D.width.chunkSize * D.dtype.bytes) := Nat.mul_le_mul_right _ hr.le
    _ = D.append.chunkSize * (prod (cShape D.inner) * (D.height.chunkSize * D.width.chunkSize)) *
        D.dtype.bytes := by ring
    _ < 2 ^ 64 := by omega

end ArrayDims
end AZ
