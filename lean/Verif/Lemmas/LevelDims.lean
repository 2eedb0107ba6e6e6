import Verif.Lemmas.SessionWorks

set_option linter.unusedSimpArgs false

/-! # Dimensions of the pyramid levels -/

namespace AZ
open Spec

theorem ceilDiv_two (a : Nat) : ceilDiv a 2 = (a + a % 2) / 2 := by
  unfold ceilDiv
  omega

/-- What `downsample` does to one dimension. -/
structure DownDim (d d' : Dim) : Prop where
  channel : d.kind = .channel → d' = d
  name : d'.name = d.name
  kind : d'.kind = d.kind
  chunk_le : d'.chunkSize ≤ d.chunkSize
  chunk_pos : 0 < d.chunkSize → 0 < d'.chunkSize
  array : d.arraySize < 2 ^ 32 → (0 < d.arraySize → 0 < d.chunkSize) →
    d'.arraySize = if d.kind = .channel then d.arraySize else ceilDiv d.arraySize 2
  array_chunk : d.kind ≠ .channel → d.arraySize ≠ 0 →
    d'.chunkSize = min d.chunkSize d'.arraySize
  shard_le : 0 < d.shardSize → d'.shardSize ≤ d.shardSize
  shard_pos : d.arraySize < 2 ^ 32 → 0 < d.chunkSize → 0 < d.shardSize → 0 < d'.shardSize

theorem downsampleDim_spec {d d' : Dim} (h : downsampleDim d = .ok d') : DownDim d d' := by
  unfold downsampleDim at h
  split at h
  · rename_i hk
    cases h
    exact ⟨fun _ => rfl, rfl, rfl, Nat.le_refl _, id, fun _ _ => by rw [if_pos hk], fun h => absurd hk h, fun _ => Nat.le_refl _,
      fun _ _ h => h⟩
  · rename_i hk
    obtain ⟨_, hc, h⟩ := Res.bind_eq_ok.1 h
    have hc := check_eq_ok.1 hc
    simp only [decide_eq_true_eq] at hc
    simp only [Res.pure_eq, Res.ok.injEq] at h
    subst h
    have harr : d.arraySize < 2 ^ 32 → (0 < d.arraySize → 0 < d.chunkSize) →
        u32 (d.arraySize + d.arraySize % 2) / 2 = ceilDiv d.arraySize 2 := by
      intro h1 h2
      rw [ceilDiv_two]
      rcases Nat.lt_or_ge (d.arraySize + d.arraySize % 2) (2 ^ 32) with h | h
      · rw [u32_of_lt h]
      · exfalso
        have : d.arraySize = 2 ^ 32 - 1 := by omega
        rw [this] at hc
        apply hc
        simp [u32]
    refine ⟨fun h => absurd h hk, rfl, rfl, ?_, ?_, ?_, ?_, ?_, ?_⟩
    · dsimp only; split <;> omega
    · intro _; dsimp only; omega
    · intro h1 h2; rw [if_neg hk]; exact harr h1 h2
    · intro _ h0; dsimp only; rw [if_neg h0]
    · intro hs; dsimp only; split <;> omega
    · intro h1 h2 h3
      dsimp only
      split
      · omega
      · rename_i h0
        rw [if_neg h0] at hc
        rw [harr h1 (fun _ => h2), ceilDiv_two] at hc ⊢
        have a1 : (d.arraySize + d.arraySize % 2) / 2 ≤ 2 ^ 31 := by omega
        have hmin : min d.chunkSize ((d.arraySize + d.arraySize % 2) / 2) ≤
          (d.arraySize + d.arraySize % 2) / 2 := Nat.min_le_right _ _
        generalize (d.arraySize + d.arraySize % 2) / 2 = a at *
        generalize min d.chunkSize a = c at *
        have hn : u32 (u32 (a + c) + 2 ^ 32 - 1) = a + c - 1 := by
          unfold u32
          omega
        rw [hn]
        have : 0 < (a + c - 1) / c := Nat.div_pos (by omega) (by omega)
        omega

theorem downsampleDims_cons {d : Dim} {ds ds' : List Dim} (h : downsampleDims (d :: ds) = .ok ds') :
    ∃ d' rest, ds' = d' :: rest ∧ downsampleDim d = .ok d' ∧ downsampleDims ds = .ok rest := by
  rw [downsampleDims] at h
  obtain ⟨d', h1, h⟩ := Res.bind_eq_ok.1 h
  obtain ⟨rest, h2, h⟩ := Res.bind_eq_ok.1 h
  cases h
  exact ⟨d', rest, rfl, h1, h2⟩

theorem downsampleDims_append {a b r : List Dim} (h : downsampleDims (a ++ b) = .ok r) :
    ∃ a' b', r = a' ++ b' ∧ downsampleDims a = .ok a' ∧ downsampleDims b = .ok b' := by
  induction a generalizing r with
  | nil => exact ⟨[], r, rfl, rfl, h⟩
  | cons x xs ih =>
    obtain ⟨d', rest, rfl, h1, h2⟩ := downsampleDims_cons h
    obtain ⟨a', b', rfl, h3, h4⟩ := ih h2
    refine ⟨d' :: a', b', rfl, ?_, h4⟩
    rw [downsampleDims, h1, Res.bind_ok, h3]
    rfl

theorem downsampleDims_spec {ds ds' : List Dim} (h : downsampleDims ds = .ok ds') :
    List.Forall₂ DownDim ds ds' := by
  induction ds generalizing ds' with
  | nil => cases h; exact .nil
  | cons d ds ih =>
    obtain ⟨d', rest, rfl, h1, h2⟩ := downsampleDims_cons h
    exact .cons (downsampleDim_spec h1) (ih h2)

/-- What `downsample` does to the dimensions of an array. -/
structure DownDims (D D' : ArrayDims) : Prop where
  append : DownDim D.append D'.append
  inner : List.Forall₂ DownDim D.inner D'.inner
  height : DownDim D.height D'.height
  width : DownDim D.width D'.width
  dtype : D'.dtype = D.dtype

theorem toList_inj {D D' : ArrayDims} {a h w : Dim} {i : List Dim}
    (e : D'.toList = a :: (i ++ [h, w])) : D'.append = a ∧ D'.inner = i ∧ D'.height = h ∧ D'.width = w := by
  unfold ArrayDims.toList at e
  have e1 := (List.cons.inj e).1
  have e2 := (List.cons.inj e).2
  have e3 := List.append_inj' e2 rfl
  simp at e3
  exact ⟨e1, e3.1, e3.2.1, e3.2.2⟩

theorem downsample_dims {cfg next : WConfig} {again : Bool} (h : downsample cfg = .ok (next, again)) :
    DownDims cfg.dims next.dims := by
  unfold downsample at h
  obtain ⟨ds, hds, h⟩ := Res.bind_eq_ok.1 h
  obtain ⟨dims, hd, h⟩ := Res.bind_eq_ok.1 h
  simp only [Res.pure_eq, Res.ok.injEq, Prod.mk.injEq] at h
  obtain ⟨rfl, _⟩ := h
  obtain ⟨e1, e2⟩ := ofList_eq_ok hd
  have hsh : cfg.dims.toList = cfg.dims.append :: (cfg.dims.inner ++ [cfg.dims.height, cfg.dims.width]) := by
    simp [ArrayDims.toList]
  rw [hsh] at hds
  obtain ⟨a', r1, rfl, k1, k2⟩ := downsampleDims_cons hds
  obtain ⟨i', r2, rfl, k3, k4⟩ := downsampleDims_append k2
  obtain ⟨h', r3, rfl, k5, k6⟩ := downsampleDims_cons k4
  obtain ⟨w', r4, rfl, k7, k8⟩ := downsampleDims_cons k6
  cases k8
  obtain ⟨f1, f2, f3, f4⟩ := toList_inj (D := cfg.dims) e1
  exact ⟨by rw [f1]; exact downsampleDim_spec k1, by rw [f2]; exact downsampleDims_spec k3,
    by rw [f3]; exact downsampleDim_spec k5, by rw [f4]; exact downsampleDim_spec k7, e2⟩

theorem forall₂_append {α β : Type} {R : α → β → Prop} {a c : List α} {b d : List β} (h : List.Forall₂ R a b)
    (h' : List.Forall₂ R c d) : List.Forall₂ R (a ++ c) (b ++ d) := by
  induction h with
  | nil => exact h'
  | cons h1 h2 ih => exact .cons h1 ih

theorem DownDims.tail {D D' : ArrayDims} (h : DownDims D D') : List.Forall₂ DownDim D.tailDims D'.tailDims := by
  unfold ArrayDims.tailDims
  exact forall₂_append h.inner (.cons h.height (.cons h.width .nil))

theorem forall₂_mem_right {α β : Type} {R : α → β → Prop} {l : List α} {l' : List β} (h : List.Forall₂ R l l') {b : β}
    (hb : b ∈ l') : ∃ a ∈ l, R a b := by
  induction h with
  | nil => simp at hb
  | cons h1 h2 ih =>
    rcases List.mem_cons.1 hb with rfl | hb
    · exact ⟨_, by simp, h1⟩
    · obtain ⟨a, ha, hr⟩ := ih hb
      exact ⟨a, by simp [ha], hr⟩

/-- Positive dimension below the 32-bit limit. -/
structure PosDim (d : Dim) : Prop where
  chunk : 0 < d.chunkSize
  array : 0 < d.arraySize
  fits : d.arraySize + d.chunkSize ≤ 2 ^ 32

theorem ceilDiv_pos_two {a : Nat} (h : 0 < a) : 0 < ceilDiv a 2 ∧ ceilDiv a 2 ≤ a := by
  rw [ceilDiv_two]; omega

theorem ceilDiv_le_ceilDiv {a a' c : Nat} (h : a' ≤ a) : ceilDiv a' c ≤ ceilDiv a c := ceilDiv_mono h

theorem PosDim.down {d d' : Dim} (hp : PosDim d) (h : DownDim d d') : PosDim d' ∧ d'.arraySize ≤ d.arraySize ∧
    ceilDiv d'.arraySize d'.chunkSize ≤ ceilDiv d.arraySize d.chunkSize := by
  obtain ⟨p1, p2, p3⟩ := hp
  have ha := h.array (by omega) (fun _ => p1)
  have hle : d'.arraySize ≤ d.arraySize ∧ 0 < d'.arraySize := by
    rw [ha]
    split
    · omega
    · have := ceilDiv_pos_two p2; omega
  refine ⟨⟨h.chunk_pos p1, hle.2, ?_⟩, hle.1, ?_⟩
  · have := h.chunk_le; omega
  · by_cases hk : d.kind = .channel
    · rw [h.channel hk]
    · rw [h.array_chunk hk (by omega)]
      rcases Nat.le_total d.chunkSize d'.arraySize with h1 | h1
      · rw [Nat.min_eq_left h1]
        exact ceilDiv_mono hle.1
      · rw [Nat.min_eq_right h1]
        have h2 : ceilDiv d'.arraySize d'.arraySize = 1 := by
          unfold ceilDiv
          rw [Nat.div_eq_of_lt_le] <;> omega
        rw [h2]
        exact ceilDiv_pos p2 p1

theorem prod_le_of_forall₂ {α : Type} {f g : α → Nat} {l l' : List α} {R : α → α → Prop} (h : List.Forall₂ R l l')
    (hR : ∀ a ∈ l, ∀ b, R a b → g b ≤ f a) : prod (l'.map g) ≤ prod (l.map f) := by
  induction h with
  | nil => exact Nat.le_refl _
  | cons h1 h2 ih =>
    simp only [List.map_cons, prod]
    exact Nat.mul_le_mul (hR _ (by simp) _ h1) (ih fun a ha b hb => hR a (by simp [ha]) b hb)

theorem posDim_of {D : ArrayDims} (hv : D.Valid) (hf : D.Fits) : ∀ d ∈ D.tailDims, PosDim d :=
  fun d hd => ⟨hv.tail_chunk d hd, hv.tail_array d hd, hf.size d hd⟩

theorem valid_down {D D' : ArrayDims} (hv : D.Valid) (hf : D.Fits) (h : DownDims D D') : D'.Valid := by
  refine ⟨h.append.chunk_pos hv.append_chunk, ?_, ?_⟩
  all_goals
    intro d' hd'
    obtain ⟨d, hd, hr⟩ := forall₂_mem_right h.tail hd'
    have := ((posDim_of hv hf d hd).down hr).1
  · exact this.chunk
  · exact this.array

theorem fits_down {D D' : ArrayDims} (hv : D.Valid) (hf : D.Fits) (h : DownDims D D') : D'.Fits := by
  have hp := posDim_of hv hf
  have hh := (hp D.height (by simp [ArrayDims.tailDims])).down h.height
  have hw := (hp D.width (by simp [ArrayDims.tailDims])).down h.width
  have hcount : D'.chunkCount ≤ D.chunkCount := by
    unfold ArrayDims.chunkCount nShape
    exact prod_le_of_forall₂ h.tail fun a ha b hb => ((hp a ha).down hb).2.2
  have hbytes : D'.chunkBytes ≤ D.chunkBytes := by
    unfold ArrayDims.chunkBytes cShape
    rw [h.dtype]
    apply Nat.mul_le_mul_right
    have : List.Forall₂ DownDim D.toList D'.toList := by
      unfold ArrayDims.toList
      exact .cons h.append (forall₂_append h.inner (.cons h.height (.cons h.width .nil)))
    exact prod_le_of_forall₂ this fun a ha b hb => hb.chunk_le
  refine ⟨⟨?_, ?_, ?_, ?_, ?_⟩, ?_⟩
  · intro d' hd'
    obtain ⟨d, hd, hr⟩ := forall₂_mem_right h.tail hd'
    exact ((hp d hd).down hr).1.fits
  · exact Nat.lt_of_le_of_lt h.append.chunk_le hf.append_size
  · exact Nat.lt_of_le_of_lt h.height.chunk_le hf.rows
  · exact Nat.lt_of_le_of_lt hcount hf.count
  · exact Nat.lt_of_le_of_lt (Nat.mul_le_mul hcount hbytes) hf.mem
  · exact Nat.lt_of_le_of_lt (Nat.mul_le_mul hh.2.1 hw.2.1) hf.plane

/-- What holds of every level. -/
structure GoodDims (D : ArrayDims) : Prop where
  valid : D.Valid
  fits : D.Fits
  height : D.height.kind ≠ .channel
  width : D.width.kind ≠ .channel
  small : D.frameBytes < 2 ^ 31 - 1

theorem frameBytes_down {D D' : ArrayDims} (hv : D.Valid) (hf : D.Fits) (h : DownDims D D') :
    D'.frameBytes ≤ D.frameBytes := by
  have hp := posDim_of hv hf
  have hh := (hp D.height (by simp [ArrayDims.tailDims])).down h.height
  have hw := (hp D.width (by simp [ArrayDims.tailDims])).down h.width
  unfold ArrayDims.frameBytes
  rw [h.dtype]
  exact Nat.mul_le_mul_right _ (Nat.mul_le_mul hh.2.1 hw.2.1)

theorem GoodDims.down {D D' : ArrayDims} (g : GoodDims D) (h : DownDims D D') : GoodDims D' :=
  ⟨valid_down g.valid g.fits h, fits_down g.valid g.fits h, by rw [h.height.kind]; exact g.height,
    by rw [h.width.kind]; exact g.width, Nat.lt_of_le_of_lt (frameBytes_down g.valid g.fits h) g.small⟩

theorem GoodDims.extents {D D' : ArrayDims} (g : GoodDims D) (h : DownDims D D') :
    D'.height.arraySize = (D.height.arraySize + D.height.arraySize % 2) / 2 ∧
    D'.width.arraySize = (D.width.arraySize + D.width.arraySize % 2) / 2 := by
  have hp := posDim_of g.valid g.fits
  have p1 := hp D.height (by simp [ArrayDims.tailDims])
  have p2 := hp D.width (by simp [ArrayDims.tailDims])
  have hh := h.height.array (by have := p1.fits; have := p1.chunk; omega) (fun _ => p1.chunk)
  have hw := h.width.array (by have := p2.fits; have := p2.chunk; omega) (fun _ => p2.chunk)
  rw [if_neg g.height, ceilDiv_two] at hh
  rw [if_neg g.width, ceilDiv_two] at hw
  exact ⟨hh, hw⟩

theorem pyramidFrom_good {fuel : Nat} {cfg : WConfig} {rest : List WConfig}
    (h : pyramidFrom fuel cfg = some (.ok rest)) (g : GoodDims cfg.dims) :
    (∀ c ∈ rest, GoodDims c.dims) ∧
      PyrOk cfg.dims.dtype rest cfg.dims.width.arraySize cfg.dims.height.arraySize := by
  induction fuel generalizing cfg rest with
  | zero => simp [pyramidFrom] at h
  | succ fuel ih =>
    rw [pyramidFrom] at h
    split at h
    · simp at h
    · simp at h
    · rename_i next again hd
      have hdd := downsample_dims hd
      have gn := g.down hdd
      obtain ⟨e1, e2⟩ := g.extents hdd
      have hbase : cfg.dims.width.arraySize * cfg.dims.height.arraySize * cfg.dims.dtype.bytes < 2 ^ 31 - 1 ∧
          (cfg.dims.width.arraySize + cfg.dims.width.arraySize % 2) / 2 *
            ((cfg.dims.height.arraySize + cfg.dims.height.arraySize % 2) / 2) * cfg.dims.dtype.bytes < 2 ^ 31 - 1 ∧
          bytesOfFrame next.dims = (cfg.dims.width.arraySize + cfg.dims.width.arraySize % 2) / 2 *
            ((cfg.dims.height.arraySize + cfg.dims.height.arraySize % 2) / 2) * cfg.dims.dtype.bytes ∧
          0 < bytesOfFrame next.dims := by
        have hs := g.small
        have hs' := gn.small
        have hpos := ArrayDims.frameBytes_pos gn.valid gn.fits
        rw [ArrayDims.bytesOfFrame_eq gn.valid gn.fits]
        unfold ArrayDims.frameBytes at *
        rw [hdd.dtype] at hs' hpos ⊢
        rw [← e1, ← e2, Nat.mul_comm next.dims.width.arraySize, Nat.mul_comm cfg.dims.width.arraySize]
        exact ⟨by omega, hs', rfl, hpos⟩
      have hpyr : ∀ rs, PyrOk next.dims.dtype rs next.dims.width.arraySize next.dims.height.arraySize →
          PyrOk cfg.dims.dtype (next :: rs) cfg.dims.width.arraySize cfg.dims.height.arraySize := by
        intro rs hrs
        refine ⟨hbase.1, hbase.2.1, hbase.2.2.1, hbase.2.2.2, ?_⟩
        rw [← e1, ← e2, ← hdd.dtype]
        exact hrs
      split at h
      · split at h
        · simp at h
        · simp at h
        · simp at h
        · rename_i rest' hr
          simp only [Option.some.injEq, Res.ok.injEq] at h
          subst h
          obtain ⟨i1, i2⟩ := ih hr gn
          refine ⟨?_, hpyr _ i2⟩
          intro c hc
          rcases List.mem_cons.1 hc with rfl | hc
          · exact gn
          · exact i1 c hc
      · simp only [Option.some.injEq, Res.ok.injEq] at h
        subst h
        exact ⟨fun c hc => by rw [List.mem_singleton] at hc; rw [hc]; exact gn, hpyr [] trivial⟩

end AZ
