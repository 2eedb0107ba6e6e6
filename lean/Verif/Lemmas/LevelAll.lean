import Verif.Lemmas.SessionV3

/-! # Bounds that hold for every level of the pyramid -/

namespace AZ
open Spec

theorem chunkBytes_down {D D' : ArrayDims} (h : DownDims D D') : D'.chunkBytes ≤ D.chunkBytes := by
  unfold ArrayDims.chunkBytes cShape
  rw [h.dtype]
  apply Nat.mul_le_mul_right
  have : List.Forall₂ DownDim D.toList D'.toList := by
    unfold ArrayDims.toList
    exact .cons h.append (forall₂_append h.inner (.cons h.height (.cons h.width .nil)))
  exact prod_le_of_forall₂ this fun a ha b hb => hb.chunk_le

theorem slots_down {D D' : ArrayDims} (h3 : D.FitsV3) (h : DownDims D D') :
    prod (kShape D'.toList) ≤ prod (kShape D.toList) := by
  have : List.Forall₂ DownDim D.toList D'.toList := by
    unfold ArrayDims.toList
    exact .cons h.append (forall₂_append h.inner (.cons h.height (.cons h.width .nil)))
  unfold kShape
  exact prod_le_of_forall₂ this fun a ha b hb => hb.shard_le (h3.pos a ha)

section
variable {w : World} {fuel : Nat} {s : Settings} {cfg : WConfig} {cfgs : List WConfig}

/-- A property of dimensions preserved by `downsample` holds of every level. -/
theorem Setup0.levelAll {Q : ArrayDims → Prop} (hQ : ∀ D D', D.Valid → D.Fits → Q D → DownDims D D' → Q D')
    (h : Setup0 w fuel s cfg cfgs) (h0 : Q cfg.dims) : ∀ c ∈ cfgs, Q c.dims := by
  have hl := h.levels
  have hv := h.dimsValid
  unfold levelConfigs at hl
  split at hl
  · split at hl
    · simp at hl
    · simp at hl
    · simp at hl
    · rename_i rest hr
      simp only [Option.some.injEq, Res.ok.injEq] at hl
      subst hl
      intro c hc
      rcases List.mem_cons.1 hc with rfl | hc
      · exact h0
      · exact pyramidFrom_all hQ hr hv h.fits h0 c hc
  · simp only [Option.some.injEq, Res.ok.injEq] at hl
    subst hl
    intro c hc
    rw [List.mem_singleton] at hc
    rw [hc]; exact h0

/-- The same for `Setup`. -/
theorem Setup.levelAll {Q : ArrayDims → Prop} (hQ : ∀ D D', D.Valid → D.Fits → Q D → DownDims D D' → Q D')
    (h : Setup w fuel s cfg cfgs) (h0 : Q cfg.dims) : ∀ c ∈ cfgs, Q c.dims := h.base.levelAll hQ h0

/-- Bytes of a full-resolution chunk, in terms of the settings. -/
def fullChunk (s : Settings) : Nat := prod ((s.dimensions.getD []).map (·.chunkSize)) * Spec.itemSize s.dataType

end
end AZ
