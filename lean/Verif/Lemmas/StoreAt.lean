import Verif.Lemmas.ReadV2

/-! # Where the objects of a filesystem store live -/

namespace AZ
open Spec

/-- The configured store is the directory `root`: given with or without the `file://` scheme. (A plain
path that itself starts with `file:/` is not covered: the code takes it for a scheme.) -/
def StoreAt (cfg : WConfig) (root : Text) : Prop :=
  cfg.bucket = none ∧ (cfg.storePath = "file://".toList ++ root ∨
    cfg.storePath = root ∧ "file:/".toList.isPrefixOf root = false)

theorem storeAt_base {cfg : WConfig} {root : Text} (h : StoreAt cfg root) :
    baseOf cfg.bucket.isSome cfg.storePath = root ++ ['/'] := by
  obtain ⟨hb, h⟩ := h
  rw [hb]
  unfold baseOf
  rcases h with h | ⟨h1, h2⟩
  · rw [h]
    have : "file://".toList.isPrefixOf ("file://".toList ++ root ++ ['/']) = true := by
      rw [List.isPrefixOf_iff_prefix]
      exact ⟨root ++ ['/'], by simp only [List.append_assoc]⟩
    rw [this]
    rfl
  · rw [h1]
    have : "file://".toList.isPrefixOf (root ++ ['/']) = false := by
      rw [Bool.eq_false_iff]
      intro hp
      rw [prefix_append_cases] at hp
      rcases hp with hp | ⟨q, hq, hp, hq2⟩
      · have : "file:/".toList.isPrefixOf root = true := by
          rw [List.isPrefixOf_iff_prefix] at hp ⊢
          exact List.IsPrefix.trans ⟨['/'], by decide⟩ hp
        rw [this] at h2
        exact absurd h2 (by decide)
      · have : q = ['/'] := by
          rw [List.isPrefixOf_iff_prefix] at hq2
          obtain ⟨r, hr⟩ := hq2
          cases q with
          | nil => exact absurd rfl hq
          | cons a q =>
            simp only [List.cons_append, List.cons.injEq] at hr
            have := List.append_eq_nil_iff.1 hr.2
            rw [this.1, hr.1]
        subst this
        have e : root = "file:/".toList := by
          have := congrArg List.dropLast hp
          rw [List.dropLast_concat] at this
          rw [← this]
          decide
        rw [e] at h2
        exact absurd h2 (by decide)
    rw [this]
    rfl

/-- Directory of one array level, with trailing slash. -/
theorem arrayDirV2_eq {cfg : WConfig} {root : Text} (h : StoreAt cfg root) :
    arrayDirV2 cfg = root ++ '/' :: decimal cfg.level ++ ['/'] := by
  unfold arrayDirV2
  rw [storeAt_base h]
  simp

end AZ
