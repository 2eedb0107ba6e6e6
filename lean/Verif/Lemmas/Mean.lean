import Verif.Lemmas.LevelRead
import Verif.Spec.LocalMean

set_option linter.unusedSimpArgs false

/-! # uint8 frames of the pyramid are local means -/

namespace AZ
open Spec

theorem quadSum_block (src : Bytes) {w h r c : Nat} (hr : 2 * r < h) (hc : 2 * c < w) :
    quadSum src w h (2 * r) (2 * c) / 4 = blockMean (fun r c => (src.getD (r * w + c) 0).toNat) w h r c := by
  unfold quadSum blockMean srcByte
  have ec : min (2 * c + 1) (w - 1) = 2 * c + (if 2 * c = w - 1 ∧ w % 2 = 1 then 0 else 1) := by
    split <;> omega
  have er : min (2 * r + 1) (h - 1) = 2 * r + (if 2 * r = h - 1 ∧ h % 2 = 1 then 0 else 1) := by
    split <;> omega
  dsimp only
  rw [ec, er]
  have e2 : (2 * r + (if 2 * r = h - 1 ∧ h % 2 = 1 then 0 else 1)) * w =
      2 * r * w + (if 2 * r = h - 1 ∧ h % 2 = 1 then 0 else w) := by
    split
    · simp
    · rw [Nat.add_mul, Nat.one_mul]
  rw [e2]
  generalize (if 2 * c = w - 1 ∧ w % 2 = 1 then 0 else 1) = dx
  generalize (if 2 * r = h - 1 ∧ h % 2 = 1 then 0 else w) = dy
  rw [show 2 * r * w + (2 * c + dx) = 2 * r * w + 2 * c + dx by omega,
    show 2 * r * w + dy + 2 * c = 2 * r * w + 2 * c + dy by omega,
    show 2 * r * w + dy + (2 * c + dx) = 2 * r * w + 2 * c + dy + dx by omega]

theorem scaledPx_getElem? (src : Bytes) {w h r c : Nat} (hr : r < (h + h % 2) / 2) (hc : c < (w + w % 2) / 2) :
    (scaledPx src w h)[r * ((w + w % 2) / 2) + c]? = some (quadSum src w h (2 * r) (2 * c)) := by
  unfold scaledPx
  generalize (w + w % 2) / 2 = w' at *
  generalize (h + h % 2) / 2 = h' at *
  induction h' generalizing r with
  | zero => omega
  | succ n ih =>
    rw [List.range_succ, List.flatMap_append]
    have hl : ((List.range n).flatMap fun i => (List.range w').map fun j => quadSum src w h (2 * i) (2 * j)).length =
        n * w' := by
      rw [List.length_flatMap]; simp [List.map_const']
    rcases Nat.lt_or_ge r n with hlt | hge
    · rw [List.getElem?_append_left (by
        rw [hl]
        have : (r + 1) * w' ≤ n * w' := Nat.mul_le_mul_right _ hlt
        rw [Nat.succ_mul] at this; omega)]
      exact ih hlt
    · have : r = n := by omega
      subst this
      rw [List.getElem?_append_right (by rw [hl]; omega), hl, Nat.add_sub_cancel_left]
      simp [hc]

theorem flatMap_single {α : Type} (l : List α) (f : α → UInt8) : (l.flatMap fun x => [f x]) = l.map f := by
  induction l with
  | nil => rfl
  | cons x xs ih => simp [ih]

theorem averageFrames_u8 (k1 k2 : List Nat) :
    averageFrames .u8 k1 k2 = (k1.zip k2).map fun x => UInt8.ofNat ((x.1 / 4 + x.2 / 4) / 2 % 256) := by
  unfold averageFrames
  rw [← flatMap_single]
  congr 1

theorem quad_le (src : Bytes) (w h r c : Nat) : quadSum src w h r c / 4 ≤ 255 := by
  unfold quadSum srcByte
  have hb : ∀ i, (src.getD i 0).toNat ≤ 255 := fun i => by
    have := (src.getD i 0).toNat_lt; omega
  dsimp only
  have h1 := hb (r * w + c)
  have h2 := hb (r * w + c + if c = w - 1 ∧ w % 2 = 1 then 0 else 1)
  have h3 := hb (r * w + c + if r = h - 1 ∧ h % 2 = 1 then 0 else w)
  have h4 := hb ((r * w + c + if r = h - 1 ∧ h % 2 = 1 then 0 else w) + if c = w - 1 ∧ w % 2 = 1 then 0 else 1)
  omega

theorem average_u8 {a b : Bytes} {w h r c : Nat} (hr : r < ceilDiv h 2) (hc : c < ceilDiv w 2) :
    ((averageFrames .u8 (scaledPx b w h) (scaledPx a w h)).getD (r * ceilDiv w 2 + c) 0).toNat =
      meanOfTwo (fun r c => (a.getD (r * w + c) 0).toNat) (fun r c => (b.getD (r * w + c) 0).toNat) w h r c := by
  have e1 := scaledPx_getElem? b (r := r) (c := c) (w := w) (h := h) (by rw [half_eq]; exact hr) (by rw [half_eq]; exact hc)
  have e2 := scaledPx_getElem? a (r := r) (c := c) (w := w) (h := h) (by rw [half_eq]; exact hr) (by rw [half_eq]; exact hc)
  rw [half_eq] at e1 e2
  have hr' : 2 * r < h := by unfold ceilDiv at hr; omega
  have hc' : 2 * c < w := by unfold ceilDiv at hc; omega
  have ez : ((scaledPx b w h).zip (scaledPx a w h))[r * ceilDiv w 2 + c]? =
      some (quadSum b w h (2 * r) (2 * c), quadSum a w h (2 * r) (2 * c)) := by
    rw [List.getElem?_zip_eq_some]
    exact ⟨e1, e2⟩
  rw [averageFrames_u8, List.getD_eq_getElem?_getD, List.getElem?_map, ez]
  simp only [Option.map_some, Option.getD_some]
  have q1 := quad_le b w h (2 * r) (2 * c)
  have q2 := quad_le a w h (2 * r) (2 * c)
  unfold meanOfTwo
  rw [← quadSum_block a hr' hc', ← quadSum_block b hr' hc']
  generalize quadSum b w h (2 * r) (2 * c) / 4 = k1 at *
  generalize quadSum a w h (2 * r) (2 * c) / 4 = k2 at *
  rw [UInt8.toNat_ofNat']
  omega

end AZ
