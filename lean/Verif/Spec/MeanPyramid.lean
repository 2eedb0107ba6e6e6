import Verif.Spec.LocalMean
import Verif.Spec.Pyramid
import Verif.Spec.Logical
import Verif.Spec.ZarrV3

/-!
# Specification: what the levels of a multiscale dataset hold

`L i` is the sequence of frames of level `i`. Integer pixels of `itemSize` bytes, level-0 frames of `h` by `w` pixels.
-/

namespace Spec

/-- The bytes of pixel (`r`, `c`) of a frame of `w` columns. -/
def pixelAt (f : List UInt8) (w itemSize r c : Nat) : List UInt8 := (f.drop ((r * w + c) * itemSize)).take itemSize

/-- Every pixel of frame `j` of level `i + 1`, as a number, is the local mean of the frames `2j` and `2j + 1` of level `i`; these are
taken as matrices of bytes, as if a pixel were one byte. For one-byte pixels these are the pixels. (For wider pixels this is not
what a user expects, it is what the code computes; see C20.) -/
def MeanPyramid (itemSize h w n : Nat) (L : Nat → List (List UInt8)) : Prop :=
  ∀ i, i + 1 < n → ∀ j f f0 f1, (L (i + 1))[j]? = some f → (L i)[2 * j]? = some f0 → (L i)[2 * j + 1]? = some f1 →
    ∀ r c, r < levelSize false h (i + 1) → c < levelSize false w (i + 1) →
      (pixelAt f (levelSize false w (i + 1)) itemSize r c).length = itemSize ∧
      leNat (pixelAt f (levelSize false w (i + 1)) itemSize r c) =
        meanOfTwo (fun r c => (f0.getD (r * levelSize false w i + c) 0).toNat)
          (fun r c => (f1.getD (r * levelSize false w i + c) 0).toNat) (levelSize false w i) (levelSize false h i) r c

end Spec
