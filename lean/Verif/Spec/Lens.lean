import Verif.Spec.IdentifyIntrinsic
import Verif.Spec.Distortion

/-!
Images of large targets through a lens.
-/

namespace RCT.Spec

/-- The detected features contain a grid of `n` by `n` points of the plane of the target, at any distances. -/
def SeesGrid (n : ℕ) (cs : List Corr2) : Prop :=
  ∃ as bs : Finset ℝ, n ≤ as.card ∧ n ≤ bs.card ∧ ∀ a ∈ as, ∀ b ∈ bs, ∃ k ∈ cs, k.inTarget = ⟨a, b, 0⟩

/-- The features of all images are where the camera `intr` with the given distortion sees them if the target is at `T i` in image
`i`; none of them has depth zero. -/
def LensImages (intr : Intr) (k1 k2 p1 p2 k3 : ℝ) (T : Nat → Iso) (images : List (List Corr2)) : Prop :=
  ∀ i, i < images.length → ∀ k ∈ images.getD i [], ((T i).apply k.inTarget).z ≠ 0 ∧
    k.inImage = brown intr k1 k2 p1 p2 k3 (((T i).apply k.inTarget).x / ((T i).apply k.inTarget).z)
      (((T i).apply k.inTarget).y / ((T i).apply k.inTarget).z)

end RCT.Spec
