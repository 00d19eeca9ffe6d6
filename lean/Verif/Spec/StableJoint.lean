import Verif.Spec.MultiTrue
import Verif.Spec.StableIntrinsic

/-!
# Noisy images that all cameras saw
-/

namespace RCT.Spec

variable {Img : Type}

/-- The images all cameras saw the target in are those with the numbers `seen`; image `n` was recorded with the wrist pose `w n`, camera
`c` found the points `pts c n` in it, each within `r` of where a camera at `T` sees a target at `Y` on the wrist. -/
structure NoisyJoint (F : Finder Img) (cams : List (CameraParams Img)) (k : Nat) (seen : List Nat) (w : Nat → Iso)
    (pts : Nat → Nat → List V3) (T : List Iso) (Y : Iso) (r : ℝ) : Prop where
  images : ∀ n, n ∈ seen ↔ n < k ∧ ∃ e, JointItem F cams n e
  pose : ∀ n e, JointItem F cams n e → e.1 = w n
  points : ∀ n e, JointItem F cams n e → ∀ (c : Nat) cs, e.2[c]? = some cs → targetPoints cs = pts c n
  noise : ∀ n e, JointItem F cams n e → ∀ (c : Nat) q cs, cams[c]? = some q → e.2[c]? = some cs →
    PixelNoise r cs (fun k => k.inImage) fun k => pinhole q.intr ((seenOnWrist (T.getD c 1) Y (w n)).apply k.inTarget)

end RCT.Spec
