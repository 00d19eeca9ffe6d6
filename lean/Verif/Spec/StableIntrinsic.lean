import Verif.Spec.Stable
import Verif.Spec.IdentifyIntrinsic
import Verif.Spec.Distortion

/-!
# Intrinsic calibrations close to the truth
-/

namespace RCT.Spec
open RCT

/-- Two cameras with almost the same centre and, up to sign, almost the same focal lengths. -/
def CloseCamera (e : ℝ) (a b : Intr) : Prop :=
  |(|a.fx| - |b.fx|)| ≤ e ∧ |(|a.fy| - |b.fy|)| ≤ e ∧ |a.cx - b.cx| ≤ e ∧ |a.cy - b.cy| ≤ e

/-- All features of all images are within `noise` of where the camera `intr` without lens distortion sees them, if the target is at
`T i` in image `i`. -/
def NoisyImages (noise : ℝ) (intr : Intr) (T : Nat → Iso) (images : List (List Corr2)) : Prop :=
  ∀ i, i < images.length → PixelNoise noise (images.getD i []) (fun k => k.inImage) fun k => pinhole intr ((T i).apply k.inTarget)

/-- Where a lens with these distortion coefficients (in the order of OpenCV) shows a point. -/
noncomputable def lensPixel (i : Intr) (distortions : List ℝ) (c : V3) : V2 :=
  brown i (distortions.getD 0 0) (distortions.getD 1 0) (distortions.getD 2 0) (distortions.getD 3 0) (distortions.getD 4 0)
    (c.x / c.z) (c.y / c.z)

/-- The lens moves no feature by more than `r` pixels in rows or columns. -/
def LittleDistortion (r : ℝ) (i : Intr) (distortions : List ℝ) (T : Nat → Iso) (images : List (List Corr2)) : Prop :=
  ∀ j, j < images.length → PixelNoise r (images.getD j []) (fun k => lensPixel i distortions ((T j).apply k.inTarget))
    fun k => pinhole i ((T j).apply k.inTarget)

/-- The points of the target that an image shows. -/
def targetPoints (image : List Corr2) : List V3 := image.map fun k => k.inTarget

/-- An image that shows four features of a plane target well: the target is at `T`, the camera is not in its plane. -/
def ViewedWell (T : Iso) (pts : List V3) : Prop :=
  RigidMotion T ∧ T.inv.t.z ≠ 0 ∧ (∃ a ∈ pts, ∃ b ∈ pts, ∃ c ∈ pts, ∃ d ∈ pts, Quadrangle a b c d) ∧ ∀ p ∈ pts, (T.apply p).z ≠ 0

end RCT.Spec
