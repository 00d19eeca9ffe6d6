import Verif.Spec.Geometry

/-!
# Specifications for calibration problems

Transforms between frames and reprojection errors, in terms of the reported transforms only.
-/

namespace RCT.Spec
open RCT

/-- A rigid transform that the six-value pose represents exactly: no rotation, or a rotation angle whose square exceeds
the double epsilon. (Every rotation of at least 1.5e-8 rad.) -/
def Representable (T : Iso) : Prop := RigidMotion T ∧ (rotAngle T.R = 0 ∨ rotAngle T.R ^ 2 > 1 / 2 ^ 52)

/-- The target point `p` in the camera frame:
`(camera mount to camera)⁻¹ * (base to camera mount)⁻¹ * (base to target mount) * (target mount to target)`. -/
def targetInCamera (mountToCamera toCameraMount toTargetMount mountToTarget : Iso) (p : V3) : V3 :=
  (mountToCamera.inv * (toCameraMount.inv * (toTargetMount * mountToTarget))).apply p

/-- Difference of predicted and observed pixel as residual list. -/
def diff2 (predicted observed : V2) : List ℝ := [predicted.x - observed.x, predicted.y - observed.y]

/-- Difference of predicted and observed point as residual list. -/
def diff3 (predicted observed : V3) : List ℝ :=
  [predicted.x - observed.x, predicted.y - observed.y, predicted.z - observed.z]

end RCT.Spec
