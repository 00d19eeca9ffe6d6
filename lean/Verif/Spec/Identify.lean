import Verif.Spec.HandEye
import Verif.Spec.Fit

/-!
# When data determine a calibration
-/

namespace RCT.Spec

/-- Three points of the plane that are not on one line. -/
def Triangle2 (a b c : V2) : Prop := (b.x - a.x) * (c.y - a.y) - (b.y - a.y) * (c.x - a.x) ≠ 0

/-- Three points of space that are not on one line: no point of the line through `a` and `b`, and `a ≠ b`. -/
def Triangle3 (a b c : V3) : Prop := a ≠ b ∧ ∀ k : ℝ, c ≠ ⟨a.x + k * (b.x - a.x), a.y + k * (b.y - a.y), a.z + k * (b.z - a.z)⟩

/-- Four points of the plane `z = 0` of a target, no three of them on one line. -/
structure Quadrangle (a b c d : V3) : Prop where
  za : a.z = 0
  zb : b.z = 0
  zc : c.z = 0
  zd : d.z = 0
  abc : Triangle3 a b c
  abd : Triangle3 a b d
  acd : Triangle3 a c d
  bcd : Triangle3 b c d

/-- Direction of the axis of a rotation, scaled with twice the sine of the angle: zero for no turn and for half turns. -/
def turnVector (R : M3) : V3 := ⟨R.m21 - R.m12, R.m02 - R.m20, R.m10 - R.m01⟩

/-- The axes of two rotations are not parallel (and neither is a rotation by 0 or 180 degrees). -/
def AxesDiffer (A B : M3) : Prop := (turnVector A).cross (turnVector B) ≠ 0

/-- Motion of the robot between two observations, seen from the camera mount. -/
def mountMotion {κ : Type} (a b : Obs κ) : Iso :=
  a.toCameraMount.inv * a.toTargetMount * (b.toCameraMount.inv * b.toTargetMount).inv

/-- Three of the measured features of an observation are not on one line of the target. -/
def SeesTriangle (o : Obs Corr3) : Prop :=
  ∃ a ∈ o.corrs, ∃ b ∈ o.corrs, ∃ c ∈ o.corrs, Triangle3 a.inTarget b.inTarget c.inTarget

/-- Four of the detected features of an image are on the plane of the target, no three of them on one line. -/
def SeesQuadrangle (cs : List Corr2) : Prop :=
  ∃ a ∈ cs, ∃ b ∈ cs, ∃ c ∈ cs, ∃ d ∈ cs, Quadrangle a.inTarget b.inTarget c.inTarget d.inTarget

/-- Pose of the target in the camera in one observation. -/
def poseInCamera {κ : Type} (mountToCamera mountToTarget : Iso) (o : Obs κ) : Iso :=
  mountToCamera.inv * (o.toCameraMount.inv * (o.toTargetMount * mountToTarget))

end RCT.Spec
