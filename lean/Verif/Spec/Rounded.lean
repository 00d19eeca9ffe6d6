import Verif.Spec.Kinematic
import Verif.Spec.Geometry

/-!
# Stored poses and the size of a setup
-/

namespace RCT.Spec
open RCT

/-- The six values describe the rigid motion `T`: rotation vector and position. -/
def Describes (p : Pose6) (T : Iso) : Prop := IsRotVec ⟨p.rx, p.ry, p.rz⟩ T.R ∧ T.t = ⟨p.x, p.y, p.z⟩

/-- The rotation vector is at most 7 long, a little more than a full turn. -/
def NoTwist (p : Pose6) : Prop := (⟨p.rx, p.ry, p.rz⟩ : V3).norm ≤ 7

/-- Focal lengths, optical centre and pixel are not greater than `F`, the point `c` in the camera is in view of an angle of 90
degrees, and its distance from the origins of the frames is at most 100 times its depth. -/
structure Usual (F S : ℝ) (i : Intr) (obs : V2) (c : V3) : Prop where
  fx : |i.fx| ≤ F
  fy : |i.fy| ≤ F
  cx : |i.cx| ≤ F
  cy : |i.cy| ≤ F
  u : |obs.x| ≤ F
  v : |obs.y| ≤ F
  front : c.z ≠ 0
  x : |c.x| ≤ |c.z|
  y : |c.y| ≤ |c.z|
  near : S ≤ 100 * |c.z|

/-- The points a target point runs through on the way from the target to the camera: `p` itself and its images under the motions,
the first one first. -/
def way : List Iso → V3 → List V3
  | [], p => [p]
  | T :: Ts, p => p :: way Ts (T.apply p)

/-- The computed pixel residual `l` is the difference between projection and observation, up to the ten thousand millionth part of `F`. -/
def PixelErrorUpTo (F : ℝ) (l : List ℝ) (predicted obs : V2) : Prop :=
  ∃ ex ey, l = [ex, ey] ∧ |ex - (predicted.x - obs.x)| ≤ F / 10 ^ 10 ∧ |ey - (predicted.y - obs.y)| ≤ F / 10 ^ 10

end RCT.Spec
