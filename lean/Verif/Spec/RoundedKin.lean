import Verif.Spec.DH

/-!
# The size of a kinematic chain
-/

namespace RCT.Spec
open RCT

/-- All entries of the rotation within `e` and all coordinates of the position within `f`. -/
structure PoseErrorUpTo (e f : ℝ) (T' T : Iso) : Prop where
  m00 : |T'.R.m00 - T.R.m00| ≤ e
  m01 : |T'.R.m01 - T.R.m01| ≤ e
  m02 : |T'.R.m02 - T.R.m02| ≤ e
  m10 : |T'.R.m10 - T.R.m10| ≤ e
  m11 : |T'.R.m11 - T.R.m11| ≤ e
  m12 : |T'.R.m12 - T.R.m12| ≤ e
  m20 : |T'.R.m20 - T.R.m20| ≤ e
  m21 : |T'.R.m21 - T.R.m21| ≤ e
  m22 : |T'.R.m22 - T.R.m22| ≤ e
  x : |T'.t.x - T.t.x| ≤ f
  y : |T'.t.y - T.t.y| ≤ f
  z : |T'.t.z - T.t.z| ≤ f

/-- The lengths that make up a link: offset and length with their corrections, and the way of a linear joint. -/
def linkLength (j : V4 × JointType) (o : V4) (q : ℝ) : ℝ :=
  |j.1.d| + |o.d| + (match j.2 with | .linear => |q| | .revolute => 0) + |j.1.r| + |o.r|

/-- The angles that make up the turn of a joint. -/
def linkTurn (j : V4 × JointType) (o : V4) (q : ℝ) : ℝ :=
  |j.1.theta| + |o.theta| + (match j.2 with | .linear => 0 | .revolute => |q|)

/-- How far a chain reaches at most. -/
def chainReach : List (V4 × JointType) → List V4 → List ℝ → ℝ
  | j :: js, o :: os, q :: qs => linkLength j o q + chainReach js os qs
  | _, _, _ => 0

/-- No angle is greater than four turns. -/
def FewTurns : List (V4 × JointType) → List V4 → List ℝ → Prop
  | j :: js, o :: os, q :: qs => (linkTurn j o q ≤ 25 ∧ |j.1.alpha| + |o.alpha| ≤ 25) ∧ FewTurns js os qs
  | _, _, _ => True

end RCT.Spec
