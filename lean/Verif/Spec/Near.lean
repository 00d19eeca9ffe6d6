import Verif.Spec.HandEye

/-!
# Specifications of closeness

How far two transforms move a point apart, and how far away from the frames on its way to the camera a target point is.
-/

namespace RCT.Spec
open RCT

/-- `S` and `T` agree at the origin, and move every point to within `e` times its distance from the origin. -/
def NearAt (e : ℝ) (S T : Iso) : Prop := S.t = T.t ∧ ∀ v : V3, (S.apply v - T.apply v).norm ≤ e * v.norm

/-- `S` and `T` move every point to within `e` times the distance of the point plus the distance of the two frames. -/
def NearBy (e : ℝ) (S T : Iso) : Prop := ∀ v : V3, (S.apply v - T.apply v).norm ≤ e * (v.norm + T.t.norm)

/-- Sum of the distances of a target point from the origins of the frames it is expressed in on its way to the camera:
target, target mount, base, camera mount. -/
noncomputable def reach {κ : Type} (mountToTarget : Iso) (o : Obs κ) (p : V3) : ℝ :=
  p.norm + (mountToTarget.apply p).norm + ((o.toTargetMount * mountToTarget).apply p).norm +
    ((o.toCameraMount.inv * (o.toTargetMount * mountToTarget)).apply p).norm

end RCT.Spec
