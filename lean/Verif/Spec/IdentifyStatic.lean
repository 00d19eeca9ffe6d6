import Verif.Spec.Identify

/-!
# When data determine the poses of static cameras
-/

namespace RCT.Spec

/-- An image that shows four features of the plane of the target, no three of them on one line, taken by a camera that does not
lie in that plane. -/
def GoodView (intr : Intr) (baseToCamera baseToTarget : Iso) (ks : List Corr2) : Prop :=
  SeesQuadrangle ks ∧ intr.fx ≠ 0 ∧ intr.fy ≠ 0 ∧ (baseToCamera.inv * baseToTarget).inv.t.z ≠ 0

/-- Motion of the wrist between two poses, seen from the base. -/
def wristMotion (a b : Iso) : Iso := a * b.inv

end RCT.Spec
