import Verif.Model.Rounded
import Verif.Model.Intrinsic

/-!
# The functors of PnP and of intrinsic calibration in double arithmetic

As `Verif/Model/Rounded.lean`. The sums in products of matrices and vectors are taken from left to right.
-/

namespace RCT.Double

/-- `Eigen::AngleAxis(aa.norm(), aa.normalized()).toRotationMatrix()` (library semantics; used at `pnp.cpp` 29-31 and 67-69).
`normalized()` divides by the norm unless the squared norm is zero. -/
noncomputable def angleAxisMatrix (D : Double) (aa : V3) : M3 :=
  let z := D.dot aa aa
  let n := D.sqrt z
  let u : V3 := if z > 0 then ⟨D.div aa.x n, D.div aa.y n, D.div aa.z n⟩ else aa
  let c := D.cos n
  let s := D.sin n
  let su : V3 := ⟨D.mul s u.x, D.mul s u.y, D.mul s u.z⟩
  let cu : V3 := ⟨D.mul (D.sub 1 c) u.x, D.mul (D.sub 1 c) u.y, D.mul (D.sub 1 c) u.z⟩
  let xy := D.mul cu.x u.y
  let xz := D.mul cu.x u.z
  let yz := D.mul cu.y u.z
  ⟨D.add (D.mul cu.x u.x) c, D.sub xy su.z, D.add xz su.y,
   D.add xy su.z, D.add (D.mul cu.y u.y) c, D.sub yz su.x,
   D.sub xz su.y, D.add yz su.x, D.add (D.mul cu.z u.z) c⟩

/-- `camera_to_target * in_target` (`pnp.cpp` 34 and 72). -/
noncomputable def pnpPoint (D : Double) (pt aa t : V3) : V3 :=
  let R := D.angleAxisMatrix aa
  ⟨D.add (D.dot ⟨R.m00, R.m01, R.m02⟩ pt) t.x, D.add (D.dot ⟨R.m10, R.m11, R.m12⟩ pt) t.y, D.add (D.dot ⟨R.m20, R.m21, R.m22⟩ pt) t.z⟩

open Classical in
/-- `ceres_math_utilities.h` 63-91. -/
noncomputable def projectPointE (D : Double) (i : Intr) (p : V3) : V2 :=
  let s : V3 := if D.sub p.z 0 > 1 / 10 ^ 10 then ⟨D.div p.x p.z, D.div p.y p.z, 1⟩ else ⟨p.x, p.y, 1⟩
  ⟨D.dot ⟨i.fx, 0, i.cx⟩ s, D.dot ⟨0, i.fy, i.cy⟩ s⟩

/-- `SolvePnPCostFunc::operator()` (`pnp.cpp` 18-42). -/
noncomputable def pnpCost2 (D : Double) (intr : Intr) (pt : V3) (obs : V2) (aa t : V3) : List ℝ :=
  let xy := D.projectPointE intr (D.pnpPoint pt aa t)
  [D.sub xy.x obs.x, D.sub xy.y obs.y]

/-- `SolvePnPCostFunc3D::operator()` (`pnp.cpp` 57-78). -/
noncomputable def pnpCost3 (D : Double) (pt obs aa t : V3) : List ℝ :=
  let c := D.pnpPoint pt aa t
  [D.sub c.x obs.x, D.sub c.y obs.y, D.sub c.z obs.z]

open Classical in
/-- `projectPoints2` (`camera_intrinsic.cpp` 65-111). -/
noncomputable def projectPoints2 (D : Double) (i : Intr9) (p : V3) : V2 :=
  let xp := if p.z = 0 then p.x else D.div p.x p.z
  let yp := if p.z = 0 then p.y else D.div p.y p.z
  let xp2 := D.mul xp xp
  let yp2 := D.mul yp yp
  let r2 := D.add xp2 yp2
  let r4 := D.mul r2 r2
  let r6 := D.mul r2 r4
  let xpp := D.add (D.add (D.add (D.add (D.add xp (D.mul (D.mul i.k1 r2) xp)) (D.mul (D.mul i.k2 r4) xp)) (D.mul (D.mul i.k3 r6) xp))
    (D.mul i.p2 (D.add r2 (D.mul 2 xp2)))) (D.mul (D.mul (D.mul i.p1 xp) yp) 2)
  let ypp := D.add (D.add (D.add (D.add (D.add yp (D.mul (D.mul i.k1 r2) yp)) (D.mul (D.mul i.k2 r4) yp)) (D.mul (D.mul i.k3 r6) yp))
    (D.mul i.p1 (D.add r2 (D.mul 2 yp2)))) (D.mul (D.mul (D.mul i.p2 xp) yp) 2)
  ⟨D.add (D.mul i.fx xpp) i.cx, D.add (D.mul i.fy ypp) i.cy⟩

/-- `IntrinsicCostFunction::operator()` (`camera_intrinsic.cpp` 140-162). -/
noncomputable def intrinsicCost (D : Double) (inTarget : V3) (inImage : V2) (pose : Pose6) (intr : Intr9) : List ℝ :=
  let xy := D.projectPoints2 intr (D.transformPoint pose inTarget)
  [D.sub xy.x inImage.x, D.sub xy.y inImage.y]

end RCT.Double
