import Verif.Model.RoundedKin
import Verif.Model.RoundedMore
import Verif.Model.Kinematic

/-!
# The functors of kinematic calibration in double arithmetic

As `Verif/Model/RoundedKin.lean`. The residual of the orientation is in `Verif/Model/RoundedOrient.lean`.
-/

namespace RCT.Double

/-- `createTransform` (`dh_chain_kinematic_calibration.h` 150-164). -/
noncomputable def kinTransform (D : Double) (t aa : V3) : Iso :=
  let result := D.translateBy 1 t
  if D.sqrt (D.dot aa aa) > dblEps then ⟨D.mulM result.R (D.angleAxisMatrix aa), result.t⟩ else result

/-- Inverse of an isometry (Eigen): transposed rotation, and its negative times the position. -/
def inv (D : Double) (T : Iso) : Iso :=
  ⟨T.R.tr, ⟨D.dot (-⟨T.R.m00, T.R.m10, T.R.m20⟩) T.t, D.dot (-⟨T.R.m01, T.R.m11, T.R.m21⟩) T.t, D.dot (-⟨T.R.m02, T.R.m12, T.R.m22⟩) T.t⟩⟩

/-- `isometry * vector` (Eigen). -/
def applyTo (D : Double) (T : Iso) (q : V3) : V3 := D.add3 (D.mulVec T.R q) T.t

/-- Steps 1 and 2 of both cost functors (`dh_chain_kinematic_calibration.h` 288-322 and 357-392). -/
noncomputable def kinCameraToTarget (D : Double) (cc tc : DHChain) (qc qt : List ℝ) (p : Nat → Mem) : Res Iso :=
  let cameraOffsets := (p 0).dhRows cc.dof
  let targetOffsets := (p 1).dhRows tc.dof
  let cmToC := D.kinTransform (p 2).v3 (p 3).v3
  let tmToT := D.kinTransform (p 4).v3 (p 5).v3
  let cbToTb := D.kinTransform (p 6).v3 (p 7).v3
  (D.getFK cc qc cameraOffsets).bind fun cameraFk =>
    let cameraBaseToCamera := D.mulIso cameraFk cmToC
    (D.getFK tc qt targetOffsets).bind fun targetFk =>
      let cameraBaseToTarget := D.mulIso (D.mulIso cbToTb targetFk) tmToT
      .ok (D.mulIso (D.inv cameraBaseToCamera) cameraBaseToTarget)

/-- `DualDHChainCost2D3D::operator()` (`dh_chain_kinematic_calibration.h` 285-333). -/
noncomputable def kinCost2 (D : Double) (cc tc : DHChain) (intr : Intr) (o : KinObs) (k : Corr2) (p : Nat → Mem) : Res (List ℝ) :=
  (D.kinCameraToTarget cc tc o.cameraJoints o.targetJoints p).bind fun T =>
    let px := D.projectPointE intr (D.applyTo T k.inTarget)
    .ok [D.sub px.x k.inImage.x, D.sub px.y k.inImage.y]

/-- The first three residuals of `DualDHChainCostPose6D::operator()` (`dh_chain_kinematic_calibration.h` 354-398). -/
noncomputable def kinPosition (D : Double) (cc tc : DHChain) (m : KinMeas) (p : Nat → Mem) : Res V3 :=
  (D.kinCameraToTarget cc tc m.cameraJoints m.targetJoints p).bind fun T => .ok (D.mulIso m.cameraToTarget (D.inv T)).t

end RCT.Double
