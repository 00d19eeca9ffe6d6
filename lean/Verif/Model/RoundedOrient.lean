import Verif.Model.RoundedKinCost
import Verif.Model.CircleFit

/-!
# The remaining residual functors in double arithmetic

As `Verif/Model/RoundedKin.lean`. Sums of more than two terms are evaluated from left to right (Eigen may group them
differently). The residual of the orientation in kinematic calibration, circle fit, and prior.
-/

namespace RCT.Double

/-- Half of a root on the diagonal and three quotients: the common part of all branches of the conversion. -/
noncomputable def pivot (D : Double) (s a b c : ℝ) : ℝ × ℝ × ℝ × ℝ :=
  let t := D.sqrt s
  let k := D.div (1 / 2) t
  (D.mul (1 / 2) t, D.mul a k, D.mul b k, D.mul c k)

/-- `Eigen::Quaternion(const Matrix3d&)`. -/
noncomputable def toQuat (D : Double) (m : M3) : Quat :=
  let tr := D.add (D.add m.m00 m.m11) m.m22
  if tr > 0 then
    let r := D.pivot (D.add tr 1) (D.sub m.m21 m.m12) (D.sub m.m02 m.m20) (D.sub m.m10 m.m01)
    ⟨r.1, r.2.1, r.2.2.1, r.2.2.2⟩
  else if m.m22 > if m.m11 > m.m00 then m.m11 else m.m00 then
    let r := D.pivot (D.add (D.sub (D.sub m.m22 m.m00) m.m11) 1) (D.sub m.m10 m.m01) (D.add m.m02 m.m20) (D.add m.m12 m.m21)
    ⟨r.2.1, r.2.2.1, r.2.2.2, r.1⟩
  else if m.m11 > m.m00 then
    let r := D.pivot (D.add (D.sub (D.sub m.m11 m.m22) m.m00) 1) (D.sub m.m02 m.m20) (D.add m.m21 m.m12) (D.add m.m01 m.m10)
    ⟨r.2.1, r.2.2.2, r.1, r.2.2.1⟩
  else
    let r := D.pivot (D.add (D.sub (D.sub m.m00 m.m11) m.m22) 1) (D.sub m.m21 m.m12) (D.add m.m10 m.m01) (D.add m.m20 m.m02)
    ⟨r.2.1, r.1, r.2.2.1, r.2.2.2⟩

/-- Four products. -/
def sum4 (D : Double) (a b c d : ℝ) : ℝ := D.add (D.add (D.add a b) c) d

/-- `Eigen::Quaternion::operator*`. -/
def mulQuat (D : Double) (a b : Quat) : Quat :=
  ⟨D.sum4 (D.mul a.w b.w) (-D.mul a.x b.x) (-D.mul a.y b.y) (-D.mul a.z b.z),
   D.sum4 (D.mul a.w b.x) (D.mul a.x b.w) (D.mul a.y b.z) (-D.mul a.z b.y),
   D.sum4 (D.mul a.w b.y) (D.mul a.y b.w) (D.mul a.z b.x) (-D.mul a.x b.z),
   D.sum4 (D.mul a.w b.z) (D.mul a.z b.w) (D.mul a.x b.y) (-D.mul a.y b.x)⟩

/-- `Eigen::QuaternionBase::angularDistance`. -/
noncomputable def angularDistance (D : Double) (at2 : ℝ → ℝ → ℝ) (a b : Quat) : ℝ :=
  let d := D.mulQuat a b.conj
  D.mul 2 (at2 (D.sqrt (D.dot d.vec d.vec)) |d.w|)

/-- Contract of `atan2` for two numbers that are not negative: off by at most the distance of two doubles below 2. -/
def Atan2WF (at2 : ℝ → ℝ → ℝ) : Prop := ∀ y x, 0 ≤ y → 0 ≤ x → |at2 y x - RCT.atan2 y x| ≤ 4 * dblUnit

/-- The fourth residual of `DualDHChainCostPose6D::operator()` (`dh_chain_kinematic_calibration.h` 354-406). -/
noncomputable def kinOrientation (D : Double) (at2 : ℝ → ℝ → ℝ) (cc tc : DHChain) (w : ℝ) (m : KinMeas) (p : Nat → Mem) : Res ℝ :=
  (D.kinCameraToTarget cc tc m.cameraJoints m.targetJoints p).bind fun T =>
    .ok (D.mul w (D.angularDistance at2 (D.toQuat m.cameraToTarget.R) (D.toQuat T.R)))

/-- `CircleDistCost::operator()` (`circle_fit.h` 22-33 and, with the values in three blocks, 44-55). -/
def circleCost (D : Double) (obs : V2) (x y rSqrt : ℝ) : ℝ :=
  let r := D.mul rSqrt rSqrt
  let xp := D.sub obs.x x
  let yp := D.sub obs.y y
  D.sub (D.sub (D.mul r r) (D.mul xp xp)) (D.mul yp yp)

/-- An entry of the residual of `MaximumLikelihood::operator()` (`maximum_likelihood.h` 26-36). -/
noncomputable def priorCost (D : Double) (param mean stdev : ℝ) : ℝ := D.div (D.sub param mean) stdev

end RCT.Double
