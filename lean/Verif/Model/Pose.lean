import Verif.Core.Vec
import Mathlib.Analysis.SpecialFunctions.Complex.Arg

/-!
# Poses: Eigen rotation conversions and the 6-value pose

Models `rct_optimizations/src/rct_optimizations/eigen_conversions.cpp`,
`rct_optimizations/include/rct_optimizations/types.h` 33-52 (`Pose6d`), the `ceres::AngleAxisRotatePoint`
function used by `ceres_math_utilities.h` 9-34, and the Eigen conversions these functions call.
-/

namespace RCT

/-- `std::numeric_limits<double>::epsilon()`. -/
noncomputable def dblEps : ℝ := 1 / 2 ^ 52

/-- `std::atan2(y, x)`. -/
noncomputable def atan2 (y x : ℝ) : ℝ := Complex.arg ⟨x, y⟩

/-- `types.h` 33-52, `Pose6d`: the six values in memory order `rx, ry, rz, x, y, z`. -/
@[ext] structure Pose6 where
  rx : ℝ
  ry : ℝ
  rz : ℝ
  x : ℝ
  y : ℝ
  z : ℝ

namespace Pose6
/-- The first three values (`pose + 0`). -/
def rot (p : Pose6) : V3 := ⟨p.rx, p.ry, p.rz⟩
/-- The last three values (`pose + 3`). -/
def trans (p : Pose6) : V3 := ⟨p.x, p.y, p.z⟩
end Pose6

/-- `Eigen::AngleAxis`. -/
@[ext] structure AngleAxis where
  angle : ℝ
  axis : V3

/-- `Eigen::AngleAxis::toRotationMatrix()` (library semantics; the axis is not normalised). -/
noncomputable def AngleAxis.toMat (a : AngleAxis) : M3 :=
  let c := Real.cos a.angle
  let s := Real.sin a.angle
  let u := a.axis
  ⟨(1 - c) * u.x * u.x + c, (1 - c) * u.x * u.y - s * u.z, (1 - c) * u.x * u.z + s * u.y,
   (1 - c) * u.x * u.y + s * u.z, (1 - c) * u.y * u.y + c, (1 - c) * u.y * u.z - s * u.x,
   (1 - c) * u.x * u.z - s * u.y, (1 - c) * u.y * u.z + s * u.x, (1 - c) * u.z * u.z + c⟩

/-- `Eigen::Quaternion(const Matrix3d&)` (library semantics, Shepperd's method with Eigen's branch order). -/
noncomputable def M3.toQuat (m : M3) : Quat :=
  if m.trace > 0 then
    let t := Real.sqrt (m.trace + 1)
    let k := (1 / 2) / t
    ⟨t / 2, (m.m21 - m.m12) * k, (m.m02 - m.m20) * k, (m.m10 - m.m01) * k⟩
  else if m.m11 > m.m00 then
    if m.m22 > m.m11 then
      let t := Real.sqrt (m.m22 - m.m00 - m.m11 + 1)
      let k := (1 / 2) / t
      ⟨(m.m10 - m.m01) * k, (m.m02 + m.m20) * k, (m.m12 + m.m21) * k, t / 2⟩
    else
      let t := Real.sqrt (m.m11 - m.m22 - m.m00 + 1)
      let k := (1 / 2) / t
      ⟨(m.m02 - m.m20) * k, (m.m01 + m.m10) * k, t / 2, (m.m21 + m.m12) * k⟩
  else
    if m.m22 > m.m00 then
      let t := Real.sqrt (m.m22 - m.m00 - m.m11 + 1)
      let k := (1 / 2) / t
      ⟨(m.m10 - m.m01) * k, (m.m02 + m.m20) * k, (m.m12 + m.m21) * k, t / 2⟩
    else
      let t := Real.sqrt (m.m00 - m.m11 - m.m22 + 1)
      let k := (1 / 2) / t
      ⟨(m.m21 - m.m12) * k, t / 2, (m.m10 + m.m01) * k, (m.m20 + m.m02) * k⟩

/-- `Eigen::AngleAxis(const Quaternion&)` (library semantics). -/
noncomputable def Quat.toAngleAxis (q : Quat) : AngleAxis :=
  let n := q.vec.norm
  if n ≠ 0 then
    let n' := if q.w < 0 then -n else n
    ⟨2 * atan2 n |q.w|, ⟨q.x / n', q.y / n', q.z / n'⟩⟩
  else ⟨0, ⟨1, 0, 0⟩⟩

/-- `Eigen::AngleAxis(const Matrix3d&)`: through the quaternion (library semantics). -/
noncomputable def M3.toAngleAxis (m : M3) : AngleAxis := m.toQuat.toAngleAxis

/-- `eigen_conversions.cpp` 3-17. -/
noncomputable def poseEigenToCal (T : Iso) : Pose6 :=
  let aa := T.R.toAngleAxis
  let a := V3.smul aa.angle aa.axis
  ⟨a.x, a.y, a.z, T.t.x, T.t.y, T.t.z⟩

/-- `eigen_conversions.cpp` 19-49. -/
noncomputable def poseCalToEigen (p : Pose6) : Iso :=
  let rr := p.rot
  if rr.dot rr > dblEps then
    ⟨AngleAxis.toMat ⟨rr.norm, rr.normalized⟩, p.trans⟩
  else
    ⟨⟨1, -rr.z, rr.y,
      rr.z, 1, -rr.x,
      -rr.y, rr.x, 1⟩, p.trans⟩

/-- `ceres::AngleAxisRotatePoint` (library semantics): Rodrigues' formula when the squared angle exceeds
the double epsilon, first order expansion otherwise. -/
noncomputable def angleAxisRotatePoint (aa pt : V3) : V3 :=
  let theta2 := aa.dot aa
  if theta2 > dblEps then
    let theta := Real.sqrt theta2
    let c := Real.cos theta
    let s := Real.sin theta
    let w : V3 := V3.smul (1 / theta) aa
    let wxp := w.cross pt
    let tmp := w.dot pt * (1 - c)
    ⟨pt.x * c + wxp.x * s + w.x * tmp, pt.y * c + wxp.y * s + w.y * tmp, pt.z * c + wxp.z * s + w.z * tmp⟩
  else
    let wxp := aa.cross pt
    ⟨pt.x + wxp.x, pt.y + wxp.y, pt.z + wxp.z⟩

/-- `ceres_math_utilities.h` 9-17. -/
noncomputable def transformPoint (aa tx pt : V3) : V3 :=
  let r := angleAxisRotatePoint aa pt
  ⟨r.x + tx.x, r.y + tx.y, r.z + tx.z⟩

/-- `ceres_math_utilities.h` 19-34. -/
noncomputable def poseTransformPoint (p : Pose6) (pt : V3) : V3 :=
  transformPoint ⟨p.rx, p.ry, p.rz⟩ ⟨p.x, p.y, p.z⟩ pt

/-- `Eigen::QuaternionBase::angularDistance`: `2 * atan2(|(a * b.conj).vec|, |(a * b.conj).w|)`. -/
noncomputable def Quat.angularDistance (a b : Quat) : ℝ :=
  let d := a * b.conj
  2 * atan2 d.vec.norm |d.w|

end RCT
