import Verif.Model.Kinematic
import Verif.Model.PnP
import Verif.Model.CircleFit
import Verif.Model.Intrinsic
import Verif.Model.StaticCameras
import Mathlib.Data.Option.NAry

/-!
# The cost functors at `T = ceres::Jet`

The functors of `rct_optimizations` are templates. The solver instantiates them with `ceres::Jet`, numbers that carry
derivatives (`ceres::AutoDiffCostFunction`, `ceres::DynamicAutoDiffCostFunction`). This module models that instantiation
in one direction of the parameter space: a number and its derivative. A derivative that is not finite is `none`.
Once it is not finite it stays so, because derivatives are only added and multiplied by numbers.

The arithmetic is that of `ceres/jet.h` (library semantics). Values are real numbers; a division by zero is not an
exception and its derivative is `none`.
-/

namespace RCT

/-- A `ceres::Jet` in one direction. -/
@[ext] structure Jet where
  a : ℝ
  v : Option ℝ

namespace Jet
/-- `T(x)` for a number `x`. -/
def const (x : ℝ) : Jet := ⟨x, some 0⟩
instance : Zero Jet := ⟨const 0⟩
instance : One Jet := ⟨const 1⟩
instance : Add Jet := ⟨fun f g => ⟨f.a + g.a, Option.map₂ (· + ·) f.v g.v⟩⟩
instance : Sub Jet := ⟨fun f g => ⟨f.a - g.a, Option.map₂ (· - ·) f.v g.v⟩⟩
instance : Neg Jet := ⟨fun f => ⟨-f.a, f.v.map fun x => -x⟩⟩
instance : Mul Jet := ⟨fun f g => ⟨f.a * g.a, Option.map₂ (fun x y => f.a * y + x * g.a) f.v g.v⟩⟩
open Classical in
noncomputable instance : Div Jet := ⟨fun f g => ⟨f.a / g.a,
  if g.a = 0 then none else Option.map₂ (fun x y => (x - f.a / g.a * y) / g.a) f.v g.v⟩⟩
open Classical in
/-- `sqrt`: at zero the derivative is multiplied by an infinite number. -/
noncomputable def sqrt (f : Jet) : Jet :=
  ⟨Real.sqrt f.a, if f.a ≤ 0 then none else f.v.map fun x => x / (2 * Real.sqrt f.a)⟩
noncomputable def sin (f : Jet) : Jet := ⟨Real.sin f.a, f.v.map fun x => Real.cos f.a * x⟩
noncomputable def cos (f : Jet) : Jet := ⟨Real.cos f.a, f.v.map fun x => -Real.sin f.a * x⟩
open Classical in
/-- `abs`. -/
noncomputable def abs (f : Jet) : Jet := if f.a < 0 then -f else f
open Classical in
/-- `atan2(g, f)`. -/
noncomputable def atan2 (g f : Jet) : Jet :=
  ⟨RCT.atan2 g.a f.a, if f.a = 0 ∧ g.a = 0 then none
    else Option.map₂ (fun dg df => (-g.a * df + f.a * dg) / (f.a * f.a + g.a * g.a)) g.v f.v⟩
end Jet

/-- `Eigen::Matrix<T, 2, 1>`. -/
@[ext] structure JV2 where
  x : Jet
  y : Jet

/-- `Eigen::Matrix<T, 3, 1>`. -/
@[ext] structure JV3 where
  x : Jet
  y : Jet
  z : Jet

/-- `Eigen::Matrix<T, 3, 3>`. -/
@[ext] structure JM3 where
  m00 : Jet
  m01 : Jet
  m02 : Jet
  m10 : Jet
  m11 : Jet
  m12 : Jet
  m20 : Jet
  m21 : Jet
  m22 : Jet

/-- `Eigen::Transform<T, 3, Eigen::Isometry>`. -/
@[ext] structure JIso where
  R : JM3
  t : JV3

/-- `Eigen::Quaternion<T>`. -/
@[ext] structure JQuat where
  w : Jet
  x : Jet
  y : Jet
  z : Jet

/-- One row of offsets. -/
@[ext] structure JV4 where
  d : Jet
  theta : Jet
  r : Jet
  alpha : Jet

/-- A parameter block. -/
abbrev JMem := Nat → Jet

namespace JV3
/-- `cast<T>()`. -/
def const (p : V3) : JV3 := ⟨.const p.x, .const p.y, .const p.z⟩
def dot (a b : JV3) : Jet := a.x * b.x + a.y * b.y + a.z * b.z
def cross (a b : JV3) : JV3 := ⟨a.y * b.z - a.z * b.y, a.z * b.x - a.x * b.z, a.x * b.y - a.y * b.x⟩
def add (a b : JV3) : JV3 := ⟨a.x + b.x, a.y + b.y, a.z + b.z⟩
def neg (a : JV3) : JV3 := ⟨-a.x, -a.y, -a.z⟩
/-- `norm()`: the square root of the squared norm. -/
noncomputable def norm (a : JV3) : Jet := (a.dot a).sqrt
open Classical in
/-- `normalized()`. -/
noncomputable def normalized (a : JV3) : JV3 :=
  if (a.dot a).a > 0 then ⟨a.x / a.norm, a.y / a.norm, a.z / a.norm⟩ else a
end JV3

namespace JM3
/-- `cast<T>()`. -/
def const (m : M3) : JM3 :=
  ⟨.const m.m00, .const m.m01, .const m.m02, .const m.m10, .const m.m11, .const m.m12, .const m.m20, .const m.m21,
   .const m.m22⟩
def mul (a b : JM3) : JM3 :=
  ⟨a.m00 * b.m00 + a.m01 * b.m10 + a.m02 * b.m20,
   a.m00 * b.m01 + a.m01 * b.m11 + a.m02 * b.m21,
   a.m00 * b.m02 + a.m01 * b.m12 + a.m02 * b.m22,
   a.m10 * b.m00 + a.m11 * b.m10 + a.m12 * b.m20,
   a.m10 * b.m01 + a.m11 * b.m11 + a.m12 * b.m21,
   a.m10 * b.m02 + a.m11 * b.m12 + a.m12 * b.m22,
   a.m20 * b.m00 + a.m21 * b.m10 + a.m22 * b.m20,
   a.m20 * b.m01 + a.m21 * b.m11 + a.m22 * b.m21,
   a.m20 * b.m02 + a.m21 * b.m12 + a.m22 * b.m22⟩
def tr (a : JM3) : JM3 := ⟨a.m00, a.m10, a.m20, a.m01, a.m11, a.m21, a.m02, a.m12, a.m22⟩
def mulVec (a : JM3) (v : JV3) : JV3 :=
  ⟨a.m00 * v.x + a.m01 * v.y + a.m02 * v.z,
   a.m10 * v.x + a.m11 * v.y + a.m12 * v.z,
   a.m20 * v.x + a.m21 * v.y + a.m22 * v.z⟩
def trace (a : JM3) : Jet := a.m00 + a.m11 + a.m22
/-- `Eigen::AngleAxis<T>::toRotationMatrix()`. -/
noncomputable def ofAngleAxis (angle : Jet) (u : JV3) : JM3 :=
  let c := angle.cos
  let s := angle.sin
  ⟨(1 - c) * u.x * u.x + c, (1 - c) * u.x * u.y - s * u.z, (1 - c) * u.x * u.z + s * u.y,
   (1 - c) * u.x * u.y + s * u.z, (1 - c) * u.y * u.y + c, (1 - c) * u.y * u.z - s * u.x,
   (1 - c) * u.x * u.z - s * u.y, (1 - c) * u.y * u.z + s * u.x, (1 - c) * u.z * u.z + c⟩
end JM3

namespace JIso
/-- `cast<T>()`. -/
def const (T : Iso) : JIso := ⟨.const T.R, .const T.t⟩
def mul (a b : JIso) : JIso := ⟨a.R.mul b.R, (a.R.mulVec b.t).add a.t⟩
def apply (a : JIso) (p : JV3) : JV3 := (a.R.mulVec p).add a.t
/-- `inverse()` of an isometry. -/
def inv (a : JIso) : JIso := ⟨a.R.tr, (a.R.tr.mulVec a.t).neg⟩
end JIso

/-! ## Projection and poses -/

open Classical in
/-- `projectPoint(intr, const T point[3], T xy_image[2])` (`ceres_math_utilities.h` 36-61). -/
noncomputable def projectPointJ (i : Intr) (p : JV3) : JV2 :=
  let xp := if p.z.a = 0 then p.x else p.x / p.z
  let yp := if p.z.a = 0 then p.y else p.y / p.z
  ⟨Jet.const i.fx * xp + Jet.const i.cx, Jet.const i.fy * yp + Jet.const i.cy⟩

open Classical in
/-- The overload on `Eigen::Matrix<T, 3, 1>` (`ceres_math_utilities.h` 63-91). -/
noncomputable def projectPointEJ (i : Intr) (p : JV3) : JV2 :=
  let s : JV3 := if p.z.a > 1 / 10 ^ 10 then ⟨p.x / p.z, p.y / p.z, 1⟩ else ⟨p.x, p.y, 1⟩
  let im := (JM3.const ⟨i.fx, 0, i.cx, 0, i.fy, i.cy, 0, 0, 1⟩).mulVec s
  ⟨im.x, im.y⟩

open Classical in
/-- `ceres::AngleAxisRotatePoint` (library semantics, `ceres/rotation.h`). -/
noncomputable def angleAxisRotatePointJ (aa pt : JV3) : JV3 :=
  let theta2 := aa.dot aa
  if theta2.a > dblEps then
    let theta := theta2.sqrt
    let c := theta.cos
    let s := theta.sin
    let i := 1 / theta
    let w : JV3 := ⟨i * aa.x, i * aa.y, i * aa.z⟩
    let wxp := w.cross pt
    let tmp := w.dot pt * (1 - c)
    ⟨pt.x * c + wxp.x * s + w.x * tmp, pt.y * c + wxp.y * s + w.y * tmp, pt.z * c + wxp.z * s + w.z * tmp⟩
  else
    let wxp := aa.cross pt
    ⟨pt.x + wxp.x, pt.y + wxp.y, pt.z + wxp.z⟩

/-- `transformPoint` (`ceres_math_utilities.h` 9-17). -/
noncomputable def transformPointJ (aa tx pt : JV3) : JV3 :=
  let r := angleAxisRotatePointJ aa pt
  ⟨r.x + tx.x, r.y + tx.y, r.z + tx.z⟩

/-- `poseTransformPoint` (`ceres_math_utilities.h` 19-34). -/
noncomputable def poseTransformPointJ (p : Pose6) (pt : JV3) : JV3 :=
  transformPointJ (.const ⟨p.rx, p.ry, p.rz⟩) (.const ⟨p.x, p.y, p.z⟩) pt

/-! ## Hand-eye -/

/-- A `Pose6d` parameter block. -/
structure JPose where
  rot : JV3
  trans : JV3

/-- `ObservationCost::getTargetPointInCamera` (`extrinsic_hand_eye.cpp` 41-65). -/
noncomputable def targetPointInCameraJ (camMountToBase baseToTgtMount : Iso) (pt : V3) (cam tgt : JPose) : JV3 :=
  let tm := transformPointJ tgt.rot tgt.trans (.const pt)
  let w := poseTransformPointJ (poseEigenToCal baseToTgtMount) tm
  let cm := poseTransformPointJ (poseEigenToCal camMountToBase) w
  transformPointJ cam.rot cam.trans cm

/-- `ObservationCost2D3D::operator()` (`extrinsic_hand_eye.cpp` 89-105). -/
noncomputable def handEyeCost2J (obs : V2) (camMountToBase baseToTgtMount : Iso) (pt : V3) (intr : Intr)
    (cam tgt : JPose) : List Jet :=
  let c := targetPointInCameraJ camMountToBase baseToTgtMount pt cam tgt
  let xy := projectPointJ intr c
  [xy.x - Jet.const obs.x, xy.y - Jet.const obs.y]

/-- `ObservationCost3D3D::operator()` (`extrinsic_hand_eye.cpp` 121-132). -/
noncomputable def handEyeCost3J (obs : V3) (camMountToBase baseToTgtMount : Iso) (pt : V3) (cam tgt : JPose) : List Jet :=
  let c := targetPointInCameraJ camMountToBase baseToTgtMount pt cam tgt
  [c.x - Jet.const obs.x, c.y - Jet.const obs.y, c.z - Jet.const obs.z]

/-! ## PnP -/

/-- `Translation(t) * AngleAxis(aa.norm(), aa.normalized())` (`pnp.cpp` 29-31, 67-69). -/
noncomputable def pnpTransformJ (aa t : JV3) : JIso := ⟨JM3.ofAngleAxis aa.norm aa.normalized, t⟩

/-- `SolvePnPCostFunc::operator()` (`pnp.cpp` 18-42). -/
noncomputable def pnpCost2J (intr : Intr) (pt : V3) (obs : V2) (aa t : JV3) : List Jet :=
  let c := (pnpTransformJ aa t).apply (.const pt)
  let xy := projectPointEJ intr c
  [xy.x - Jet.const obs.x, xy.y - Jet.const obs.y]

/-- `SolvePnPCostFunc3D::operator()` (`pnp.cpp` 57-78). -/
noncomputable def pnpCost3J (pt obs : V3) (aa t : JV3) : List Jet :=
  let c := (pnpTransformJ aa t).apply (.const pt)
  [c.x - Jet.const obs.x, c.y - Jet.const obs.y, c.z - Jet.const obs.z]

/-! ## Circle fit -/

/-- `CircleDistCost::operator()(sample, residual)` (`circle_fit.h` 23-33). -/
def circleCostJ (obs : V2) (sample : JMem) : List Jet :=
  let r := sample 2 * sample 2
  let x := Jet.const obs.x - sample 0
  let y := Jet.const obs.y - sample 1
  [r * r - x * x - y * y]

/-! ## Kinematic calibration -/

def JMem.v3 (m : JMem) : JV3 := ⟨m 0, m 1, m 2⟩

/-- `Eigen::Map<Matrix<T, Dynamic, 4>>(data, rows, 4)`. -/
def JMem.dhRows (m : JMem) (rows : Nat) : List JV4 :=
  (List.range rows).map fun r => ⟨m r, m (rows + r), m (2 * rows + r), m (3 * rows + r)⟩

/-- `transform *= Eigen::Translation(v)`. -/
def JIso.translateBy (T : JIso) (v : JV3) : JIso := T.mul ⟨.const 1, v⟩

/-- `transform.rotate(AngleAxis)`. -/
noncomputable def JIso.rotateBy (T : JIso) (angle : Jet) (axis : JV3) : JIso := T.mul ⟨.ofAngleAxis angle axis, .const 0⟩

/-- `DHTransform::createRelativeTransform` (`dh_chain.h` 64-93). -/
noncomputable def DHTransform.relativeJ (t : DHTransform) (joint : ℝ) (off : JV4) : JIso :=
  let u : JV4 := ⟨Jet.const t.params.d + off.d, Jet.const t.params.theta + off.theta, Jet.const t.params.r + off.r,
    Jet.const t.params.alpha + off.alpha⟩
  let u := match t.type with
    | .linear => { u with d := u.d + Jet.const joint }
    | .revolute => { u with theta := u.theta + Jet.const joint }
  let T : JIso := .const 1
  let T := T.translateBy ⟨0, 0, u.d⟩
  let T := T.rotateBy u.theta (.const ⟨0, 0, 1⟩)
  let T := T.translateBy ⟨u.r, 0, 0⟩
  T.rotateBy u.alpha (.const ⟨1, 0, 0⟩)

/-- The loop of `getFK` (`dh_chain.h` 187-191). -/
noncomputable def DHChain.fkLoopJ (ts : List DHTransform) (offs : List JV4) : Nat → List ℝ → JIso → Res JIso
  | _, [], T => .ok T
  | i, q :: qs, T =>
    (Res.idxList offs i).bind fun o =>
    (Res.atList ts i).bind fun t =>
    fkLoopJ ts offs (i + 1) qs (T.mul (t.relativeJ q o))

/-- `getFK` with offsets (`dh_chain.h` 168-193). -/
noncomputable def DHChain.getFKJ (c : DHChain) (q : List ℝ) (offs : List JV4) : Res JIso :=
  if q.length > c.dof then .throw .runtimeError
  else if q.length > offs.length then .throw .runtimeError
  else fkLoopJ c.transforms offs 0 q (.const c.base)

open Classical in
/-- `createTransform` (`dh_chain_kinematic_calibration.h` 150-164). `e` is `std::numeric_limits<Jet>::epsilon()`, which is
zero or that of `double`, depending on the version of ceres. -/
noncomputable def kinTransformJ (e : ℝ) (t aa : JV3) : JIso :=
  let result := (JIso.const 1).translateBy t
  if aa.norm.a > e then result.rotateBy aa.norm aa.normalized else result

/-- Steps 1 and 2 of both cost functors (`dh_chain_kinematic_calibration.h` 288-322 and 357-392). -/
noncomputable def kinCameraToTargetJ (e : ℝ) (cc tc : DHChain) (qc qt : List ℝ) (p : Nat → JMem) : Res JIso :=
  let cameraOffsets := (p 0).dhRows cc.dof
  let targetOffsets := (p 1).dhRows tc.dof
  let cmToC := kinTransformJ e (p 2).v3 (p 3).v3
  let tmToT := kinTransformJ e (p 4).v3 (p 5).v3
  let cbToTb := kinTransformJ e (p 6).v3 (p 7).v3
  (cc.getFKJ qc cameraOffsets).bind fun cameraFk =>
    let cameraBaseToCamera := cameraFk.mul cmToC
    (tc.getFKJ qt targetOffsets).bind fun targetFk =>
      let cameraBaseToTarget := (cbToTb.mul targetFk).mul tmToT
      .ok (cameraBaseToCamera.inv.mul cameraBaseToTarget)

/-- `DualDHChainCost2D3D::operator()` (`dh_chain_kinematic_calibration.h` 285-333). -/
noncomputable def kinCost2J (e : ℝ) (cc tc : DHChain) (intr : Intr) (o : KinObs) (k : Corr2) (p : Nat → JMem) :
    Res (List Jet) :=
  (kinCameraToTargetJ e cc tc o.cameraJoints o.targetJoints p).bind fun T =>
    let px := projectPointEJ intr (T.apply (.const k.inTarget))
    .ok [px.x - Jet.const k.inImage.x, px.y - Jet.const k.inImage.y]

open Classical in
/-- `Eigen::Quaternion<T>(const Matrix<T, 3, 3>&)` (library semantics). -/
noncomputable def JM3.toQuat (m : JM3) : JQuat :=
  let half := Jet.const (1 / 2)
  if m.trace.a > 0 then
    let t := (m.trace + 1).sqrt
    let k := half / t
    ⟨half * t, (m.m21 - m.m12) * k, (m.m02 - m.m20) * k, (m.m10 - m.m01) * k⟩
  else if m.m11.a > m.m00.a then
    if m.m22.a > m.m11.a then
      let t := (m.m22 - m.m00 - m.m11 + 1).sqrt
      let k := half / t
      ⟨(m.m10 - m.m01) * k, (m.m02 + m.m20) * k, (m.m12 + m.m21) * k, half * t⟩
    else
      let t := (m.m11 - m.m22 - m.m00 + 1).sqrt
      let k := half / t
      ⟨(m.m02 - m.m20) * k, (m.m01 + m.m10) * k, half * t, (m.m21 + m.m12) * k⟩
  else
    if m.m22.a > m.m00.a then
      let t := (m.m22 - m.m00 - m.m11 + 1).sqrt
      let k := half / t
      ⟨(m.m10 - m.m01) * k, (m.m02 + m.m20) * k, (m.m12 + m.m21) * k, half * t⟩
    else
      let t := (m.m00 - m.m11 - m.m22 + 1).sqrt
      let k := half / t
      ⟨(m.m21 - m.m12) * k, half * t, (m.m10 + m.m01) * k, (m.m20 + m.m02) * k⟩

/-- Hamilton product. -/
def JQuat.mul (a b : JQuat) : JQuat :=
  ⟨a.w * b.w - a.x * b.x - a.y * b.y - a.z * b.z,
   a.w * b.x + a.x * b.w + a.y * b.z - a.z * b.y,
   a.w * b.y + a.y * b.w + a.z * b.x - a.x * b.z,
   a.w * b.z + a.z * b.w + a.x * b.y - a.y * b.x⟩

def JQuat.conj (q : JQuat) : JQuat := ⟨q.w, -q.x, -q.y, -q.z⟩

/-- `Eigen::QuaternionBase<T>::angularDistance`. -/
noncomputable def JQuat.angularDistance (a b : JQuat) : Jet :=
  let d := a.mul b.conj
  Jet.const 2 * Jet.atan2 (JV3.norm ⟨d.x, d.y, d.z⟩) d.w.abs

/-- `DualDHChainCostPose6D::operator()` (`dh_chain_kinematic_calibration.h` 354-406). `ceres::IsNaN` of a jet holds if its
value or a derivative is NaN. Here a derivative that is not finite is NaN: it stems from the square root of a sum of
squares that is zero, whose derivative is zero too. -/
noncomputable def kinCost6J (e : ℝ) (cc tc : DHChain) (w : ℝ) (m : KinMeas) (p : Nat → JMem) : Res (List Jet) :=
  (kinCameraToTargetJ e cc tc m.cameraJoints m.targetJoints p).bind fun T =>
    let err := (JIso.const m.cameraToTarget).mul T.inv
    let rotDiff := (JM3.const m.cameraToTarget.R).toQuat.angularDistance T.R.toQuat
    .ok [err.t.x, err.t.y, err.t.z, if rotDiff.v = none then 0 else Jet.const w * rotDiff]

/-! ## Static cameras, several cameras and intrinsics -/

/-- `ReprojectionCost::operator()` (`extrinsic_multi_static_camera.cpp` 25-56). -/
noncomputable def msCostJ (obs : V2) (intr : Intr) (baseToWrist : Iso) (pt : V3) (cam tgt : JPose) : List Jet :=
  let l := transformPointJ tgt.rot tgt.trans (.const pt)
  let w := poseTransformPointJ (poseEigenToCal baseToWrist) l
  let c := transformPointJ cam.rot cam.trans w
  let xy := projectPointJ intr c
  [xy.x - Jet.const obs.x, xy.y - Jet.const obs.y]

/-- `ReprojectionFreeCameraCost::operator()` (`extrinsic_multi_static_camera_only.cpp` 23-52). -/
noncomputable def coFreeCostJ (obs : V2) (intr : Intr) (pt : V3) (cam tgt : JPose) : List Jet :=
  let w := transformPointJ tgt.rot tgt.trans (.const pt)
  let c := transformPointJ cam.rot cam.trans w
  let xy := projectPointJ intr c
  [xy.x - Jet.const obs.x, xy.y - Jet.const obs.y]

/-- `ReprojectionFixedCameraCost` (`extrinsic_multi_static_camera_only.cpp` 63-97). -/
noncomputable def coFixedCostJ (obs : V2) (intr : Intr) (baseToCamera : Iso) (pt : V3) (tgt : JPose) : List Jet :=
  let w := transformPointJ tgt.rot tgt.trans (.const pt)
  let c := poseTransformPointJ (poseEigenToCal baseToCamera.inv) w
  let xy := projectPointJ intr c
  [xy.x - Jet.const obs.x, xy.y - Jet.const obs.y]

/-- `ReprojectionCost` (`extrinsic_multi_static_camera_wrist_only.cpp` 16-62). -/
noncomputable def woCostJ (obs : V2) (intr : Intr) (baseToWrist baseToCamera : Iso) (pt : V3) (corr tgt : JPose) :
    List Jet :=
  let l := transformPointJ tgt.rot tgt.trans (.const pt)
  let w := poseTransformPointJ (poseEigenToCal baseToWrist) l
  let co := transformPointJ corr.rot corr.trans w
  let c := poseTransformPointJ (poseEigenToCal baseToCamera.inv) co
  let xy := projectPointJ intr c
  [xy.x - Jet.const obs.x, xy.y - Jet.const obs.y]

/-- `ReprojectionCost::operator()` of the multi camera PnP (`multi_camera_pnp.cpp` 23-49). -/
noncomputable def mcPnpCostJ (obs : V2) (intr : Intr) (cameraToBase : Iso) (pt : V3) (tgt : JPose) : List Jet :=
  let w := transformPointJ tgt.rot tgt.trans (.const pt)
  let c := poseTransformPointJ (poseEigenToCal cameraToBase) w
  let xy := projectPointJ intr c
  [xy.x - Jet.const obs.x, xy.y - Jet.const obs.y]

/-- `CalibCameraIntrinsics<T>` (`camera_intrinsic.cpp` 12-31). -/
structure JIntr9 where
  fx : Jet
  fy : Jet
  cx : Jet
  cy : Jet
  k1 : Jet
  k2 : Jet
  p1 : Jet
  p2 : Jet
  k3 : Jet

def JMem.intr9 (m : JMem) : JIntr9 := ⟨m 0, m 1, m 2, m 3, m 4, m 5, m 6, m 7, m 8⟩

def JMem.pose (m : JMem) : JPose := ⟨⟨m 0, m 1, m 2⟩, ⟨m 3, m 4, m 5⟩⟩

open Classical in
/-- `projectPoints2` (`camera_intrinsic.cpp` 65-111). -/
noncomputable def projectPoints2J (i : JIntr9) (p : JV3) : JV2 :=
  let xp := if p.z.a = 0 then p.x else p.x / p.z
  let yp := if p.z.a = 0 then p.y else p.y / p.z
  let xp2 := xp * xp
  let yp2 := yp * yp
  let r2 := xp2 + yp2
  let r4 := r2 * r2
  let r6 := r2 * r4
  let two := Jet.const 2
  let xpp := xp + i.k1 * r2 * xp + i.k2 * r4 * xp + i.k3 * r6 * xp + i.p2 * (r2 + two * xp2) + i.p1 * xp * yp * two
  let ypp := yp + i.k1 * r2 * yp + i.k2 * r4 * yp + i.k3 * r6 * yp + i.p1 * (r2 + two * yp2) + i.p2 * xp * yp * two
  ⟨i.fx * xpp + i.cx, i.fy * ypp + i.cy⟩

/-- `IntrinsicCostFunction::operator()` (`camera_intrinsic.cpp` 140-162). -/
noncomputable def intrinsicCostJ (inTarget : V3) (inImage : V2) (pose intr : JMem) : List Jet :=
  let c := transformPointJ pose.pose.rot pose.pose.trans (.const inTarget)
  let xy := projectPoints2J intr.intr9 c
  [xy.x - Jet.const inImage.x, xy.y - Jet.const inImage.y]

/-- `MaximumLikelihood::operator()` with mean zero and one standard deviation (`maximum_likelihood.h` 26-36, as used at
`dh_chain_kinematic_calibration.cpp` 226-239 and 242-255): the prior on the offsets in block `a`. -/
noncomputable def kinPriorJ (c : DHChain) (a : Nat) (stdev : ℝ) (p : Nat → JMem) : Res (List Jet) :=
  .ok ((List.range (kinRows c * 4)).map fun k => (p a k - Jet.const 0) / Jet.const stdev)

end RCT
