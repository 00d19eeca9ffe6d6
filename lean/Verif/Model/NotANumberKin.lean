import Verif.Model.NotANumber
import Verif.Model.Kinematic

/-!
# Kinematic calibration, circle fitting and priors with values that are not a number

As `Verif/Model/NotANumber.lean`: any number may be NaN (`none`). Sums in products of matrices are taken from left to right. The checks
on the number of joint values are left to `Verif/Model/DHChain.lean`: here the tables are long enough.
-/

namespace RCT.NaN

/-- A 3 x 3 matrix by its rows. -/
structure NM3 where
  r0 : N3
  r1 : N3
  r2 : N3

/-- `Eigen::Isometry3d`. -/
structure NIso where
  R : NM3
  t : N3

/-- `d, theta, r, alpha`. -/
structure N4 where
  d : Num
  theta : Num
  r : Num
  alpha : Num

def neg (a : Num) : Num := a.map fun x => -x

def NM3.one : NM3 := ⟨⟨some 1, some 0, some 0⟩, ⟨some 0, some 1, some 0⟩, ⟨some 0, some 0, some 1⟩⟩
def NIso.one : NIso := ⟨NM3.one, ⟨some 0, some 0, some 0⟩⟩

def NM3.transpose (m : NM3) : NM3 := ⟨⟨m.r0.x, m.r1.x, m.r2.x⟩, ⟨m.r0.y, m.r1.y, m.r2.y⟩, ⟨m.r0.z, m.r1.z, m.r2.z⟩⟩

def add3 (D : Double) (a b : N3) : N3 := ⟨add D a.x b.x, add D a.y b.y, add D a.z b.z⟩

def NM3.mulVec (D : Double) (m : NM3) (v : N3) : N3 := ⟨dot D m.r0 v, dot D m.r1 v, dot D m.r2 v⟩

/-- A row of a product. -/
def rowMul (D : Double) (a : N3) (m : NM3) : N3 := ⟨dot D a m.transpose.r0, dot D a m.transpose.r1, dot D a m.transpose.r2⟩

def NM3.mul (D : Double) (a b : NM3) : NM3 := ⟨rowMul D a.r0 b, rowMul D a.r1 b, rowMul D a.r2 b⟩

def NM3.neg (m : NM3) : NM3 :=
  ⟨⟨NaN.neg m.r0.x, NaN.neg m.r0.y, NaN.neg m.r0.z⟩, ⟨NaN.neg m.r1.x, NaN.neg m.r1.y, NaN.neg m.r1.z⟩,
    ⟨NaN.neg m.r2.x, NaN.neg m.r2.y, NaN.neg m.r2.z⟩⟩

/-- Product of isometries (Eigen). -/
def NIso.mul (D : Double) (a b : NIso) : NIso := ⟨a.R.mul D b.R, add3 D (a.R.mulVec D b.t) a.t⟩

/-- `inverse()` of an isometry (Eigen): the transpose, and its negative times the translation. -/
def NIso.inv (D : Double) (a : NIso) : NIso := ⟨a.R.transpose, a.R.transpose.neg.mulVec D a.t⟩

def NIso.apply (D : Double) (a : NIso) (v : N3) : N3 := add3 D (a.R.mulVec D v) a.t

/-- `transform *= Eigen::Translation(v)`. -/
def NIso.translateBy (D : Double) (T : NIso) (v : N3) : NIso := ⟨T.R, add3 D T.t (T.R.mulVec D v)⟩

/-- `Eigen::AngleAxis(angle, u).toRotationMatrix()`. -/
def axisMatrix (D : Double) (angle : Num) (u : N3) : NM3 :=
  let c := cos D angle
  let s := sin D angle
  let su : N3 := ⟨mul D s u.x, mul D s u.y, mul D s u.z⟩
  let cu : N3 := ⟨mul D (sub D (some 1) c) u.x, mul D (sub D (some 1) c) u.y, mul D (sub D (some 1) c) u.z⟩
  let xy := mul D cu.x u.y
  let xz := mul D cu.x u.z
  let yz := mul D cu.y u.z
  ⟨⟨add D (mul D cu.x u.x) c, sub D xy su.z, add D xz su.y⟩,
   ⟨add D xy su.z, add D (mul D cu.y u.y) c, sub D yz su.x⟩,
   ⟨sub D xz su.y, add D yz su.x, add D (mul D cu.z u.z) c⟩⟩

/-- `transform.rotate(AngleAxis)`. -/
def NIso.rotateBy (D : Double) (T : NIso) (angle : Num) (u : N3) : NIso := ⟨T.R.mul D (axisMatrix D angle u), T.t⟩

/-- The parameters of a joint with its offsets and its value (`dh_chain.h` 70-85). -/
def updated (D : Double) (params : N4) (type : JointType) (joint : Num) (off : N4) : N4 :=
  let u : N4 := ⟨add D params.d off.d, add D params.theta off.theta, add D params.r off.r, add D params.alpha off.alpha⟩
  match type with
  | .linear => ⟨add D u.d joint, u.theta, u.r, u.alpha⟩
  | .revolute => ⟨u.d, add D u.theta joint, u.r, u.alpha⟩

/-- `DHTransform::createRelativeTransform` (`dh_chain.h` 64-93). -/
def relative (D : Double) (params : N4) (type : JointType) (joint : Num) (off : N4) : NIso :=
  let u := updated D params type joint off
  let T := NIso.one.translateBy D ⟨some 0, some 0, u.d⟩
  let T := T.rotateBy D u.theta ⟨some 0, some 0, some 1⟩
  let T := T.translateBy D ⟨u.r, some 0, some 0⟩
  T.rotateBy D u.alpha ⟨some 1, some 0, some 0⟩

/-- The loop of `DHChain::getFK` (`dh_chain.h` 187-191). -/
def fk (D : Double) : List (N4 × JointType) → List N4 → List Num → NIso → NIso
  | t :: ts, o :: os, q :: qs, T => fk D ts os qs (T.mul D (relative D t.1 t.2 q o))
  | _, _, _, T => T

open Classical in
/-- `createTransform` (`dh_chain_kinematic_calibration.h` 150-164). -/
noncomputable def kinTransform (D : Double) (t aa : N3) : NIso :=
  let result := NIso.one.translateBy D t
  let z := dot D aa aa
  let n := sqrt D z
  if Gt n dblEps then
    let u : N3 := if Gt z 0 then ⟨div D aa.x n, div D aa.y n, div D aa.z n⟩ else aa
    result.rotateBy D n u
  else result

/-- A kinematic chain with its offsets and joint values. -/
structure NChain where
  base : NIso
  joints : List (N4 × JointType)
  offsets : List N4
  values : List Num

def NChain.getFK (D : Double) (c : NChain) : NIso := fk D c.joints c.offsets c.values c.base

/-- The estimated mounts: position and orientation of the camera, of the target and of the bases. -/
structure NMounts where
  cm : N3
  cmAA : N3
  tm : N3
  tmAA : N3
  cb : N3
  cbAA : N3

/-- Steps 1 and 2 of both functors (`dh_chain_kinematic_calibration.h` 288-322 and 357-392). -/
noncomputable def kinCameraToTarget (D : Double) (cc tc : NChain) (m : NMounts) : NIso :=
  let cameraBaseToCamera := (cc.getFK D).mul D (kinTransform D m.cm m.cmAA)
  let cameraBaseToTarget := ((kinTransform D m.cb m.cbAA).mul D (tc.getFK D)).mul D (kinTransform D m.tm m.tmAA)
  (cameraBaseToCamera.inv D).mul D cameraBaseToTarget

/-- `DualDHChainCost2D3D::operator()` (`dh_chain_kinematic_calibration.h` 285-333). -/
noncomputable def kinCost2 (D : Double) (cc tc : NChain) (intr : NIntr) (pt : N3) (obs : N2) (m : NMounts) : List Num :=
  let xy := projectPointE D intr ((kinCameraToTarget D cc tc m).apply D pt)
  [sub D xy.x obs.x, sub D xy.y obs.y]

open Classical in
/-- `DualDHChainCostPose6D::operator()` (`dh_chain_kinematic_calibration.h` 354-406). The angular distance of two rotation
matrices is left open (`dist`): it may be NaN. -/
noncomputable def kinCost6 (D : Double) (dist : NM3 → NM3 → Num) (cc tc : NChain) (measured : NIso) (weight : Num) (m : NMounts) : List Num :=
  let T := kinCameraToTarget D cc tc m
  let err := measured.mul D (T.inv D)
  let rotDiff := dist measured.R T.R
  [err.t.x, err.t.y, err.t.z, if rotDiff = none then some 0 else mul D weight rotDiff]

/-- `CircleDistCost::operator()(sample, residual)` (`circle_fit.h` 22-33; the other overload, 44-55, has the same operations). -/
def circleCost (D : Double) (obs : N2) (x y rSqrt : Num) : List Num :=
  let r := mul D rSqrt rSqrt
  let xp := sub D obs.x x
  let yp := sub D obs.y y
  [sub D (sub D (mul D r r) (mul D xp xp)) (mul D yp yp)]

/-- A residual of `MaximumLikelihood` (`maximum_likelihood.h` 26-36). -/
noncomputable def priorCost (D : Double) (param mean stdev : Num) : Num := div D (sub D param mean) stdev

end RCT.NaN
