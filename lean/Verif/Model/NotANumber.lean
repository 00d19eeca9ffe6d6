import Verif.Model.RoundedMore
import Mathlib.Data.Option.NAry

/-!
# Residual functors with values that are not a number

As `Verif/Model/Rounded.lean` and `Verif/Model/RoundedMore.lean`, with NaN (`none`): every operation on NaN gives NaN, and
every comparison with NaN is false. A quotient by zero, which no functor computes, is taken to be NaN. Overflow is outside the model.
-/

namespace RCT.NaN

abbrev Num := Option ℝ

structure N2 where
  x : Num
  y : Num

structure N3 where
  x : Num
  y : Num
  z : Num

structure NPose where
  rx : Num
  ry : Num
  rz : Num
  x : Num
  y : Num
  z : Num

structure NIntr where
  fx : Num
  fy : Num
  cx : Num
  cy : Num

structure NIntr9 where
  fx : Num
  fy : Num
  cx : Num
  cy : Num
  k1 : Num
  k2 : Num
  p1 : Num
  p2 : Num
  k3 : Num

def add (D : Double) (a b : Num) : Num := Option.map₂ D.add a b
def sub (D : Double) (a b : Num) : Num := Option.map₂ D.sub a b
def mul (D : Double) (a b : Num) : Num := Option.map₂ D.mul a b
open Classical in
noncomputable def div (D : Double) (a b : Num) : Num := if b = some 0 then none else Option.map₂ D.div a b
def sqrt (D : Double) (a : Num) : Num := a.map D.sqrt
def sin (D : Double) (a : Num) : Num := a.map D.sin
def cos (D : Double) (a : Num) : Num := a.map D.cos

/-- `a > r` -/
def Gt (a : Num) (r : ℝ) : Prop := ∃ x, a = some x ∧ x > r

/-- `a[0] * b[0] + a[1] * b[1] + a[2] * b[2]` -/
def dot (D : Double) (a b : N3) : Num := add D (add D (mul D a.x b.x) (mul D a.y b.y)) (mul D a.z b.z)

def cross (D : Double) (a b : N3) : N3 :=
  ⟨sub D (mul D a.y b.z) (mul D a.z b.y), sub D (mul D a.z b.x) (mul D a.x b.z), sub D (mul D a.x b.y) (mul D a.y b.x)⟩

open Classical in
/-- `ceres::AngleAxisRotatePoint` (library semantics). -/
noncomputable def angleAxisRotatePoint (D : Double) (aa pt : N3) : N3 :=
  let theta2 := dot D aa aa
  if Gt theta2 dblEps then
    let theta := sqrt D theta2
    let c := cos D theta
    let s := sin D theta
    let i := div D (some 1) theta
    let w : N3 := ⟨mul D aa.x i, mul D aa.y i, mul D aa.z i⟩
    let wxp := cross D w pt
    let tmp := mul D (dot D w pt) (sub D (some 1) c)
    ⟨add D (add D (mul D pt.x c) (mul D wxp.x s)) (mul D w.x tmp), add D (add D (mul D pt.y c) (mul D wxp.y s)) (mul D w.y tmp),
      add D (add D (mul D pt.z c) (mul D wxp.z s)) (mul D w.z tmp)⟩
  else
    let wxp := cross D aa pt
    ⟨add D pt.x wxp.x, add D pt.y wxp.y, add D pt.z wxp.z⟩

/-- `ceres_math_utilities.h` 9-17 and 19-34. -/
noncomputable def transformPoint (D : Double) (p : NPose) (pt : N3) : N3 :=
  let r := angleAxisRotatePoint D ⟨p.rx, p.ry, p.rz⟩ pt
  ⟨add D r.x p.x, add D r.y p.y, add D r.z p.z⟩

open Classical in
/-- `ceres_math_utilities.h` 36-61. -/
noncomputable def projectPoint (D : Double) (i : NIntr) (p : N3) : N2 :=
  let xp := if p.z = some 0 then p.x else div D p.x p.z
  let yp := if p.z = some 0 then p.y else div D p.y p.z
  ⟨add D (mul D i.fx xp) i.cx, add D (mul D i.fy yp) i.cy⟩

noncomputable def pixelResidual (D : Double) (intr : NIntr) (c : N3) (obs : N2) : List Num :=
  let xy := projectPoint D intr c
  [sub D xy.x obs.x, sub D xy.y obs.y]

/-- `getTargetPointInCamera` (`extrinsic_hand_eye.cpp` 40-66). -/
noncomputable def targetPointInCamera (D : Double) (camMountToBase baseToTgtMount : NPose) (pt : N3) (cam tgt : NPose) : N3 :=
  transformPoint D cam (transformPoint D camMountToBase (transformPoint D baseToTgtMount (transformPoint D tgt pt)))

/-- `isPointVisible` (`extrinsic_hand_eye.cpp` 135-147). -/
def IsPointVisible (D : Double) (camMountToBase baseToTgtMount : NPose) (pt : N3) (cam tgt : NPose) : Prop :=
  Gt (targetPointInCamera D camMountToBase baseToTgtMount pt cam tgt).z 0

/-- `ObservationCost2D3D::operator()` (`extrinsic_hand_eye.cpp` 89-105). -/
noncomputable def handEyeCost2 (D : Double) (obs : N2) (camMountToBase baseToTgtMount : NPose) (pt : N3) (intr : NIntr)
    (cam tgt : NPose) : List Num :=
  pixelResidual D intr (targetPointInCamera D camMountToBase baseToTgtMount pt cam tgt) obs

/-- `ObservationCost3D3D::operator()` (`extrinsic_hand_eye.cpp` 121-132). -/
noncomputable def handEyeCost3 (D : Double) (obs : N3) (camMountToBase baseToTgtMount : NPose) (pt : N3) (cam tgt : NPose) : List Num :=
  let c := targetPointInCamera D camMountToBase baseToTgtMount pt cam tgt
  [sub D c.x obs.x, sub D c.y obs.y, sub D c.z obs.z]

/-- `ReprojectionCost::operator()` of the multi camera PnP (`multi_camera_pnp.cpp` 23-49). -/
noncomputable def mcPnpCost (D : Double) (obs : N2) (intr : NIntr) (cameraToBase : NPose) (pt : N3) (tgt : NPose) : List Num :=
  pixelResidual D intr (transformPoint D cameraToBase (transformPoint D tgt pt)) obs

/-- `ReprojectionCost::operator()` (`extrinsic_multi_static_camera.cpp` 25-56). -/
noncomputable def msCost (D : Double) (obs : N2) (intr : NIntr) (baseToWrist : NPose) (pt : N3) (cam tgt : NPose) : List Num :=
  pixelResidual D intr (transformPoint D cam (transformPoint D baseToWrist (transformPoint D tgt pt))) obs

/-- `ReprojectionFreeCameraCost::operator()` (`extrinsic_multi_static_camera_only.cpp` 24-52); the fixed camera of lines 63-97
has the same operations with the values of its pose given. -/
noncomputable def coCost (D : Double) (obs : N2) (intr : NIntr) (pt : N3) (cam tgt : NPose) : List Num :=
  pixelResidual D intr (transformPoint D cam (transformPoint D tgt pt)) obs

/-- `ReprojectionCost::operator()` (`extrinsic_multi_static_camera_wrist_only.cpp` 29-62). -/
noncomputable def woCost (D : Double) (obs : N2) (intr : NIntr) (baseToWrist cameraToBase : NPose) (pt : N3) (corr tgt : NPose) : List Num :=
  pixelResidual D intr (transformPoint D cameraToBase (transformPoint D corr (transformPoint D baseToWrist (transformPoint D tgt pt)))) obs

/-- A row of a matrix times a vector, plus a number. -/
def row (D : Double) (a b c : Num) (v : N3) (t : Num) : Num := add D (dot D ⟨a, b, c⟩ v) t

open Classical in
/-- `camera_to_target * in_target` (`pnp.cpp` 29-34 and 67-72), with `Eigen::AngleAxis(aa.norm(), aa.normalized())` turned into a
matrix as in `Double.angleAxisMatrix`. -/
noncomputable def pnpPoint (D : Double) (pt aa t : N3) : N3 :=
  let z := dot D aa aa
  let n := sqrt D z
  let u : N3 := if Gt z 0 then ⟨div D aa.x n, div D aa.y n, div D aa.z n⟩ else aa
  let c := cos D n
  let s := sin D n
  let su : N3 := ⟨mul D s u.x, mul D s u.y, mul D s u.z⟩
  let cu : N3 := ⟨mul D (sub D (some 1) c) u.x, mul D (sub D (some 1) c) u.y, mul D (sub D (some 1) c) u.z⟩
  let xy := mul D cu.x u.y
  let xz := mul D cu.x u.z
  let yz := mul D cu.y u.z
  ⟨row D (add D (mul D cu.x u.x) c) (sub D xy su.z) (add D xz su.y) pt t.x,
   row D (add D xy su.z) (add D (mul D cu.y u.y) c) (sub D yz su.x) pt t.y,
   row D (sub D xz su.y) (add D yz su.x) (add D (mul D cu.z u.z) c) pt t.z⟩

open Classical in
/-- `ceres_math_utilities.h` 63-91. -/
noncomputable def projectPointE (D : Double) (i : NIntr) (p : N3) : N2 :=
  let s : N3 := if Gt (sub D p.z (some 0)) (1 / 10 ^ 10) then ⟨div D p.x p.z, div D p.y p.z, some 1⟩ else ⟨p.x, p.y, some 1⟩
  ⟨dot D ⟨i.fx, some 0, i.cx⟩ s, dot D ⟨some 0, i.fy, i.cy⟩ s⟩

/-- `SolvePnPCostFunc::operator()` (`pnp.cpp` 18-42). -/
noncomputable def pnpCost2 (D : Double) (intr : NIntr) (pt : N3) (obs : N2) (aa t : N3) : List Num :=
  let xy := projectPointE D intr (pnpPoint D pt aa t)
  [sub D xy.x obs.x, sub D xy.y obs.y]

/-- `SolvePnPCostFunc3D::operator()` (`pnp.cpp` 57-78). -/
noncomputable def pnpCost3 (D : Double) (pt obs aa t : N3) : List Num :=
  let c := pnpPoint D pt aa t
  [sub D c.x obs.x, sub D c.y obs.y, sub D c.z obs.z]

open Classical in
/-- `projectPoints2` (`camera_intrinsic.cpp` 65-111). -/
noncomputable def projectPoints2 (D : Double) (i : NIntr9) (p : N3) : N2 :=
  let xp := if p.z = some 0 then p.x else div D p.x p.z
  let yp := if p.z = some 0 then p.y else div D p.y p.z
  let xp2 := mul D xp xp
  let yp2 := mul D yp yp
  let r2 := add D xp2 yp2
  let r4 := mul D r2 r2
  let r6 := mul D r2 r4
  let xpp := add D (add D (add D (add D (add D xp (mul D (mul D i.k1 r2) xp)) (mul D (mul D i.k2 r4) xp)) (mul D (mul D i.k3 r6) xp))
    (mul D i.p2 (add D r2 (mul D (some 2) xp2)))) (mul D (mul D (mul D i.p1 xp) yp) (some 2))
  let ypp := add D (add D (add D (add D (add D yp (mul D (mul D i.k1 r2) yp)) (mul D (mul D i.k2 r4) yp)) (mul D (mul D i.k3 r6) yp))
    (mul D i.p1 (add D r2 (mul D (some 2) yp2)))) (mul D (mul D (mul D i.p2 xp) yp) (some 2))
  ⟨add D (mul D i.fx xpp) i.cx, add D (mul D i.fy ypp) i.cy⟩

/-- `IntrinsicCostFunction::operator()` (`camera_intrinsic.cpp` 140-162). -/
noncomputable def intrinsicCost (D : Double) (inTarget : N3) (inImage : N2) (pose : NPose) (intr : NIntr9) : List Num :=
  let xy := projectPoints2 D intr (transformPoint D pose inTarget)
  [sub D xy.x inImage.x, sub D xy.y inImage.y]

end RCT.NaN
