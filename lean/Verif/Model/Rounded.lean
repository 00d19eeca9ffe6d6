import Verif.Model.Pose
import Verif.Model.Projection

/-!
# Residual functors in double arithmetic

The functors of the calibrations evaluated with `double` values: every operation is rounded, and square root, sine and
cosine are those of the C library. Overflow, underflow and NaN are outside the model, as are fused operations; the six
values of the poses and the points are given exactly.
-/

namespace RCT

/-- Double arithmetic. -/
structure Double where
  /-- The double next to a real number. -/
  rnd : ℝ → ℝ
  sqrt : ℝ → ℝ
  sin : ℝ → ℝ
  cos : ℝ → ℝ

/-- Half the distance from 1 to the next double. -/
noncomputable def dblUnit : ℝ := 1 / 2 ^ 53

/-- Contract: operations and square root are correctly rounded (IEEE 754), sine and cosine are off by at most the distance
of two doubles below 2. -/
structure Double.WF (D : Double) : Prop where
  rnd_err : ∀ x, |D.rnd x - x| ≤ dblUnit * |x|
  sqrt_err : ∀ x, 0 ≤ x → |D.sqrt x - Real.sqrt x| ≤ dblUnit * Real.sqrt x
  sin_err : ∀ x, |D.sin x - Real.sin x| ≤ 2 * dblUnit
  cos_err : ∀ x, |D.cos x - Real.cos x| ≤ 2 * dblUnit

namespace Double

def add (D : Double) (a b : ℝ) : ℝ := D.rnd (a + b)
def sub (D : Double) (a b : ℝ) : ℝ := D.rnd (a - b)
def mul (D : Double) (a b : ℝ) : ℝ := D.rnd (a * b)
noncomputable def div (D : Double) (a b : ℝ) : ℝ := D.rnd (a / b)

/-- `a[0] * b[0] + a[1] * b[1] + a[2] * b[2]` -/
def dot (D : Double) (a b : V3) : ℝ := D.add (D.add (D.mul a.x b.x) (D.mul a.y b.y)) (D.mul a.z b.z)

/-- The cross product as in `ceres/rotation.h`. -/
def cross (D : Double) (a b : V3) : V3 :=
  ⟨D.sub (D.mul a.y b.z) (D.mul a.z b.y), D.sub (D.mul a.z b.x) (D.mul a.x b.z), D.sub (D.mul a.x b.y) (D.mul a.y b.x)⟩

/-- `ceres::AngleAxisRotatePoint` (library semantics). -/
noncomputable def angleAxisRotatePoint (D : Double) (aa pt : V3) : V3 :=
  let theta2 := D.dot aa aa
  if theta2 > dblEps then
    let theta := D.sqrt theta2
    let c := D.cos theta
    let s := D.sin theta
    let i := D.div 1 theta
    let w : V3 := ⟨D.mul aa.x i, D.mul aa.y i, D.mul aa.z i⟩
    let wxp := D.cross w pt
    let tmp := D.mul (D.dot w pt) (D.sub 1 c)
    ⟨D.add (D.add (D.mul pt.x c) (D.mul wxp.x s)) (D.mul w.x tmp), D.add (D.add (D.mul pt.y c) (D.mul wxp.y s)) (D.mul w.y tmp),
      D.add (D.add (D.mul pt.z c) (D.mul wxp.z s)) (D.mul w.z tmp)⟩
  else
    let wxp := D.cross aa pt
    ⟨D.add pt.x wxp.x, D.add pt.y wxp.y, D.add pt.z wxp.z⟩

/-- `ceres_math_utilities.h` 9-17 (`transformPoint`) and 19-34 (`poseTransformPoint`, the same with the values of a pose). -/
noncomputable def transformPoint (D : Double) (p : Pose6) (pt : V3) : V3 :=
  let r := D.angleAxisRotatePoint ⟨p.rx, p.ry, p.rz⟩ pt
  ⟨D.add r.x p.x, D.add r.y p.y, D.add r.z p.z⟩

open Classical in
/-- `ceres_math_utilities.h` 36-61. -/
noncomputable def projectPoint (D : Double) (i : Intr) (p : V3) : V2 :=
  let xp := if p.z = 0 then p.x else D.div p.x p.z
  let yp := if p.z = 0 then p.y else D.div p.y p.z
  ⟨D.add (D.mul i.fx xp) i.cx, D.add (D.mul i.fy yp) i.cy⟩

/-- The difference between projection and observation, as in all functors for pixels. -/
noncomputable def pixelResidual (D : Double) (intr : Intr) (c : V3) (obs : V2) : List ℝ :=
  let xy := D.projectPoint intr c
  [D.sub xy.x obs.x, D.sub xy.y obs.y]

/-- `getTargetPointInCamera` (`extrinsic_hand_eye.cpp` 40-66). -/
noncomputable def targetPointInCamera (D : Double) (camMountToBase baseToTgtMount : Pose6) (pt : V3) (cam tgt : Pose6) : V3 :=
  D.transformPoint cam (D.transformPoint camMountToBase (D.transformPoint baseToTgtMount (D.transformPoint tgt pt)))

/-- `ObservationCost2D3D::operator()` (`extrinsic_hand_eye.cpp` 89-105). -/
noncomputable def handEyeCost2 (D : Double) (obs : V2) (camMountToBase baseToTgtMount : Pose6) (pt : V3) (intr : Intr)
    (cam tgt : Pose6) : List ℝ :=
  D.pixelResidual intr (D.targetPointInCamera camMountToBase baseToTgtMount pt cam tgt) obs

/-- `ObservationCost3D3D::operator()` (`extrinsic_hand_eye.cpp` 121-132). -/
noncomputable def handEyeCost3 (D : Double) (obs : V3) (camMountToBase baseToTgtMount : Pose6) (pt : V3) (cam tgt : Pose6) : List ℝ :=
  let c := D.targetPointInCamera camMountToBase baseToTgtMount pt cam tgt
  [D.sub c.x obs.x, D.sub c.y obs.y, D.sub c.z obs.z]

/-- `ReprojectionCost::operator()` of the multi camera PnP (`multi_camera_pnp.cpp` 23-49). -/
noncomputable def mcPnpCost (D : Double) (obs : V2) (intr : Intr) (cameraToBase : Pose6) (pt : V3) (tgt : Pose6) : List ℝ :=
  D.pixelResidual intr (D.transformPoint cameraToBase (D.transformPoint tgt pt)) obs

/-- `ReprojectionCost::operator()` (`extrinsic_multi_static_camera.cpp` 25-56). -/
noncomputable def msCost (D : Double) (obs : V2) (intr : Intr) (baseToWrist : Pose6) (pt : V3) (cam tgt : Pose6) : List ℝ :=
  D.pixelResidual intr (D.transformPoint cam (D.transformPoint baseToWrist (D.transformPoint tgt pt))) obs

/-- `ReprojectionFreeCameraCost::operator()` (`extrinsic_multi_static_camera_only.cpp` 24-52); the fixed camera of lines 63-97
has the same operations with the values of its pose given. -/
noncomputable def coCost (D : Double) (obs : V2) (intr : Intr) (pt : V3) (cam tgt : Pose6) : List ℝ :=
  D.pixelResidual intr (D.transformPoint cam (D.transformPoint tgt pt)) obs

/-- `ReprojectionCost::operator()` (`extrinsic_multi_static_camera_wrist_only.cpp` 29-62). -/
noncomputable def woCost (D : Double) (obs : V2) (intr : Intr) (baseToWrist cameraToBase : Pose6) (pt : V3) (corr tgt : Pose6) : List ℝ :=
  D.pixelResidual intr (D.transformPoint cameraToBase (D.transformPoint corr (D.transformPoint baseToWrist (D.transformPoint tgt pt)))) obs

/-- Arithmetic without rounding. -/
noncomputable def exact : Double := ⟨id, Real.sqrt, Real.sin, Real.cos⟩

end Double

end RCT
