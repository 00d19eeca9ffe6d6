import Verif.Model.Kinematic
import Verif.Model.Accuracy
import Verif.Model.Validation
import Verif.Model.Serialization
import Verif.Model.DataSet
import Verif.Model.Tools

/-!
# Analysis and reports of the examples

Models `rct_examples/src/examples/kinematic_calibration.cpp` (13-72, 127-194), `rct_examples/src/tools/hand_eye_calibration_analysis.h`
and the numbers printed by `rct_common/include/rct_common/print_utils.h`. Windows and texts are not modelled. A printed
number that is NaN is `none`.
-/

namespace RCT

/-! ### kinematic_calibration.cpp: measurements -/

/-- `node[key]` of a node that is not constant: a missing key gives an undefined node, which behaves like a null node in
what follows; a scalar has no keys. -/
def Yaml.keyN (n : Yaml) (k : String) : Res Yaml :=
  match n with
  | .map l => .ok ((l.lookup k).getD .null)
  | .scalar _ => .throw .yaml
  | .null => .ok .null
  | .seq _ => .ok .null

/-- The joint values of an entry (`kinematic_calibration.cpp` 26-44). -/
def loadJoints (entry : Yaml) (k : String) : Res (List ℝ) :=
  (entry.keyN k).bind fun joints =>
  Res.mapList (fun i => (joints.idx i).bind (Yaml.asNode Yaml.asReal)) (List.range joints.size)

/-- The pose of an entry (`kinematic_calibration.cpp` 46-60). `rotate` multiplies with the matrix of the quaternion, which
is not normalised. -/
def loadMeasuredPose (entry : Yaml) : Res Iso :=
  (entry.keyN "pose").bind fun pose =>
  let num := fun k => (pose.keyN k).bind Yaml.asReal
  (num "x").bind fun x => (num "y").bind fun y => (num "z").bind fun z =>
  (num "qw").bind fun qw => (num "qx").bind fun qx => (num "qy").bind fun qy => (num "qz").bind fun qz =>
  .ok ((1 : Iso) * ⟨1, ⟨x, y, z⟩⟩ * ⟨Quat.toMat ⟨qw, qx, qy, qz⟩, 0⟩)

/-- The body of the loop (`kinematic_calibration.cpp` 24-63). -/
def loadMeasurement (entry : Yaml) : Res KinMeas :=
  (loadJoints entry "target_joints").bind fun tj =>
  (loadJoints entry "camera_joints").bind fun cj =>
  (loadMeasuredPose entry).bind fun T => .ok ⟨T, cj, tj⟩

/-- `it->second` for the entries of a document: the values of a map; the elements of a sequence have no second part
(an invalid node, `none`); a scalar or an empty document has no entries. -/
def docEntries : Yaml → List (Option Yaml)
  | .map l => l.map fun e => some e.2
  | .seq l => l.map fun _ => none
  | .scalar _ => []
  | .null => []

/-- The body of the loop for `it->second`. Indexing an invalid node throws `YAML::InvalidNode`. -/
def loadDocEntry : Option Yaml → Res KinMeas
  | some entry => loadMeasurement entry
  | none => .throw .yaml

/-- `loadMeasurements` (`kinematic_calibration.cpp` 13-72). -/
def loadMeasurements {Img : Type} (fs : FS Img) (path : String) : Res (List KinMeas) :=
  match (loadYaml fs path).bind fun n => Res.mapList loadDocEntry (docEntries n) with
  | .throw .yaml => .throw .badFile
  | r => r

/-! ### kinematic_calibration.cpp: comparison -/

/-- `Stats` (`kinematic_calibration.cpp` 127-132). -/
structure KinStats where
  posMean : Option ℝ
  posStdev : Option ℝ
  rotMean : Option ℝ
  rotStdev : Option ℝ

/-- The loop body of `compareToMeasurements` (`kinematic_calibration.cpp` 168-184): both differences. -/
noncomputable def compareOne (cc tc : DHChain) (r : KinResult) (m : KinMeas) : Res (ℝ × ℝ) :=
  (cc.getFK0 m.cameraJoints).bind fun cameraFk =>
  let cameraBaseToCamera := cameraFk * r.cmToC
  (tc.getFK0 m.targetJoints).bind fun targetFk =>
  let cameraBaseToTarget := r.cbToTb * targetFk * r.tmToT
  let cameraToTarget := cameraBaseToCamera.inv * cameraBaseToTarget
  let diff := cameraToTarget.inv * m.cameraToTarget
  .ok (diff.t.norm, cameraToTarget.R.toQuat.angularDistance m.cameraToTarget.R.toQuat)

/-- `compareToMeasurements` (`kinematic_calibration.cpp` 153-194); `rd` are the random seeds of the joints of the new
chains. -/
noncomputable def compareToMeasurements (cc tc : DHChain) (r : KinResult) (ms : List KinMeas) (rd rd' : Nat → Nat) :
    Res KinStats :=
  (cc.withOffsets r.cameraOffsets rd).bind fun cc' =>
  (tc.withOffsets r.targetOffsets rd').bind fun tc' =>
  (Res.mapList (compareOne cc' tc' r) ms).bind fun ds =>
  let pos := ds.map Prod.fst
  let ori := ds.map Prod.snd
  .ok ⟨accMean pos, (accVar pos).map Real.sqrt, accMean ori, (accVar ori).map Real.sqrt⟩

/-- One line of `Stats::percentDiff` (`kinematic_calibration.cpp` 142-150); division by zero gives NaN or infinity. -/
noncomputable def percentDiff (self other : ℝ) : Option ℝ := if self = 0 then none else some (100 * (self - other) / self)

/-! ### hand_eye_calibration_analysis.h -/

/-- Printed statistics of `analyzeResults`; the orientation is in degrees. -/
structure HandEyeStats where
  posMean : Option ℝ
  posStdev : Option ℝ
  oriMean : Option ℝ
  oriStdev : Option ℝ

noncomputable def toDegrees (x : ℝ) : ℝ := x * 180 / Real.pi

/-- The loop body of `analyzeResults` with `reproject` (`hand_eye_calibration_analysis.h` 45-54 and 79-96): both differences
for one image. The image itself is only drawn on. -/
noncomputable def analyzeOne {Img : Type} (s : Ceres V3) (intr : Intr) (observations : List (Obs Corr2)) (images : List Img)
    (cam tgt : Iso) (i : Nat) : Res (ℝ × ℝ) :=
  (Res.atList observations i).bind fun obs =>
  let cameraToTarget := cam.inv * obs.toCameraMount.inv * obs.toTargetMount * tgt
  (Res.idxList images i).bind fun _ =>
  (pnp2 s { intr := intr, correspondences := obs.corrs, guess := cameraToTarget }).bind fun r =>
  let diff := cameraToTarget.inv * r.cameraToTarget
  .ok (diff.t.norm, cameraToTarget.R.toQuat.angularDistance r.cameraToTarget.R.toQuat)

/-- `analyzeResults` (`hand_eye_calibration_analysis.h` 65-105). -/
noncomputable def analyzeResults {Img : Type} (s : Ceres V3) (intr : Intr) (observations : List (Obs Corr2)) (images : List Img)
    (cam tgt : Iso) : Res HandEyeStats :=
  (Res.mapList (analyzeOne s intr observations images cam tgt) (List.range images.length)).bind fun ds =>
  let pos := ds.map Prod.fst
  let ori := ds.map Prod.snd
  .ok ⟨accMean pos, (accVar pos).map Real.sqrt, (accMean ori).map toDegrees,
    ((accVar ori).map Real.sqrt).map toDegrees⟩

/-- Printed statistics of `analyze3DProjectionError`. -/
structure Proj3Stats where
  mean : Option ℝ
  stdev : Option ℝ
  min : ℝ
  max : ℝ

/-- `analyze3DProjectionError` (`hand_eye_calibration_analysis.h` 107-117). The divisor `error.size() - 1` is a signed
number; division of zero by zero gives NaN. Without errors `minCoeff` reads outside the array. -/
noncomputable def analyze3D (observations : List (Obs Corr2)) (intr : Intr) (cam tgt : Iso) : Res Proj3Stats :=
  (projErr3Set observations intr cam tgt).bind fun error =>
  match error with
  | [] => .ub
  | e :: l =>
    let mean := (e :: l).sum / (e :: l).length
    .ok ⟨some mean,
      if l.length = 0 then none else some (Real.sqrt (((e :: l).map fun x => (x - mean) ^ 2).sum / l.length)),
      l.foldl min e, l.foldl max e⟩

/-! ### print_utils.h -/

/-- The numbers printed by `printTransform` (`print_utils.h` 73-86): position, roll, pitch and yaw (in this order, see
`getStringRPY`, 10-16) and the quaternion. `rotation()` of a rigid transform is its linear part. -/
structure PrintedTransform where
  xyz : V3
  roll : ℝ
  pitch : ℝ
  yaw : ℝ
  quat : Quat

noncomputable def printTransform (T : Iso) : PrintedTransform :=
  let rpy := eulerAngles210 T.R
  ⟨T.t, rpy.z, rpy.y, rpy.x, T.R.toQuat⟩

/-- The numbers printed by `printTransformDiff` (`print_utils.h` 87-109). -/
structure PrintedDiff where
  deltaS : ℝ
  trans : V3
  deltaA : ℝ
  relDeltaS : ℝ
  relTrans : V3
  roll : ℝ
  pitch : ℝ
  yaw : ℝ

noncomputable def printTransformDiff (T1 T2 : Iso) : PrintedDiff :=
  let delta := T1.inv * T2
  let rpy := eulerAngles210 delta.R
  let trans := T2.t - T1.t
  ⟨trans.norm, trans, 180 * delta.R.toAngleAxis.angle / Real.pi, delta.t.norm, delta.t, rpy.z, rpy.y, rpy.x⟩

/-- The cost printed by `printOptResults` (`print_utils.h` 111-116) with the unit "pixels per dot". -/
noncomputable def printedCost (costPerObs : Option ℝ) : Option ℝ := costPerObs.map Real.sqrt

end RCT
