import Verif.Model.Pose
import Verif.Model.Projection
import Verif.Model.Solver

/-!
# Hand-eye calibration

Models `rct_optimizations/src/rct_optimizations/extrinsic_hand_eye.cpp`,
`rct_optimizations/include/rct_optimizations/extrinsic_hand_eye.h` 24-76 and the observation types of
`rct_optimizations/include/rct_optimizations/types.h` 57-139.
-/

namespace RCT

/-- `types.h` 57-86, `Correspondence2D3D`. -/
structure Corr2 where
  inImage : V2
  inTarget : V3

/-- `types.h` 57-88, `Correspondence3D3D`. -/
structure Corr3 where
  inImage : V3
  inTarget : V3

/-- `types.h` 107-134, `Observation2D3D` / `Observation3D3D`. -/
structure Obs (κ : Type) where
  corrs : List κ
  toCameraMount : Iso
  toTargetMount : Iso

/-- `ObservationCost::getTargetPointInCamera` (`extrinsic_hand_eye.cpp` 41-65) with the members set in the constructor
(19-34): `camMountToBase`, `baseToTgtMount`. -/
noncomputable def targetPointInCamera (camMountToBase baseToTgtMount : Iso) (pt : V3) (cam tgt : Pose6) : V3 :=
  let tm := transformPoint tgt.rot tgt.trans pt
  let w := poseTransformPoint (poseEigenToCal baseToTgtMount) tm
  let cm := poseTransformPoint (poseEigenToCal camMountToBase) w
  transformPoint cam.rot cam.trans cm

/-- `ObservationCost2D3D::operator()` (`extrinsic_hand_eye.cpp` 89-105). -/
noncomputable def handEyeCost2 (obs : V2) (camMountToBase baseToTgtMount : Iso) (pt : V3) (intr : Intr)
    (cam tgt : Pose6) : List ℝ :=
  let c := targetPointInCamera camMountToBase baseToTgtMount pt cam tgt
  let xy := projectPoint intr c
  [xy.x - obs.x, xy.y - obs.y]

/-- `ObservationCost3D3D::operator()` (`extrinsic_hand_eye.cpp` 121-132). -/
noncomputable def handEyeCost3 (obs : V3) (camMountToBase baseToTgtMount : Iso) (pt : V3) (cam tgt : Pose6) : List ℝ :=
  let c := targetPointInCamera camMountToBase baseToTgtMount pt cam tgt
  [c.x - obs.x, c.y - obs.y, c.z - obs.z]

/-- `isPointVisible` (`extrinsic_hand_eye.cpp` 135-147). -/
noncomputable def isPointVisible (camMountToBase baseToTgtMount : Iso) (pt : V3) (cam tgt : Pose6) : Bool :=
  decide ((targetPointInCamera camMountToBase baseToTgtMount pt cam tgt).z > 0)

/-- A residual functor with two pose blocks. -/
def eval2 (f : Pose6 → Pose6 → List ℝ) : List Pose6 → List ℝ
  | [a, b] => f a b
  | _ => []

/-- Default of `labels_isometry3d` (`extrinsic_hand_eye.h` 33 and 51). -/
def labelsIsometry3d : List String := ["x", "y", "z", "rx", "ry", "rz"]

/-- `ExtrinsicHandEyeProblem2D3D` (`extrinsic_hand_eye.h` 26-43) and `ExtrinsicHandEyeProblem3D3D` (45-61; `intr` unused).
`labels` is `labels_isometry3d`, an array of six strings. -/
structure HandEyeProblem (κ : Type) where
  observations : List (Obs κ)
  intr : Intr
  targetGuess : Iso
  cameraGuess : Iso
  labelCamera : String
  labelTarget : String
  labels : List String := labelsIsometry3d

/-- `ExtrinsicHandEyeResult` (`extrinsic_hand_eye.h` 63-73). -/
structure HandEyeResult where
  converged : Bool
  initialCost : Option ℝ
  finalCost : Option ℝ
  targetMountToTarget : Iso
  cameraMountToCamera : Iso
  covariance : CovResult

/-- The label list made for one pose block (`extrinsic_hand_eye.cpp` 203-217). -/
def poseLabels (labels : List String) (prefixLabel : String) : List String := labels.map fun l => prefixLabel ++ "_" ++ l

/-- Address of the camera block and of the target block. -/
def heCam : Nat := 0
def heTgt : Nat := 1

/-- The initial parameter state (`extrinsic_hand_eye.cpp` 155-156, 228-229). -/
noncomputable def heInit {κ : Type} (p : HandEyeProblem κ) : Nat → Pose6 :=
  fun a => if a = heTgt then poseEigenToCal p.targetGuess else poseEigenToCal p.cameraGuess.inv

/-- Loop body for one correspondence (`extrinsic_hand_eye.cpp` 166-191). -/
noncomputable def heStep2 (p : HandEyeProblem Corr2) (o : Obs Corr2) (acc : List (ResBlock Pose6)) (c : Corr2) :
    Res (List (ResBlock Pose6)) :=
  if isPointVisible o.toCameraMount.inv o.toTargetMount c.inTarget (heInit p heCam) (heInit p heTgt) = false then
    .throw .runtimeError
  else
    .ok (acc ++ [⟨[heCam, heTgt],
      eval2 (handEyeCost2 c.inImage o.toCameraMount.inv o.toTargetMount c.inTarget p.intr)⟩])

/-- The problem construction of the 2D calibration (`extrinsic_hand_eye.cpp` 158-191). -/
noncomputable def heBuild2 (p : HandEyeProblem Corr2) : Res (List (ResBlock Pose6)) :=
  Res.foldList (fun acc o => Res.foldList (heStep2 p o) acc o.corrs) [] p.observations

/-- The problem construction of the 3D calibration (`extrinsic_hand_eye.cpp` 231-253). -/
noncomputable def heBuild3 (p : HandEyeProblem Corr3) : List (ResBlock Pose6) :=
  p.observations.foldl (fun acc o => o.corrs.foldl (fun acc c =>
    acc ++ [⟨[heCam, heTgt], eval2 (handEyeCost3 c.inImage o.toCameraMount.inv o.toTargetMount c.inTarget)⟩]) acc) []

/-- Solve, read back and report (`extrinsic_hand_eye.cpp` 193-223 and 255-285). -/
noncomputable def heFinish {κ : Type} (s : Ceres Pose6) (p : HandEyeProblem κ) (pb : List (ResBlock Pose6)) :
    Res HandEyeResult :=
  let st := s.solve pb (heInit p)
  let names : SMap Nat (List String) :=
    SMap.insert (SMap.insert [] heCam (poseLabels p.labels p.labelCamera)) heTgt (poseLabels p.labels p.labelTarget)
  (computeCovariance (s.covSolver pb st 6) (s.order pb) names []).bind fun cov =>
    .ok ⟨s.converged pb (heInit p), costPerObs pb (heInit p), costPerObs pb st, poseCalToEigen (st heTgt),
      (poseCalToEigen (st heCam)).inv, cov⟩

/-- `optimize(const ExtrinsicHandEyeProblem2D3D&)` (`extrinsic_hand_eye.cpp` 153-224). -/
noncomputable def handEye2 (s : Ceres Pose6) (p : HandEyeProblem Corr2) : Res HandEyeResult :=
  (heBuild2 p).bind fun pb => heFinish s p pb

/-- `optimize(const ExtrinsicHandEyeProblem3D3D&)` (`extrinsic_hand_eye.cpp` 226-286). -/
noncomputable def handEye3 (s : Ceres Pose6) (p : HandEyeProblem Corr3) : Res HandEyeResult :=
  heFinish s p (heBuild3 p)

end RCT
