import Verif.Model.PnP

/-!
# Calibration of several static cameras

Models `rct_optimizations/src/rct_optimizations/extrinsic_multi_static_camera.cpp`,
`extrinsic_multi_static_camera_only.cpp` and `extrinsic_multi_static_camera_wrist_only.cpp` with the structures of the
headers of the same names in `rct_optimizations/include/rct_optimizations`.
The `assert`s are disabled in release builds and not modelled; out-of-range `operator[]` is undefined behaviour.
-/

namespace RCT

/-! ## Cameras and target mount -/

/-- `ReprojectionCost::operator()` (`extrinsic_multi_static_camera.cpp` 25-56). -/
noncomputable def msCost (obs : V2) (intr : Intr) (baseToWrist : Iso) (pt : V3) (cam tgt : Pose6) : List ℝ :=
  let l := transformPoint tgt.rot tgt.trans pt
  let w := poseTransformPoint (poseEigenToCal baseToWrist) l
  let c := transformPoint cam.rot cam.trans w
  let xy := projectPoint intr c
  [xy.x - obs.x, xy.y - obs.y]

/-- `ExtrinsicMultiStaticCameraMovingTargetProblem` (`extrinsic_multi_static_camera.h` 25-57). -/
structure MsProblem where
  intr : List Intr
  wristPoses : List (List Iso)
  observations : List (List (List Corr2))
  wristToTargetGuess : Iso
  baseToCameraGuess : List Iso
  labelTarget : String := "wrist_to_target"
  labelCamera : String := "base_to_camera"

/-- `ExtrinsicMultiStaticCameraMovingTargetResult` (`extrinsic_multi_static_camera.h` 59-93). -/
structure MsResult where
  converged : Bool
  initialCost : Option ℝ
  finalCost : Option ℝ
  wristToTarget : Iso
  baseToCamera : List Iso
  covariance : CovResult

/-- Addresses: the target pose is block 0, the pose of camera `c` is block `c + 1`. -/
def msTgt : Nat := 0
def msCam (c : Nat) : Nat := c + 1

/-- The problem (`extrinsic_multi_static_camera.cpp` 77-102). -/
noncomputable def msBuild (p : MsProblem) : Res (List (ResBlock Pose6)) :=
  Res.flatMapList (fun c =>
    (Res.idxList p.wristPoses c).bind fun wp =>
      Res.flatMapList (fun i =>
        (Res.idxList p.observations c).bind fun oc =>
          (Res.idxList oc i).bind fun oci =>
            Res.mapList (fun k : Corr2 =>
              (Res.idxList wp i).bind fun w =>
                (Res.idxList p.intr c).bind fun intr =>
                  .ok ⟨[msCam c, msTgt], eval2 (msCost k.inImage intr w k.inTarget)⟩) oci)
        (List.range wp.length))
    (List.range p.baseToCameraGuess.length)

/-- Initial values (`extrinsic_multi_static_camera.cpp` 70, 80). -/
noncomputable def msInit (p : MsProblem) : Nat → Pose6 :=
  fun a => if a = msTgt then poseEigenToCal p.wristToTargetGuess
    else match p.baseToCameraGuess[a - 1]? with
      | some g => poseEigenToCal g.inv
      | none => ⟨0, 0, 0, 0, 0, 0⟩

/-- The label lists (`extrinsic_multi_static_camera.cpp` 128-148). -/
def msNames (p : MsProblem) : SMap Nat (List String) :=
  SMap.insert ((List.range p.baseToCameraGuess.length).foldl
    (fun m c => SMap.insert m (msCam c) (poseLabels labelsIsometry3d (p.labelCamera ++ toString c))) [])
    msTgt (poseLabels labelsIsometry3d p.labelTarget)

/-- `optimize` (`extrinsic_multi_static_camera.cpp` 67-153). -/
noncomputable def multiStatic (s : Ceres Pose6) (p : MsProblem) : Res MsResult :=
  (msBuild p).bind fun pb =>
    let st := s.solve pb (msInit p)
    let blocks := (List.range p.baseToCameraGuess.length).map msCam ++ [msTgt]
    (computeCovariance (s.covSolver pb st 6) blocks (msNames p) []).bind fun cov =>
      .ok ⟨s.converged pb (msInit p), costPerObs pb (msInit p), costPerObs pb st, poseCalToEigen (st msTgt),
        (List.range p.baseToCameraGuess.length).map (fun c => (poseCalToEigen (st (msCam c))).inv), cov⟩

/-! ## Cameras only -/

/-- `ReprojectionFreeCameraCost::operator()` (`extrinsic_multi_static_camera_only.cpp` 23-52). -/
noncomputable def coFreeCost (obs : V2) (intr : Intr) (pt : V3) (cam tgt : Pose6) : List ℝ :=
  let w := transformPoint tgt.rot tgt.trans pt
  let c := transformPoint cam.rot cam.trans w
  let xy := projectPoint intr c
  [xy.x - obs.x, xy.y - obs.y]

/-- `ReprojectionFixedCameraCost` (`extrinsic_multi_static_camera_only.cpp` 63-97). -/
noncomputable def coFixedCost (obs : V2) (intr : Intr) (baseToCamera : Iso) (pt : V3) (tgt : Pose6) : List ℝ :=
  let w := transformPoint tgt.rot tgt.trans pt
  let c := poseTransformPoint (poseEigenToCal baseToCamera.inv) w
  let xy := projectPoint intr c
  [xy.x - obs.x, xy.y - obs.y]

/-- `ExtrinsicMultiStaticCameraOnlyProblem` (`extrinsic_multi_static_camera_only.h` 25-59). -/
structure CoProblem where
  fixFirst : Bool
  intr : List Intr
  baseToTargetGuess : List Iso
  observations : List (List (List Corr2))
  baseToCameraGuess : List Iso

/-- `ExtrinsicMultiStaticCameraOnlyResult` (`extrinsic_multi_static_camera_only.h` 61-91; `covariance` is never set). -/
structure CoResult where
  converged : Bool
  initialCost : Option ℝ
  finalCost : Option ℝ
  baseToTarget : List Iso
  baseToCamera : List Iso

/-- Addresses: target pose of image `i`, pose of camera `c`. -/
def coTgt (i : Nat) : Nat := 2 * i
def coCam (c : Nat) : Nat := 2 * c + 1

/-- The problem (`extrinsic_multi_static_camera_only.cpp` 118-156). -/
noncomputable def coBuild (p : CoProblem) : Res (List (ResBlock Pose6)) :=
  Res.flatMapList (fun i =>
    Res.flatMapList (fun c =>
      (Res.idxList p.observations c).bind fun oc =>
        (Res.idxList oc i).bind fun oci =>
          Res.mapList (fun k : Corr2 =>
            (Res.idxList p.intr c).bind fun intr =>
              if p.fixFirst = true ∧ c = 0 then
                (Res.idxList p.baseToCameraGuess c).bind fun g =>
                  .ok ⟨[coTgt i], eval1 (coFixedCost k.inImage intr g k.inTarget)⟩
              else .ok ⟨[coCam c, coTgt i], eval2 (coFreeCost k.inImage intr k.inTarget)⟩) oci)
      (List.range p.baseToCameraGuess.length))
    (List.range p.baseToTargetGuess.length)

/-- Initial values: the target block of image `i` is set at line 120; the camera blocks are set at line 124 inside the loop
over the images, so that they keep the default value (all zero) when there are no images. -/
noncomputable def coInit (p : CoProblem) : Nat → Pose6 :=
  fun a =>
    if a % 2 = 0 then
      match p.baseToTargetGuess[a / 2]? with
      | some g => poseEigenToCal g
      | none => ⟨0, 0, 0, 0, 0, 0⟩
    else if p.baseToTargetGuess.length = 0 then ⟨0, 0, 0, 0, 0, 0⟩
    else
      match p.baseToCameraGuess[a / 2]? with
      | some g => poseEigenToCal g.inv
      | none => ⟨0, 0, 0, 0, 0, 0⟩

/-- `optimize` (`extrinsic_multi_static_camera_only.cpp` 108-178). -/
noncomputable def cameraOnly (s : Ceres Pose6) (p : CoProblem) : Res CoResult :=
  (coBuild p).bind fun pb =>
    let st := s.solve pb (coInit p)
    .ok ⟨s.converged pb (coInit p), costPerObs pb (coInit p), costPerObs pb st,
      (List.range p.baseToTargetGuess.length).map (fun i => poseCalToEigen (st (coTgt i))),
      (List.range p.baseToCameraGuess.length).map (fun c => (poseCalToEigen (st (coCam c))).inv)⟩

/-! ## Common correction of all cameras -/

/-- `ReprojectionCost` (`extrinsic_multi_static_camera_wrist_only.cpp` 16-62). -/
noncomputable def woCost (obs : V2) (intr : Intr) (baseToWrist baseToCamera : Iso) (pt : V3) (corr tgt : Pose6) : List ℝ :=
  let l := transformPoint tgt.rot tgt.trans pt
  let w := poseTransformPoint (poseEigenToCal baseToWrist) l
  let co := transformPoint corr.rot corr.trans w
  let c := poseTransformPoint (poseEigenToCal baseToCamera.inv) co
  let xy := projectPoint intr c
  [xy.x - obs.x, xy.y - obs.y]

/-- `ExtrinsicMultiStaticCameraMovingTargetWristOnlyProblem` (`extrinsic_multi_static_camera_wrist_only.h` 25-60). -/
structure WoProblem where
  intr : List Intr
  wristPoses : List Iso
  observations : List (List (List Corr2))
  wristToTargetGuess : Iso
  baseToCameraGuess : List Iso

/-- `ExtrinsicMultiStaticCameraMovingTargetWristOnlyResult` (`extrinsic_multi_static_camera_wrist_only.h` 62-96). -/
structure WoResult where
  converged : Bool
  initialCost : Option ℝ
  finalCost : Option ℝ
  wristToTarget : Iso
  baseToCamera : List Iso

/-- Addresses of the correction block and of the target block. -/
def woCorr : Nat := 0
def woTgt : Nat := 1

/-- The problem (`extrinsic_multi_static_camera_wrist_only.cpp` 83-108). -/
noncomputable def woBuild (p : WoProblem) : Res (List (ResBlock Pose6)) :=
  Res.flatMapList (fun c =>
    Res.flatMapList (fun i =>
      (Res.idxList p.observations c).bind fun oc =>
        (Res.idxList oc i).bind fun oci =>
          Res.mapList (fun k : Corr2 =>
            (Res.idxList p.wristPoses i).bind fun w =>
              (Res.idxList p.baseToCameraGuess c).bind fun g =>
                (Res.idxList p.intr c).bind fun intr =>
                  .ok ⟨[woCorr, woTgt], eval2 (woCost k.inImage intr w g k.inTarget)⟩) oci)
      (List.range p.wristPoses.length))
    (List.range p.baseToCameraGuess.length)

/-- Initial values (`extrinsic_multi_static_camera_wrist_only.cpp` 77-79). -/
noncomputable def woInit (p : WoProblem) : Nat → Pose6 :=
  fun a => if a = woTgt then poseEigenToCal p.wristToTargetGuess else poseEigenToCal 1

/-- `optimize` (`extrinsic_multi_static_camera_wrist_only.cpp` 74-127). -/
noncomputable def wristOnly (s : Ceres Pose6) (p : WoProblem) : Res WoResult :=
  (woBuild p).bind fun pb =>
    let st := s.solve pb (woInit p)
    let correction := (poseCalToEigen (st woCorr)).inv
    .ok ⟨s.converged pb (woInit p), costPerObs pb (woInit p), costPerObs pb st, poseCalToEigen (st woTgt),
      p.baseToCameraGuess.map fun g => correction * g⟩

end RCT
