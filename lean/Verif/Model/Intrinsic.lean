import Verif.Model.PnP

/-!
# Intrinsic camera calibration

Models `rct_optimizations/src/rct_optimizations/camera_intrinsic.cpp` with the structures of
`rct_optimizations/include/rct_optimizations/experimental/camera_intrinsic.h`.
Parameter blocks are memory: offset to value.
-/

namespace RCT

/-- A parameter block as memory. -/
abbrev Mem := Nat → ℝ

/-- `Pose6d::values` (`types.h` 35-51). -/
def Mem.pose (m : Mem) : Pose6 := ⟨m 0, m 1, m 2, m 3, m 4, m 5⟩

def Pose6.mem (p : Pose6) : Mem := fun i =>
  match i with
  | 0 => p.rx | 1 => p.ry | 2 => p.rz | 3 => p.x | 4 => p.y | 5 => p.z | _ => 0

/-- `CalibCameraIntrinsics` (`camera_intrinsic.cpp` 12-31). -/
structure Intr9 where
  fx : ℝ
  fy : ℝ
  cx : ℝ
  cy : ℝ
  k1 : ℝ
  k2 : ℝ
  p1 : ℝ
  p2 : ℝ
  k3 : ℝ

def Mem.intr9 (m : Mem) : Intr9 := ⟨m 0, m 1, m 2, m 3, m 4, m 5, m 6, m 7, m 8⟩

/-- `projectPoints2` (`camera_intrinsic.cpp` 65-111). -/
noncomputable def projectPoints2 (i : Intr9) (p : V3) : V2 :=
  let xp := if p.z = 0 then p.x else p.x / p.z
  let yp := if p.z = 0 then p.y else p.y / p.z
  let xp2 := xp * xp
  let yp2 := yp * yp
  let r2 := xp2 + yp2
  let r4 := r2 * r2
  let r6 := r2 * r4
  let xpp := xp + i.k1 * r2 * xp + i.k2 * r4 * xp + i.k3 * r6 * xp + i.p2 * (r2 + 2 * xp2) + i.p1 * xp * yp * 2
  let ypp := yp + i.k1 * r2 * yp + i.k2 * r4 * yp + i.k3 * r6 * yp + i.p1 * (r2 + 2 * yp2) + i.p2 * xp * yp * 2
  ⟨i.fx * xpp + i.cx, i.fy * ypp + i.cy⟩

/-- `solvePnP` (`camera_intrinsic.cpp` 113-130). -/
noncomputable def intrSolvePnP (s : Ceres V3) (intr : Intr) (obs : List Corr2) (guess : Pose6) : Res Pose6 :=
  (pnp2 s ⟨intr, obs, poseCalToEigen guess, "camera_to_target"⟩).bind fun r =>
    if r.converged = true then .ok (poseEigenToCal r.cameraToTarget) else .throw .runtimeError

/-- `IntrinsicCostFunction::operator()` (`camera_intrinsic.cpp` 140-162). -/
noncomputable def intrinsicCost (inTarget : V3) (inImage : V2) (pose intr : Mem) : List ℝ :=
  let c := transformPoint pose.pose.rot pose.pose.trans inTarget
  let xy := projectPoints2 intr.intr9 c
  [xy.x - inImage.x, xy.y - inImage.y]

/-- A residual functor with two blocks of memory. -/
def evalMem2 (f : Mem → Mem → List ℝ) : List Mem → List ℝ
  | [a, b] => f a b
  | _ => []

/-- `guessInitialPose` (`camera_intrinsic.cpp` 171-175). -/
noncomputable def guessInitialPose : Pose6 := poseEigenToCal ⟨AngleAxis.toMat ⟨Real.pi, ⟨1, 0, 0⟩⟩, ⟨0, 0, 1 / 2⟩⟩

/-- `IntrinsicEstimationProblem` (`camera_intrinsic.h` 10-22; `use_extrinsic_guesses` and `extrinsic_guesses` are not
used by `optimize`; the label arrays are constants). -/
structure IntrinsicProblem where
  observations : List (List Corr2)
  guess : Intr
  labelExtr : String := "pose"

def labelsIntrinsic : List String := ["fx", "fy", "cx", "cy", "k1", "k2", "p1", "p2", "k3"]
def labelsIntrinsicPose : List String := ["x", "y", "z", "rx", "ry", "rz"]

/-- `IntrinsicEstimationResult` (`camera_intrinsic.h` 24-36; `target_transforms` is never filled). -/
structure IntrinsicResult where
  converged : Bool
  initialCost : Option ℝ
  finalCost : Option ℝ
  intrinsics : Intr
  distortions : List ℝ
  targetTransforms : List Iso
  covariance : CovResult

/-- The initial pose of each image, `none` if pose estimation failed with an exception
(`camera_intrinsic.cpp` 192-208). -/
noncomputable def intrPoses (s : Ceres V3) (p : IntrinsicProblem) : Res (List (Option Pose6)) :=
  Res.mapList (fun obs =>
    match intrSolvePnP s p.guess obs guessInitialPose with
    | .ok q => .ok (some q)
    | .throw _ => .ok none
    | .abort => .abort
    | .ub => .ub) p.observations

/-- Addresses: the intrinsics are block 0, the pose of image `i` is block `i + 1`. -/
def intrBlk : Nat := 0
def poseBlk (i : Nat) : Nat := i + 1

/-- `valid_idx` (`camera_intrinsic.cpp` 193-201). -/
def validIdx (poses : List (Option Pose6)) : List Nat :=
  (List.range poses.length).filter fun i => (poses.getD i none).isSome

/-- The problem (`camera_intrinsic.cpp` 213-229). -/
noncomputable def intrBuild (p : IntrinsicProblem) (poses : List (Option Pose6)) : List (ResBlock Mem) :=
  (validIdx poses).flatMap fun i =>
    (p.observations.getD i []).map fun k => ⟨[poseBlk i, intrBlk], evalMem2 (intrinsicCost k.inTarget k.inImage)⟩

/-- Initial values (`camera_intrinsic.cpp` 181-200). -/
def intrInit (p : IntrinsicProblem) (poses : List (Option Pose6)) : Nat → Mem :=
  fun a => if a = intrBlk then fun o => match o with
      | 0 => p.guess.fx | 1 => p.guess.fy | 2 => p.guess.cx | 3 => p.guess.cy | _ => 0
    else ((poses.getD (a - 1) none).getD ⟨0, 0, 0, 0, 0, 0⟩).mem

/-- Labels (`camera_intrinsic.cpp` 231-248). -/
def intrNames (p : IntrinsicProblem) : SMap Nat (List String) :=
  (List.range p.observations.length).foldl (fun m i => SMap.insert m (poseBlk i)
    (labelsIntrinsicPose.map fun l => p.labelExtr ++ toString i ++ "_" ++ l)) (SMap.insert [] intrBlk labelsIntrinsic)

/-- Block sizes (`camera_intrinsic.cpp` 225). -/
def intrSize (a : Nat) : Nat := if a = intrBlk then 9 else 6

/-- The covariance services of a problem whose blocks have individual sizes. -/
def Ceres.covSolverF {β : Type} (c : Ceres β) (pb : List (ResBlock β)) (st : Nat → β) (size : Nat → Nat) : CovSolver where
  blockSize := fun a => if a ∈ usedBlocks pb then some (size a) else none
  compute := c.covCompute pb st
  matrix := c.covMatrix pb st

/-- `optimize` (`camera_intrinsic.cpp` 177-277). -/
noncomputable def intrinsic (s3 : Ceres V3) (s : Ceres Mem) (p : IntrinsicProblem) : Res IntrinsicResult :=
  (intrPoses s3 p).bind fun poses =>
    let pb := intrBuild p poses
    let st := s.solve pb (intrInit p poses)
    let m := st intrBlk
    (computeCovariance (s.covSolverF pb st intrSize) (intrBlk :: (List.range p.observations.length).map poseBlk)
      (intrNames p) []).bind fun cov =>
      .ok ⟨s.converged pb (intrInit p poses), costPerObs pb (intrInit p poses), costPerObs pb st,
        ⟨m 0, m 1, m 2, m 3⟩, [m 4, m 5, m 6, m 7, m 8], [], cov⟩

end RCT
