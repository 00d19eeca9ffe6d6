import Verif.Model.HandEye

/-!
# PnP for one and several cameras

Models `rct_optimizations/src/rct_optimizations/pnp.cpp` with `rct_optimizations/include/rct_optimizations/pnp.h` 9-41, and
`rct_optimizations/src/rct_optimizations/multi_camera_pnp.cpp` with
`rct_optimizations/include/rct_optimizations/experimental/multi_camera_pnp.h` 20-65.
-/

namespace RCT

/-- Run a loop body for every element and concatenate what the iterations add, stopping at the first failure. -/
def Res.flatMapList {α β : Type} (f : α → Res (List β)) (l : List α) : Res (List β) :=
  (Res.mapList f l).bind fun r => .ok r.flatten

/-- `Translation(t) * AngleAxis(aa.norm(), aa.normalized())` (`pnp.cpp` 29-31, 67-69, 117-118, 175-176). -/
noncomputable def pnpTransform (aa t : V3) : Iso := ⟨AngleAxis.toMat ⟨aa.norm, aa.normalized⟩, t⟩

/-- `SolvePnPCostFunc::operator()` (`pnp.cpp` 18-42). -/
noncomputable def pnpCost2 (intr : Intr) (pt : V3) (obs : V2) (aa t : V3) : List ℝ :=
  let c := (pnpTransform aa t).apply pt
  let xy := projectPointE intr c
  [xy.x - obs.x, xy.y - obs.y]

/-- `SolvePnPCostFunc3D::operator()` (`pnp.cpp` 57-78). -/
noncomputable def pnpCost3 (pt obs aa t : V3) : List ℝ :=
  let c := (pnpTransform aa t).apply pt
  [c.x - obs.x, c.y - obs.y, c.z - obs.z]

/-- A residual functor with two blocks of three values. -/
def evalV2 (f : V3 → V3 → List ℝ) : List V3 → List ℝ
  | [a, b] => f a b
  | _ => []

/-- `PnPProblem` (`pnp.h` 9-19) and `PnPProblem3D` (21-30; `intr` unused). -/
structure PnPProblem (κ : Type) where
  intr : Intr
  correspondences : List κ
  guess : Iso
  label : String := "camera_to_target"

/-- `labels_translation` and `labels_rotation` (`pnp.h` 17-18, 28-29; constants). -/
def pnpLabelsTranslation : List String := ["x", "y", "z"]
def pnpLabelsRotation : List String := ["rx", "ry", "rz"]

/-- `PnPResult` (`pnp.h` 32-41). -/
structure PnPResult where
  converged : Bool
  initialCost : Option ℝ
  finalCost : Option ℝ
  cameraToTarget : Iso
  covariance : CovResult

/-- Addresses of the angle-axis block and the translation block. -/
def pnpRot : Nat := 0
def pnpTrans : Nat := 1

/-- Initial parameter values (`pnp.cpp` 91-93, 148-150). -/
noncomputable def pnpInit (guess : Iso) : Nat → V3 :=
  fun a => if a = pnpTrans then guess.t else V3.smul guess.R.toAngleAxis.angle guess.R.toAngleAxis.axis

/-- The problem (`pnp.cpp` 98-107). -/
noncomputable def pnpBuild2 (p : PnPProblem Corr2) : List (ResBlock V3) :=
  p.correspondences.map fun c => ⟨[pnpRot, pnpTrans], evalV2 (pnpCost2 p.intr c.inTarget c.inImage)⟩

/-- The problem of the 3D variant (`pnp.cpp` 155-165). -/
noncomputable def pnpBuild3 (p : PnPProblem Corr3) : List (ResBlock V3) :=
  p.correspondences.map fun c => ⟨[pnpRot, pnpTrans], evalV2 (pnpCost3 c.inTarget c.inImage)⟩

/-- Solve and report (`pnp.cpp` 109-142, 167-200). -/
noncomputable def pnpFinish {κ : Type} (s : Ceres V3) (p : PnPProblem κ) (pb : List (ResBlock V3)) : Res PnPResult :=
  let st := s.solve pb (pnpInit p.guess)
  let names : SMap Nat (List String) :=
    SMap.insert (SMap.insert [] pnpTrans (pnpLabelsTranslation.map fun l => p.label ++ "_" ++ l)) pnpRot
      (pnpLabelsRotation.map fun l => p.label ++ "_" ++ l)
  (computeCovariance (s.covSolver pb st 3) [pnpTrans, pnpRot] names []).bind fun cov =>
    .ok ⟨s.converged pb (pnpInit p.guess), costPerObs pb (pnpInit p.guess), costPerObs pb st,
      pnpTransform (st pnpRot) (st pnpTrans), cov⟩

/-- `optimize(const PnPProblem&)` (`pnp.cpp` 88-143). -/
noncomputable def pnp2 (s : Ceres V3) (p : PnPProblem Corr2) : Res PnPResult := pnpFinish s p (pnpBuild2 p)

/-- `optimize(const PnPProblem3D&)` (`pnp.cpp` 145-201). -/
noncomputable def pnp3 (s : Ceres V3) (p : PnPProblem Corr3) : Res PnPResult := pnpFinish s p (pnpBuild3 p)

/-- `ReprojectionCost::operator()` of the multi camera PnP (`multi_camera_pnp.cpp` 23-49). -/
noncomputable def mcPnpCost (obs : V2) (intr : Intr) (cameraToBase : Iso) (pt : V3) (tgt : Pose6) : List ℝ :=
  let w := transformPoint tgt.rot tgt.trans pt
  let c := poseTransformPoint (poseEigenToCal cameraToBase) w
  let xy := projectPoint intr c
  [xy.x - obs.x, xy.y - obs.y]

/-- A residual functor with one pose block. -/
def eval1 (f : Pose6 → List ℝ) : List Pose6 → List ℝ
  | [a] => f a
  | _ => []

/-- `MultiCameraPnPProblem` (`multi_camera_pnp.h` 20-38). -/
structure McPnpProblem where
  intr : List Intr
  baseToCamera : List Iso
  observations : List (List Corr2)
  guess : Iso

/-- `MultiCameraPnPResult` (`multi_camera_pnp.h` 40-65). -/
structure McPnpResult where
  converged : Bool
  initialCost : Option ℝ
  finalCost : Option ℝ
  baseToTarget : Iso

/-- The problem (`multi_camera_pnp.cpp` 67-85); the target pose is block 0. -/
noncomputable def mcPnpBuild (p : McPnpProblem) : Res (List (ResBlock Pose6)) :=
  Res.flatMapList (fun c =>
    (Res.idxList p.observations c).bind fun obs =>
      Res.mapList (fun k : Corr2 =>
        (Res.idxList p.baseToCamera c).bind fun b2c =>
          (Res.idxList p.intr c).bind fun intr =>
            .ok ⟨[0], eval1 (mcPnpCost k.inImage intr b2c.inv k.inTarget)⟩) obs)
    (List.range p.baseToCamera.length)

/-- `optimize(const MultiCameraPnPProblem&)` (`multi_camera_pnp.cpp` 60-98). -/
noncomputable def mcPnp (s : Ceres Pose6) (p : McPnpProblem) : Res McPnpResult :=
  (mcPnpBuild p).bind fun pb =>
    let init : Nat → Pose6 := fun _ => poseEigenToCal p.guess
    let st := s.solve pb init
    .ok ⟨s.converged pb init, costPerObs pb init, costPerObs pb st, poseCalToEigen (st 0)⟩

end RCT
