import Verif.Model.CircleFit
import Verif.Model.DHChain
import Verif.Model.Masks

/-!
# Kinematic calibration of two DH chains

Models `rct_optimizations/include/rct_optimizations/dh_chain_kinematic_calibration.h` and
`rct_optimizations/src/rct_optimizations/dh_chain_kinematic_calibration.cpp`.

The eight parameter blocks are eight distinct variables; block `i` has address `i`. Matrices are column-major memory.
Simplification: an exception thrown by a cost functor during `ceres::Solve` is reported as that exception (with worker
threads the process may also end); the first evaluation is at the initial values.
-/

namespace RCT

/-- `KinematicObservation` with 2D-3D correspondences (`types.h` 141-158). -/
structure KinObs where
  correspondences : List Corr2
  cameraJoints : List ℝ
  targetJoints : List ℝ

/-- `KinematicMeasurement` (`types.h` 175-191). -/
structure KinMeas where
  cameraToTarget : Iso
  cameraJoints : List ℝ
  targetJoints : List ℝ

/-- The common part of `KinematicCalibrationProblem2D3D` and `KinematicCalibrationProblemPose6D`
(`dh_chain_kinematic_calibration.h` 37-118). -/
structure KinProblem where
  cameraChain : DHChain
  targetChain : DHChain
  cmToC : Iso := 1
  tmToT : Iso := 1
  cbToTb : Iso := 1
  masks : Fin 8 → List Int := fun _ => []
  cameraStdev : ℝ := 1 / 1000
  targetStdev : ℝ := 1 / 1000
  labelCamera : String := "camera_mount_to_camera"
  labelTarget : String := "target_mount_to_target"
  labelBase : String := "camera_base_to_target"

/-- `KinematicCalibrationResult` (`dh_chain_kinematic_calibration.h` 120-133); `printed` is what
`printOptimizationLabels` wrote: block name and listed labels (none stands for the line `- Constant`). -/
structure KinResult where
  converged : Bool
  initialCost : Option ℝ
  finalCost : Option ℝ
  cmToC : Iso
  tmToT : Iso
  cbToTb : Iso
  cameraOffsets : List V4
  targetOffsets : List V4
  covariance : CovResult
  printed : List (String × List String)

def Mem.v3 (m : Mem) : V3 := ⟨m 0, m 1, m 2⟩

def V3.mem (v : V3) : Mem := fun o => match o with | 0 => v.x | 1 => v.y | 2 => v.z | _ => 0

/-- `Eigen::Map<Matrix<T, Dynamic, 4>>(data, rows, 4)`: the rows of a column-major table. -/
def Mem.dhRows (m : Mem) (rows : Nat) : List V4 :=
  (List.range rows).map fun r => ⟨m r, m (rows + r), m (2 * rows + r), m (3 * rows + r)⟩

/-- `createTransform` (`dh_chain_kinematic_calibration.h` 150-164 and `.cpp` 12-23). -/
noncomputable def kinTransform (t aa : V3) : Iso :=
  let result := (1 : Iso).translateBy t
  if aa.norm > dblEps then result.rotateBy ⟨aa.norm, aa.normalized⟩ else result

/-- `angle() * axis()` of the rotation of a guess (`.cpp` 77-78). -/
noncomputable def aaOf (T : Iso) : V3 := V3.smul T.R.toAngleAxis.angle T.R.toAngleAxis.axis

/-- Steps 1 and 2 of both cost functors: the pose of the target in the camera frame
(`dh_chain_kinematic_calibration.h` 288-322 and 357-392). -/
noncomputable def kinCameraToTarget (cc tc : DHChain) (qc qt : List ℝ) (p : Nat → Mem) : Res Iso :=
  let cameraOffsets := (p 0).dhRows cc.dof
  let targetOffsets := (p 1).dhRows tc.dof
  let cmToC := kinTransform (p 2).v3 (p 3).v3
  let tmToT := kinTransform (p 4).v3 (p 5).v3
  let cbToTb := kinTransform (p 6).v3 (p 7).v3
  (cc.getFK qc cameraOffsets).bind fun cameraFk =>
    let cameraBaseToCamera := cameraFk * cmToC
    (tc.getFK qt targetOffsets).bind fun targetFk =>
      let cameraBaseToTarget := cbToTb * targetFk * tmToT
      .ok (cameraBaseToCamera.inv * cameraBaseToTarget)

/-- `DualDHChainCost2D3D::operator()` (`dh_chain_kinematic_calibration.h` 285-333). -/
noncomputable def kinCost2 (cc tc : DHChain) (intr : Intr) (o : KinObs) (k : Corr2) (p : Nat → Mem) : Res (List ℝ) :=
  (kinCameraToTarget cc tc o.cameraJoints o.targetJoints p).bind fun T =>
    let px := projectPointE intr (T.apply k.inTarget)
    .ok [px.x - k.inImage.x, px.y - k.inImage.y]

/-- `DualDHChainCostPose6D::operator()` (`dh_chain_kinematic_calibration.h` 354-406). The NaN test of line 403 never
holds for real numbers. -/
noncomputable def kinCost6 (cc tc : DHChain) (w : ℝ) (m : KinMeas) (p : Nat → Mem) : Res (List ℝ) :=
  (kinCameraToTarget cc tc m.cameraJoints m.targetJoints p).bind fun T =>
    let err := m.cameraToTarget * T.inv
    let rotDiff := m.cameraToTarget.R.toQuat.angularDistance T.R.toQuat
    .ok [err.t.x, err.t.y, err.t.z, w * rotDiff]

/-- A residual functor with eight blocks of memory. -/
noncomputable def evalKin (f : (Nat → Mem) → Res (List ℝ)) (ms : List Mem) : List ℝ :=
  match f (fun i => ms.getD i (fun _ => 0)) with
  | .ok l => l
  | _ => []

/-- Rows of the offset matrix that is optimised: a dummy row for a chain without joints (`.cpp` 114-144). -/
def kinRows (c : DHChain) : Nat := if c.dof ≠ 0 then c.dof else 1

/-- Block sizes (`.cpp` 191-206). -/
def kinSize (p : KinProblem) (a : Nat) : Nat :=
  if a = 0 then 4 * kinRows p.cameraChain else if a = 1 then 4 * kinRows p.targetChain else 3

/-- Initial values (`.cpp` 74-144). -/
noncomputable def kinInit (p : KinProblem) : Nat → Mem := fun a =>
  match a with
  | 2 => p.cmToC.t.mem
  | 3 => (aaOf p.cmToC).mem
  | 4 => p.tmToT.t.mem
  | 5 => (aaOf p.tmToT).mem
  | 6 => p.cbToTb.t.mem
  | 7 => (aaOf p.cbToTb).mem
  | _ => fun _ => 0

def posLabels (l : String) : List String := [l ++ "_x", l ++ "_y", l ++ "_z"]
def aaLabels (l : String) : List String := [l ++ "_rx", l ++ "_ry", l ++ "_rz"]

/-- `camera_chain_param_labels` etc. (`.cpp` 114-144). -/
def chainLabels (c : DHChain) (placeholder : String) : List (Fin 4 → String) :=
  if c.dof ≠ 0 then c.getParamLabels.map fun l i => l.getD i ""
  else [fun i => placeholder ++ ["_d", "_theta", "_r", "_alpha"].getD i ""]

/-- `constructParameterLabels` with the arguments of `optimize` (`.h` 187-232, `.cpp` 156-165). -/
def kinLabels (p : KinProblem) : SMap Nat (List String) :=
  let m : SMap Nat (List String) := []
  let m := SMap.insert m 0 (concatLabels (chainLabels p.cameraChain "camera_chain_placeholder"))
  let m := SMap.insert m 1 (concatLabels (chainLabels p.targetChain "target_chain_placeholder"))
  let m := SMap.insert m 2 (posLabels p.labelCamera)
  let m := SMap.insert m 3 (aaLabels p.labelCamera)
  let m := SMap.insert m 4 (posLabels p.labelTarget)
  let m := SMap.insert m 5 (aaLabels p.labelTarget)
  let m := SMap.insert m 6 (posLabels p.labelBase)
  SMap.insert m 7 (aaLabels p.labelBase)

/-- `constructParameterMasks` (`.h` 234-243). -/
def kinMasks (p : KinProblem) : SMap Nat (List Int) :=
  (List.finRange 8).foldl (fun m i => SMap.insert m i.val (p.masks i)) []

/-- `constructParameterNames` (`.h` 245-258). -/
def kinNames : SMap Nat String :=
  [(0, "Camera DH Parameters"), (1, "Target DH Parameters"),
   (2, "Camera Mount to Camera Position Parameters"), (3, "Camera Mount to Camera Orientation Parameters"),
   (4, "Target Mount to Target Position Parameters"), (5, "Target Mount to Target Orientation Parameters"),
   (6, "Camera Chain Base to Target Chain Base Position Parameters"),
   (7, "Camera Chain Base to Target Chain Base Orientation Parameters")]

/-- The solver for problems with constant blocks and subset parameterizations. -/
structure KCeres where
  order : List (ResBlock Mem) → List Nat
  run : List Block → Ceres Mem

/-- Contract: as for `Ceres`, and elements that are held constant keep their value. -/
structure KCeres.WF (K : KCeres) : Prop where
  order_perm : ∀ pb, (K.order pb).Perm (usedBlocks pb)
  run_wf : ∀ blocks, (K.run blocks).WF
  held : ∀ blocks pb st, ∀ b ∈ blocks, ∀ k, b.Held k → (K.run blocks).solve pb st b.addr k = st b.addr k

/-- `problem.IsParameterBlockConstant`; an unknown block is a fatal error. -/
def isConstantBlock (blocks : List Block) (a : Nat) : Res Bool :=
  match blocks.find? fun b => b.addr = a with
  | some b => .ok b.constant
  | none => .abort

/-- The prior on the offsets of one chain (`.cpp` 226-239 and 242-255). -/
noncomputable def kinPrior (blocks : List Block) (a : Nat) (c : DHChain) (stdev : ℝ) : Res (List (ResBlock Mem)) :=
  if c.dof ≠ 0 then
    (isConstantBlock blocks a).bind fun const =>
      if const then .ok []
      else (MaxLik.make ⟨kinRows c, 4, fun _ _ => 0⟩ ⟨kinRows c, 4, fun _ _ => stdev⟩).bind fun ml =>
        .ok [⟨[a], evalMem1 fun mem => match ml.eval mem with
          | .ok r => (List.range (kinRows c * 4)).map r
          | _ => []⟩]
  else .ok []

/-- `printOptimizationLabels` (`.cpp` 38-70). -/
def kinPrint (blocks : List Block) (labels : SMap Nat (List String)) (masks : SMap Nat (List Int)) :
    Res (List (String × List String)) :=
  Res.mapList (fun b : Block =>
    (if b.constant then .ok [] else
      (labels.at' b.addr).bind fun label => (masks.at' b.addr).bind fun mask =>
        if mask.isEmpty then .ok label
        else (Res.mapList (fun j => Res.atList label j)
          ((List.range label.length).filter fun j => !(mask.any fun m => toSizeT m == j)))).bind fun sub =>
      (kinNames.at' b.addr).bind fun name => .ok (name, sub)) blocks

/-- The blocks before masks are applied: the dummy offsets of chains without joints are constant
(`.cpp` 216-220). -/
def kinBlocks (p : KinProblem) (order : List Nat) : List Block :=
  order.map fun a => ⟨a, kinSize p a,
    decide (a = 0 ∧ p.cameraChain.dof = 0) || decide (a = 1 ∧ p.targetChain.dof = 0), none⟩

/-- Reported offsets (`.cpp` 281-290). -/
def kinOffsets (c : DHChain) (m : Mem) : List V4 :=
  if c.dof = 0 then List.replicate c.dof 0 else m.dhRows (kinRows c)

/-- Both `optimize` functions (`.cpp` 72-298 and 300-514), which differ in the residual functors only: `costs` are these
functors in the order in which they are added. -/
noncomputable def kinOptimize (K : KCeres) (p : KinProblem) (costs : List ((Nat → Mem) → Res (List ℝ))) :
    Res KinResult :=
  let pb0 : List (ResBlock Mem) := costs.map fun f => ⟨List.range 8, evalKin f⟩
  -- SetParameterBlockConstant of a block that is not part of the problem is a fatal error
  if (p.cameraChain.dof = 0 ∨ p.targetChain.dof = 0) ∧ pb0.isEmpty = true then .abort
  else
    let r := addSubsetParameterization (kinBlocks p (K.order pb0)) (kinMasks p)
    r.2.bind fun _ =>
    (kinPrior r.1 0 p.cameraChain p.cameraStdev).bind fun prior0 =>
    (kinPrior r.1 1 p.targetChain p.targetStdev).bind fun prior1 =>
    let pb := pb0 ++ prior0 ++ prior1
    (kinPrint r.1 (kinLabels p) (kinMasks p)).bind fun printed =>
    (Res.mapList (fun f => f (kinInit p)) costs).bind fun _ =>
    let s := K.run r.1
    let st := s.solve pb (kinInit p)
    (computeCovariance (s.covSolverF pb st (kinSize p)) (K.order pb) (kinLabels p) (kinMasks p)).bind fun cov =>
    .ok ⟨s.converged pb (kinInit p), costPerObs pb (kinInit p), costPerObs pb st,
      kinTransform (st 2).v3 (st 3).v3, kinTransform (st 4).v3 (st 5).v3, kinTransform (st 6).v3 (st 7).v3,
      kinOffsets p.cameraChain (st 0), kinOffsets p.targetChain (st 1), cov, printed⟩

/-- The functors of the 2D-3D problem (`.cpp` 175-214). -/
noncomputable def kinCosts2 (p : KinProblem) (intr : Intr) (obs : List KinObs) : List ((Nat → Mem) → Res (List ℝ)) :=
  obs.flatMap fun o => o.correspondences.map fun k => kinCost2 p.cameraChain p.targetChain intr o k

/-- `optimize(KinematicCalibrationProblem2D3D)` (`.cpp` 72-298). -/
noncomputable def kinematic2 (K : KCeres) (p : KinProblem) (intr : Intr) (obs : List KinObs) : Res KinResult :=
  kinOptimize K p (kinCosts2 p intr obs)

/-- `optimize(KinematicCalibrationProblemPose6D)` (`.cpp` 300-514). -/
noncomputable def kinematic6 (K : KCeres) (p : KinProblem) (weight : ℝ) (obs : List KinMeas) : Res KinResult :=
  kinOptimize K p (obs.map fun m => kinCost6 p.cameraChain p.targetChain weight m)

end RCT
