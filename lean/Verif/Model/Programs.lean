import Verif.Model.Tools
import Verif.Model.Analysis
import Verif.Model.Simulation
import Verif.Model.CircleGrid

/-!
# The example programs

Models `rct_examples/src/examples/camera_on_wrist.cpp`, the `main` of `rct_examples/src/examples/kinematic_calibration.cpp`,
`rct_examples/src/tools/solve_pnp.cpp` and the conversion of 16 bit images in `rct_ros_tools/src/command_line_cal.cpp`.
Texts, windows and the parameters of the nodes are not modelled. All exceptions are derived from `std::exception`.
-/

namespace RCT

/-! ### command_line_cal.cpp: 16 bit images -/

/-- A colour of an 8 bit image. -/
structure Bgr8 where
  b : Nat
  g : Nat
  r : Nat
deriving DecidableEq

/-- A pixel of a `mono16` image after `cvtColor(COLOR_GRAY2BGR)` and `convertTo(CV_8UC1)` (`command_line_cal.cpp` 72-76):
three equal channels; `convertTo` with the default scale 1 saturates. -/
def mono16Pixel (v : Nat) : Bgr8 := let c := min v 255; ⟨c, c, c⟩

/-- The image kept and given to the target finder (`command_line_cal.cpp` 70-83), row by row. -/
def mono16Image (rows : List (List Nat)) : List (List Bgr8) := rows.map fun row => row.map mono16Pixel

/-! ### camera_on_wrist.cpp -/

/-- The loop body (`camera_on_wrist.cpp` 98-127): only the search for the target is inside the `try` block. -/
def exampleStep {Img : Type} (find : Img → Res TargetFeatures) (create : TargetFeatures → Res (List Corr2)) (d : DataSet Img)
    (s : List (Obs Corr2)) (i : Nat) : Res (List (Obs Corr2)) :=
  (Res.idxList d.images i).bind fun m =>
  match find m with
  | .ok fs => (create fs).bind fun cs => (Res.idxList d.poses i).bind fun T => .ok (s ++ [wristObs T cs])
  | .throw _ => .ok s
  | .abort => .abort
  | .ub => .ub

/-- The loop over the images (`camera_on_wrist.cpp` 97-127). -/
def exampleCollect {Img : Type} (find : Img → Res TargetFeatures) (create : TargetFeatures → Res (List Corr2))
    (d : DataSet Img) : Res (List (Obs Corr2)) :=
  Res.foldList (exampleStep find create d) [] (List.range d.images.length)

/-- The target (`camera_on_wrist.cpp` 88). -/
noncomputable def exampleTarget : CircleTarget := ⟨10, 10, 254 / 10000⟩

/-- Both guesses turn by 90 degrees (`camera_on_wrist.cpp` 53-54, 59-60). -/
def exampleRot : M3 := ⟨0, 1, 0, -1, 0, 0, 0, 0, 1⟩

/-- Intrinsic parameters and guesses (`camera_on_wrist.cpp` 41-62). -/
noncomputable def exampleProblem (obs : List (Obs Corr2)) : HandEyeProblem Corr2 where
  observations := obs
  intr := ⟨510, 510, 3202 / 10, 2089 / 10⟩
  cameraGuess := ⟨exampleRot, ⟨15 / 1000, 0, 15 / 100⟩⟩
  targetGuess := ⟨exampleRot, ⟨1, 0, 0⟩⟩
  labelCamera := "camera_mount_to_camera"
  labelTarget := "target_mount_to_target"

/-- `extrinsicWristCameraCalibration` (`camera_on_wrist.cpp` 31-149): `none` is the exit code 1. What OpenCV finds in an
image is given by `grid` (`findCirclesGrid`) and `detections` (the circle detector). -/
noncomputable def exampleMain {Img : Type} (C : Codec Img) (fs : FS Img) (path : String)
    (grid : Img → Nat → Nat → Bool × List V2) (detections : Img → List (List KeyPoint)) (s : Ceres Pose6) :
    Res (Option HandEyeResult) :=
  (parseFromFile C fs path).bind fun o => match o with
    | none => .ok none
    | some d =>
      (exampleCollect (fun m => circleFeatures (grid m) (detections m) exampleTarget) exampleTarget.createCorrespondences d).bind
        fun obs => (handEye2 s (exampleProblem obs)).bind fun r => .ok (some r)

/-! ### solve_pnp.cpp -/

/-- The camera matrix (`solve_pnp.cpp` 27-33). -/
def cvCameraMatrix (intr : Intr) : M3 := ⟨intr.fx, 0, intr.cx, 0, intr.fy, intr.cy, 0, 0, 1⟩

/-- The call of `cv::solvePnP` without distortion (`solve_pnp.cpp` 38-50): target points, image points and camera matrix
to rotation vector and position. -/
abbrev CvSolvePnP := List V3 → List V2 → M3 → V3 × V3

/-- `solveCVPnP` (`solve_pnp.cpp` 25-60). -/
noncomputable def solveCvPnP (cv : CvSolvePnP) (intr : Intr) (cs : List Corr2) : Iso :=
  let r := cv (cs.map fun c => c.inTarget) (cs.map fun c => c.inImage) (cvCameraMatrix intr)
  ⟨(⟨r.1.norm, r.1.normalized⟩ : AngleAxis).toMat, r.2⟩

/-- The guess of `solve_pnp.cpp` (106-107). -/
noncomputable def solvePnpGuess : Iso := (1 : Iso) * ⟨1, ⟨0, 0, 1 / 10⟩⟩ * ⟨(⟨Real.pi, ⟨1, 0, 0⟩⟩ : AngleAxis).toMat, 0⟩

/-- The problem of `solve_pnp.cpp` (109-112). -/
noncomputable def solvePnpProblem (intr : Intr) (cs : List Corr2) : PnPProblem Corr2 :=
  { intr := intr, correspondences := cs, guess := solvePnpGuess }

/-- `main` of `solve_pnp.cpp` (92-128) after loading: pose of OpenCV and result of the solver; `none` is the exit code -1. -/
noncomputable def solvePnpMain {Img : Type} (E : ToolEnv Img) (cv : CvSolvePnP) (s : Ceres V3) (intr : Intr) (m : Img) :
    Res (Option (Iso × PnPResult)) :=
  ((E.find m).bind fun fs =>
    if fs.isEmpty then .throw .runtimeError else
    (E.draw m fs).bind fun _ =>
    (E.create fs).bind fun cs =>
    let T := solveCvPnP cv intr cs
    (E.create fs).bind fun cs' =>
    (pnp2 s (solvePnpProblem intr cs')).bind fun r => .ok (some (T, r))).tryCatch (fun _ => true) none

/-! ### kinematic_calibration.cpp -/

/-- The mask of the first run (`kinematic_calibration.cpp` 234-244): the last row. -/
def lastRowMask (rows : Nat) : List Int := (createDHMask rows fun row _ => decide (row + 1 = rows)).map fun k : Nat => (k : Int)

/-- The mask of the second run (`kinematic_calibration.cpp` 275-281): everything. -/
def allMask (rows : Nat) : List Int := (createDHMask rows fun _ _ => true).map fun k : Nat => (k : Int)

/-- The problem (`kinematic_calibration.cpp` 219-249) with the mask of the target chain; `cm` and `tm` are the loaded
guesses, `seed` the random seed of the joints. -/
noncomputable def kinExampleProblem (seed : Nat) (cm tm : Iso) (mask : List Int) : KinProblem where
  cameraChain := ⟨[], 1⟩
  targetChain := twoAxisPositioner seed
  cmToC := cm
  tmToT := tm
  cbToTb := 1
  cameraStdev := 1 / 1000
  targetStdev := 5 / 1000
  masks := fun a => match a with
    | 1 => mask
    | 6 => [0, 1, 2]
    | 7 => [0, 1, 2]
    | _ => []

/-- One calibration with the comparison (`kinematic_calibration.cpp` 262-266, 283-288). -/
noncomputable def kinExampleRun (K : KCeres) (rd rd' : Nat → Nat) (p : KinProblem) (ms : List KinMeas) : Res (KinResult × KinStats) :=
  (kinematic6 K p 100 ms).bind fun r =>
  (compareToMeasurements p.cameraChain p.targetChain r ms rd rd').bind fun st => .ok (r, st)

/-- What `main` computes after loading the measurements and the guesses (`kinematic_calibration.cpp` 219-295): both results
with their statistics. The two runs of the solver may differ (several threads). -/
noncomputable def kinExampleMain (K K' : KCeres) (rd rd' rd'' rd''' : Nat → Nat) (seed : Nat) (cm tm : Iso) (ms : List KinMeas) :
    Res ((KinResult × KinStats) × (KinResult × KinStats)) :=
  (kinExampleRun K rd rd' (kinExampleProblem seed cm tm (lastRowMask (twoAxisPositioner seed).dof)) ms).bind fun optimal =>
  (kinExampleRun K' rd'' rd''' (kinExampleProblem seed cm tm (allMask (twoAxisPositioner seed).dof)) ms).bind fun static =>
  .ok (optimal, static)

end RCT
