import Verif.Model.DataSet
import Verif.Model.Homography
import Verif.Model.Accuracy

/-!
# The calibration tools

Models the loops of `rct_examples/src/tools`: how images, poses and correspondences are collected into problems and shown
afterwards. The target finder, drawing and the homography check are parameters of the loops (`ToolEnv`); showing an image
that was not accepted does not fail. Parameters of the nodes, windows and text output are not modelled.
-/

namespace RCT

/-- What the loops of the tools call. -/
structure ToolEnv (Img : Type) where
  /-- `findTargetFeatures` -/
  find : Img → Res TargetFeatures
  /-- `target().createCorrespondences` -/
  create : TargetFeatures → Res (List Corr2)
  /-- `drawTargetFeatures` and `imshow` -/
  draw : Img → TargetFeatures → Res Unit
  /-- the homography check of the image with this number; it depends on the number through the random draws -/
  check : Nat → List Corr2 → Res Unit

open Classical in
/-- The homography check (`camera_on_wrist_extrinsic.cpp` 108-114, `static_camera_extrinsic.cpp` 102-108). -/
noncomputable def homographyCheck (solve : LuSolve) (draws : UniformInt) (threshold : ℝ) (cs : List Corr2) : Res Unit :=
  (RandomSampler.make cs.length (cs.length / 3)).bind fun sampler =>
  (homographyError solve cs (sampler.sample draws)).bind fun e =>
  if costAbove (accMean e) threshold then .throw .runtimeError else .ok ()

/-- Observations and images accepted so far. -/
structure Found (Img : Type) where
  observations : List (Obs Corr2) := []
  images : List Img := []

/-- The calls in the `try` block up to the acceptance of the image; `mkObs` fills in the pose. -/
def acceptImage {Img : Type} (E : ToolEnv Img) (mkObs : Iso → List Corr2 → Obs Corr2) (d : DataSet Img) (i : Nat) (m : Img) :
    Res (TargetFeatures × Obs Corr2) :=
  (E.find m).bind fun fs =>
  if fs.isEmpty then .throw .runtimeError else
  (Res.idxList d.poses i).bind fun T =>
  (E.create fs).bind fun cs =>
  (E.check i cs).bind fun _ =>
  .ok (fs, mkObs T cs)

/-- The loop body (`camera_on_wrist_extrinsic.cpp` 86-131, `static_camera_extrinsic.cpp` 84-125). -/
def collectStep {Img : Type} (E : ToolEnv Img) (mkObs : Iso → List Corr2 → Obs Corr2) (d : DataSet Img) (s : Found Img) (i : Nat) :
    Res (Found Img) :=
  (Res.idxList d.images i).bind fun m =>
  match acceptImage E mkObs d i m with
  | .ok (fs, o) =>
    let s' : Found Img := ⟨s.observations ++ [o], s.images ++ [m]⟩
    match E.draw m fs with
    | .ok _ => .ok s'
    | .throw e => if e.isRuntime then .ok s' else .throw e
    | .abort => .abort
    | .ub => .ub
  | .throw e => if e.isRuntime then .ok s else .throw e
  | .abort => .abort
  | .ub => .ub

/-- The observation of a camera on the wrist (`camera_on_wrist_extrinsic.cpp` 98-104). -/
def wristObs (T : Iso) (cs : List Corr2) : Obs Corr2 := { corrs := cs, toCameraMount := T, toTargetMount := 1 }

/-- The observation of a static camera (`static_camera_extrinsic.cpp` 95-98). -/
def staticObs (T : Iso) (cs : List Corr2) : Obs Corr2 := { corrs := cs, toCameraMount := 1, toTargetMount := T }

/-- The loop over the images of `camera_on_wrist_extrinsic.cpp` (86-131). -/
def wristCollect {Img : Type} (E : ToolEnv Img) (d : DataSet Img) : Res (Found Img) :=
  Res.foldList (collectStep E wristObs d) {} (List.range d.images.length)

/-- The loop over the images of `static_camera_extrinsic.cpp` (84-125). -/
def staticCollect {Img : Type} (E : ToolEnv Img) (d : DataSet Img) : Res (Found Img) :=
  Res.foldList (collectStep E staticObs d) {} (List.range d.images.length)

/-- The observations and images put together by `analyzeResults` (`hand_eye_calibration_analysis.h` 77-88) with the
transform that is used to draw. -/
noncomputable def analysisItems {Img : Type} (observations : List (Obs Corr2)) (images : List Img) (cam tgt : Iso) :
    Res (List (Obs Corr2 × Img × Iso)) :=
  Res.mapList (fun (i : Nat) =>
    (Res.atList observations i).bind fun o => (Res.idxList images i).bind fun m =>
    .ok (o, m, cam.inv * o.toCameraMount.inv * o.toTargetMount * tgt)) (List.range images.length)

/-! ### Validation of the intrinsic calibration -/

/-- The loop of `camera_intrinsic_calibration_validation.cpp` (93-129): drawing is inside the `try` block, creating the
correspondences is not. -/
def validationStep {Img : Type} (E : ToolEnv Img) (d : DataSet Img) (s : List (Obs Corr2)) (i : Nat) : Res (List (Obs Corr2)) :=
  (Res.idxList d.images i).bind fun m =>
  match ((E.find m).bind fun fs => if fs.isEmpty then .throw .runtimeError else (E.draw m fs).bind fun _ => .ok fs :
      Res TargetFeatures) with
  | .ok fs =>
    (Res.idxList d.poses i).bind fun T => (E.create fs).bind fun cs => .ok (s ++ [wristObs T cs])
  | .throw e => if e.isRuntime then .ok s else .throw e
  | .abort => .abort
  | .ub => .ub

/-- The loop over all images. -/
def validationCollect {Img : Type} (E : ToolEnv Img) (d : DataSet Img) : Res (List (Obs Corr2)) :=
  Res.foldList (validationStep E d) [] (List.range d.images.length)

/-- `mean + 2.0 * stdev > tol`; comparison with NaN is false. -/
def twoSigmaAbove (mean stdev : Option ℝ) (tol : ℝ) : Prop :=
  match mean, stdev with
  | some m, some s => m + 2 * s > tol
  | _, _ => False

/-- The test of `analyzeResults` (`camera_intrinsic_calibration_validation.cpp` 31-43): the calibration is called valid. -/
def reportedValid (r : IntrAccResult) (posTol angTol : ℝ) : Prop :=
  ¬ (twoSigmaAbove r.posMean r.posStdev posTol ∨ twoSigmaAbove r.angMean r.angStdev angTol)

open Classical in
/-- The validation tool after loading (`camera_intrinsic_calibration_validation.cpp` 86-141): what it reports. `angTol` is the
value of `0.05 * M_PI / 180.0`. -/
noncomputable def validationTool {Img : Type} (E : ToolEnv Img) (c : Ceres V3) (intr : Intr) (cam tgt : Iso) (d : DataSet Img) : Res Bool :=
  (validationCollect E d).bind fun obs =>
  (intrinsicAccuracy c obs intr cam tgt 1 1).bind fun r =>
  .ok (decide (reportedValid r (1 / 1000) (5 / 100 * Real.pi / 180)))

/-! ### Intrinsic calibration -/

/-- The loop body of `intrinsic_calibration.cpp` (112-136): drawing is outside the `try` block. -/
def intrinsicStep {Img : Type} (E : ToolEnv Img) (images : List Img) (s : List (List Corr2)) (i : Nat) : Res (List (List Corr2)) :=
  (Res.idxList images i).bind fun m =>
  match ((E.find m).bind fun fs => if fs.isEmpty then .throw .runtimeError else
      (E.create fs).bind fun cs => .ok (fs, cs) : Res (TargetFeatures × List Corr2)) with
  | .ok (fs, cs) => (E.draw m fs).bind fun _ => .ok (s ++ [cs])
  | .throw e => if e.isRuntime then .ok s else .throw e
  | .abort => .abort
  | .ub => .ub

/-- The observations and the image whose size is passed on (`intrinsic_calibration.cpp` 112-142); `front()` of an empty
vector is undefined. -/
def intrinsicCollect {Img : Type} (E : ToolEnv Img) (d : DataSet Img) : Res (List (List Corr2) × Img) :=
  (Res.foldList (intrinsicStep E d.images) [] (List.range d.images.length)).bind fun obs =>
  (Res.idxList d.images 0).bind fun front => .ok (obs, front)

/-! ### Several cameras -/

/-- `if (!data_set) throw …` (`multi_static_camera_multi_step_extrinsic.cpp` 108-111, `solve_multi_camera_pnp.cpp` 115-118,
and the tools with one camera). -/
def loadChecked {Img : Type} (C : Codec Img) (fs : FS Img) (path : String) : Res (DataSet Img) :=
  (parseFromFile C fs path).bind fun o => match o with
    | some d => .ok d
    | none => .throw .runtimeError

/-- `multi_static_camera_extrinsic.cpp` 111-114: the optional is dereferenced before it is tested. -/
def loadMultiStatic {Img : Type} (C : Codec Img) (fs : FS Img) (path : String) : Res (DataSet Img) :=
  (parseFromFile C fs path).bind fun o => match o with
    | none => .ub
    | some d => .ok d

/-- Poses and observations of one camera in `multi_static_camera_extrinsic.cpp` 150-158. -/
def multiStaticCamera {Img : Type} (s : CorrDataSet) (c : Nat) (ds : DataSet Img) : Res (List Iso × List (List Corr2)) :=
  Res.foldList (fun (acc : List Iso × List (List Corr2)) i =>
    if s.found c i then (Res.idxList ds.poses i).bind fun T => .ok (acc.1 ++ [T], acc.2 ++ [s.corr c i]) else .ok acc)
    ([], []) (List.range s.cols)

/-- The problem built in `multi_static_camera_extrinsic.cpp` 147-159: per camera the wrist poses and the observations. -/
def multiStaticBuild {Img : Type} (s : CorrDataSet) (sets : List (DataSet Img)) : Res (List (List Iso × List (List Corr2))) :=
  Res.mapList (fun (c : Nat) => (Res.idxList sets c).bind fun ds => multiStaticCamera s c ds) (List.range s.rows)

/-- One image shown at the end of `multi_static_camera_extrinsic.cpp` 187-226: the cameras used, their correspondences and
the image; `none` if fewer than two cameras saw the target. -/
def multiStaticShow {Img : Type} (s : CorrDataSet) (sets : List (DataSet Img)) (n i : Nat) :
    Res (Option (List (Nat × List Corr2) × Img)) :=
  (Res.foldList (fun (acc : List (Nat × List Corr2) × Option Img) c =>
    if s.found c i then
      (match acc.2 with
        | some m => .ok (some m)
        | none => (Res.idxList sets c).bind fun ds => (Res.idxList ds.images i).bind fun m => .ok (some m) : Res (Option Img)).bind
        fun image => .ok (acc.1 ++ [(c, s.corr c i)], image)
    else .ok acc) (([], none) : List (Nat × List Corr2) × Option Img) (List.range n)).bind fun acc =>
  match acc.2 with
  | some m => .ok (if acc.1.length ≥ 2 then some (acc.1, m) else none)
  | none => .ok none

/-- What `multi_static_camera_multi_step_extrinsic.cpp` collects. -/
structure StepData where
  targetGuesses : List Iso := []
  wristPoses : List Iso := []
  /-- per image the correspondences of all cameras -/
  observations : List (List (List Corr2)) := []

/-- The loop of `multi_static_camera_multi_step_extrinsic.cpp` 148-161. -/
noncomputable def multiStepCollect {Img : Type} (s : CorrDataSet) (sets : List (DataSet Img)) (wristToTarget : Iso) : Res StepData :=
  Res.foldList (fun (acc : StepData) i =>
    if s.imageCameraCount i = s.rows then
      (Res.idxList sets 0).bind fun first => (Res.idxList first.poses i).bind fun T =>
      .ok ⟨acc.targetGuesses ++ [T * wristToTarget], acc.wristPoses ++ [T],
        acc.observations ++ [(List.range s.rows).map fun c => s.corr c i]⟩
    else .ok acc) {} (List.range s.cols)

/-- The images drawn on in `multi_static_camera_multi_step_extrinsic.cpp` 221-242, one per collected pose. -/
def multiStepImages {Img : Type} (sets : List (DataSet Img)) (d : StepData) : Res (List Img) :=
  Res.mapList (fun (i : Nat) => (Res.idxList sets 0).bind fun first => Res.idxList first.images i) (List.range d.wristPoses.length)

/-- The loop of `solve_multi_camera_pnp.cpp` 146-159: per image seen by all cameras the pose, the image drawn on and the
correspondences. -/
def multiPnpItems {Img : Type} (s : CorrDataSet) (sets : List (DataSet Img)) (n : Nat) : Res (List (Iso × Img × List (List Corr2))) :=
  Res.foldList (fun (acc : List (Iso × Img × List (List Corr2))) i =>
    if s.imageCameraCount i = s.rows then
      (Res.idxList sets 0).bind fun first => (Res.idxList first.poses i).bind fun T => (Res.idxList first.images i).bind fun m =>
      .ok (acc ++ [(T, m, (List.range n).map fun c => s.corr c i)])
    else .ok acc) [] (List.range s.cols)

/-! ### Noise qualification -/

/-- The loop of `noise_qualification_2d.cpp` 60-97: `static` makes the image of the first iteration stay. `read` is
`readImageOpenCV`; the correspondences of the problems are returned. -/
def noiseStep {Img : Type} (E : ToolEnv Img) (read : String → Img) (names : List String)
    (s : Option Img × List (List Corr2)) (i : Nat) : Res (Option Img × List (List Corr2)) :=
  (Res.idxList names i).bind fun name =>
  let image := s.1.getD (read name)
  match ((E.find image).bind fun fs => if fs.isEmpty then .throw .runtimeError else (E.draw image fs).bind fun _ => .ok fs :
      Res TargetFeatures) with
  | .ok fs => (E.create fs).bind fun cs => .ok (some image, s.2 ++ [cs])
  | .throw e => if e.isRuntime then .ok (some image, s.2) else .throw e
  | .abort => .abort
  | .ub => .ub

/-- All problems of `noise_qualification_2d.cpp` 60-97. -/
def noiseCollect {Img : Type} (E : ToolEnv Img) (read : String → Img) (names : List String) : Res (List (List Corr2)) :=
  (Res.foldList (noiseStep E read names) (none, []) (List.range names.length)).bind fun s => .ok s.2

end RCT
