import Verif.Model.Programs
import Verif.Model.Loaders
import Verif.Model.StaticCameras

/-!
# The tools as programs

Models the `main` functions of `rct_examples/src/tools`: parameters, loading, the loops of `Model/Tools.lean`, the
optimisations and what is printed. All of them have the form `try { … return 0 } catch (const std::exception&) { return -1 }`.
An `XmlRpc::XmlRpcException` is not derived from `std::exception` and ends the program by `std::terminate` (`abort`).
Windows, keys pressed and the texts between the numbers are not modelled; memory is unlimited; OpenCV's `calibrateCamera`
and `solvePnP` and the plugins are parameters. The points given to `calibrateCamera` are rounded to `float` in the code.
-/

namespace RCT

/-- A loaded target finder: `findTargetFeatures`, `target().createCorrespondences`, and `drawTargetFeatures` with `imshow`. -/
structure Finder (Img : Type) where
  find : Img → Res TargetFeatures
  create : TargetFeatures → Res (List Corr2)
  draw : Img → TargetFeatures → Res Unit

/-- What a tool is started with: the parameters below its private name, the files, the plugins, and the random numbers and
linear solver of the homography check. -/
structure ToolWorld (Img : Type) where
  param : String → Option XVal
  codec : Codec Img
  fs : FS Img
  printer : XPrinter
  /-- `createInstance(name)->init`; `none` if there is no plugin of that name. No plugin has the empty name. -/
  plugin : String → Option (Yaml → Res (Finder Img))
  lu : LuSolve
  draws : Nat → UniformInt

/-! ### Parameters -/

/-- `get<double>` (`camera_on_wrist_extrinsic.cpp` 28-35): `ros::NodeHandle::getParam` also accepts integers. -/
def getDouble : Option XVal → Res ℝ
  | some (.double x) => .ok x
  | some (.int i) => .ok i
  | _ => .throw .runtimeError

/-- `get<std::string>` -/
def getString : Option XVal → Res String
  | some (.string s) => .ok s
  | _ => .throw .runtimeError

/-- `get<bool>` -/
def getBool : Option XVal → Res Bool
  | some (.bool b) => .ok b
  | _ => .throw .runtimeError

/-- `get<int>`: `ros::NodeHandle::getParam` rounds a double, down if `fmod(d, 1.0) < 0.5`. Values fit into an `int`. -/
noncomputable def getInt : Option XVal → Res Int
  | some (.int i) => .ok i
  | some (.double x) => .ok (if x < 0 ∨ Int.fract x < 1 / 2 then ⌊x⌋ else ⌈x⌉)
  | _ => .throw .runtimeError

/-- `get<XmlRpc::XmlRpcValue>` -/
def getAny : Option XVal → Res XVal
  | some v => .ok v
  | none => .throw .runtimeError

/-- The number of cameras (`multi_static_camera_extrinsic.cpp` 89-101): a negative number becomes a huge `std::size_t`, for
which `resize` throws `std::length_error`. -/
noncomputable def cameraCount (v : Option XVal) : Res Nat :=
  (getInt v).bind fun n => if n < 0 then .throw .other else .ok n.toNat

/-- `static_cast<std::string>(target_finder_config["type"])`: an exception of XmlRpc ends the program. A missing type
becomes the empty text, for which `createInstance` throws. -/
def finderType : XVal → Res String
  | .struct l => match l.lookup "type" with
    | some (.string s) => .ok s
    | some .invalid => .throw .runtimeError
    | none => .throw .runtimeError
    | some _ => .abort
  | .invalid => .throw .runtimeError
  | _ => .abort

/-- `toYAML` as called by the tools: its exceptions of XmlRpc (`other`) end the program. -/
def toYAMLorDie (P : XPrinter) (v : XVal) : Res Yaml :=
  match toYAML P v with
  | .throw .other => .abort
  | r => r

/-- Loading the target finder (`camera_on_wrist_extrinsic.cpp` 58-62 and the same lines of the other tools). -/
def loadFinder {Img : Type} (W : ToolWorld Img) : Res (Finder Img) :=
  (getAny (W.param "target_finder")).bind fun config =>
  (finderType config).bind fun type =>
  match W.plugin type with
  | none => .throw .runtimeError
  | some init => (toYAMLorDie W.printer config).bind init

/-- What the loops call, for a finder and a threshold. -/
noncomputable def ToolWorld.env {Img : Type} (W : ToolWorld Img) (F : Finder Img) (threshold : ℝ) : ToolEnv Img where
  find := F.find
  create := F.create
  draw := F.draw
  check := fun i cs => homographyCheck W.lu (W.draws i) threshold cs

/-! ### One camera -/

/-- What `printOptResults` prints. -/
structure PrintedOpt where
  converged : Bool
  initial : Option ℝ
  final : Option ℝ

noncomputable def printOpt (converged : Bool) (initial final : Option ℝ) : PrintedOpt :=
  ⟨converged, printedCost initial, printedCost final⟩

/-- What the extrinsic tools for one camera print. -/
structure HandEyeReport where
  opt : PrintedOpt
  proj3 : Proj3Stats
  camera : PrintedTransform
  target : PrintedTransform
  /-- correlation coefficients above the threshold, before sorting -/
  correlations : List NamedParam
  pnp : HandEyeStats

/-- From the optimisation to the end (`camera_on_wrist_extrinsic.cpp` 133-159, `static_camera_extrinsic.cpp` 127-153). -/
noncomputable def handEyeReport {Img : Type} (s : Ceres Pose6) (s3 : Ceres V3) (p : HandEyeProblem Corr2) (images : List Img) :
    Res HandEyeReport :=
  (handEye2 s p).bind fun r =>
  (analyze3D p.observations p.intr r.cameraMountToCamera r.targetMountToTarget).bind fun proj3 =>
  (analyzeResults s3 p.intr p.observations images r.cameraMountToCamera r.targetMountToTarget).bind fun pnp =>
  .ok ⟨printOpt r.converged r.initialCost r.finalCost, proj3, printTransform r.cameraMountToCamera,
    printTransform r.targetMountToTarget, r.covariance.correlation_coeffs.filter fun c => decide (|c.value| > 1 / 2), pnp⟩

/-- `catch (const std::exception&) { return -1; }`; `none` is the exit code -1. -/
def toolExit {α : Type} (r : Res α) : Res (Option α) :=
  (r.bind fun a => .ok (some a)).tryCatch (fun _ => true) none

/-- The default labels of `ExtrinsicHandEyeProblem2D3D` are kept. -/
def toolProblem (intr : Intr) (camera target : Iso) (obs : List (Obs Corr2)) : HandEyeProblem Corr2 where
  observations := obs
  intr := intr
  cameraGuess := camera
  targetGuess := target
  labelCamera := "camera_mount_to_camera"
  labelTarget := "target_mount_to_target"

/-- `main` of `camera_on_wrist_extrinsic.cpp` (37-168). -/
noncomputable def wristMain {Img : Type} (W : ToolWorld Img) (s : Ceres Pose6) (s3 : Ceres V3) : Res (Option HandEyeReport) :=
  toolExit <|
  (getDouble (W.param "homography_threshold")).bind fun threshold =>
  (loadIntrParam (W.param "intrinsics")).bind fun intr =>
  (getString (W.param "data_path")).bind fun path =>
  (loadChecked W.codec W.fs path).bind fun d =>
  (loadFinder W).bind fun F =>
  (loadPoseParam (W.param "base_to_target_guess")).bind fun target =>
  (loadPoseParam (W.param "wrist_to_camera_guess")).bind fun camera =>
  (wristCollect (W.env F threshold) d).bind fun found =>
  handEyeReport s s3 (toolProblem intr camera target found.observations) found.images

/-- `main` of `static_camera_extrinsic.cpp` (37-162). -/
noncomputable def staticMain {Img : Type} (W : ToolWorld Img) (s : Ceres Pose6) (s3 : Ceres V3) : Res (Option HandEyeReport) :=
  toolExit <|
  (getDouble (W.param "homography_threshold")).bind fun threshold =>
  (getString (W.param "data_path")).bind fun path =>
  (loadChecked W.codec W.fs path).bind fun d =>
  (loadFinder W).bind fun F =>
  (loadIntrParam (W.param "intrinsics")).bind fun intr =>
  (loadPoseParam (W.param "base_to_camera_guess")).bind fun camera =>
  (loadPoseParam (W.param "wrist_to_target_guess")).bind fun target =>
  (staticCollect (W.env F threshold) d).bind fun found =>
  handEyeReport s s3 (toolProblem intr camera target found.observations) found.images

/-- `main` of `camera_intrinsic_calibration_validation.cpp` (58-150): the verdict. No homography check is made. -/
noncomputable def validationMain {Img : Type} (W : ToolWorld Img) (s3 : Ceres V3) : Res (Option Bool) :=
  toolExit <|
  (getString (W.param "data_path")).bind fun path =>
  (loadChecked W.codec W.fs path).bind fun d =>
  (loadFinder W).bind fun F =>
  (loadIntrParam (W.param "intrinsics")).bind fun intr =>
  (loadPoseParam (W.param "base_to_target_guess")).bind fun target =>
  (loadPoseParam (W.param "wrist_to_camera_guess")).bind fun camera =>
  validationTool ⟨F.find, F.create, F.draw, fun _ _ => .ok ()⟩ s3 intr camera target d

/-- `cv::calibrateCamera` as called in `intrinsic_calibration.cpp` 20-55: target and image points per image, the image whose
size is passed, the camera matrix of the guess; camera matrix and distortion coefficients. -/
abbrev CvCalibrate (Img : Type) := List (List V3) → List (List V2) → Img → M3 → Res (M3 × List ℝ)

/-- What `intrinsic_calibration.cpp` prints. -/
structure IntrinsicReport where
  cvIntrinsics : Intr
  cvDistortions : List ℝ
  opt : PrintedOpt
  intrinsics : Intr
  distortions : List ℝ
  correlations : List NamedParam

/-- `opencvCameraCalibration` (`intrinsic_calibration.cpp` 22-72): what is printed. There are at least five coefficients. -/
def cvCalibration {Img : Type} (cv : CvCalibrate Img) (obs : List (List Corr2)) (front : Img) (intr : Intr) :
    Res (Intr × List ℝ) :=
  (cv (obs.map fun o => o.map fun c => c.inTarget) (obs.map fun o => o.map fun c => c.inImage) front (cvCameraMatrix intr)).bind
    fun r => .ok (⟨r.1.m00, r.1.m11, r.1.m02, r.1.m12⟩, r.2.take 5)

/-- `main` of `intrinsic_calibration.cpp` (83-171). -/
noncomputable def intrinsicMain {Img : Type} (W : ToolWorld Img) (cv : CvCalibrate Img) (s3 : Ceres V3) (s : Ceres Mem) :
    Res (Option IntrinsicReport) :=
  toolExit <|
  (getString (W.param "data_path")).bind fun path =>
  (loadChecked W.codec W.fs path).bind fun d =>
  (loadFinder W).bind fun F =>
  (loadIntrParam (W.param "intrinsics")).bind fun intr =>
  (intrinsicCollect ⟨F.find, F.create, F.draw, fun _ _ => .ok ()⟩ d).bind fun found =>
  (cvCalibration cv found.1 found.2 intr).bind fun c =>
  (intrinsic s3 s { observations := found.1, guess := intr }).bind fun r =>
  .ok ⟨c.1, c.2, printOpt r.converged r.initialCost r.finalCost, r.intrinsics, r.distortions,
    r.covariance.correlation_coeffs.filter fun x => decide (|x.value| > 1 / 2)⟩

/-- The names of the images (`noise_qualification_2d.cpp` 56-64): `root[i]["image"]` of nodes that are not constant. -/
def noiseNames (root : Yaml) : Res (List String) :=
  Res.mapList (fun i => (root.idx i).bind fun e => ((e.getD .null).keyN "image").bind Yaml.asString) (List.range root.size)

/-- `main` of `noise_qualification_2d.cpp` (28-117). `read` is `readImageOpenCV`. The names are read before the images
here, one by one in the code. -/
noncomputable def noiseMain {Img : Type} (W : ToolWorld Img) (read : String → Img) (svd : SvdU0) (s3 : Ceres V3) :
    Res (Option NoiseStat) :=
  toolExit <|
  (getString (W.param "data_path")).bind fun path =>
  (getString (W.param "data_file")).bind fun file =>
  (loadFinder W).bind fun F =>
  (loadIntrParam (W.param "intrinsics")).bind fun intr =>
  (loadPoseParam (W.param "camera_to_target_guess")).bind fun guess =>
  (loadYaml W.fs file).bind fun root =>
  (noiseNames root).bind fun names =>
  (noiseCollect ⟨F.find, F.create, F.draw, fun _ _ => .ok ()⟩ read (names.map fun n => path ++ "/" ++ n)).bind fun obs =>
  qualifyNoise2 s3 svd (obs.map fun cs => { intr := intr, correspondences := cs, guess := guess })

/-- `main` of `solve_pnp.cpp` (73-129). `read` is `cv::imread`. -/
noncomputable def solvePnpTool {Img : Type} (W : ToolWorld Img) (read : String → Img) (cv : CvSolvePnP) (s3 : Ceres V3) :
    Res (Option (Iso × PnPResult)) :=
  (toolExit <|
  (getString (W.param "image_path")).bind fun path =>
  (loadIntrParam (W.param "intrinsics")).bind fun intr =>
  (loadFinder W).bind fun F =>
  .ok (path, intr, F)).bind fun o => match o with
  | none => .ok none
  | some (path, intr, F) => solvePnpMain ⟨F.find, F.create, F.draw, fun _ _ => .ok ()⟩ cv s3 intr (read path)

/-! ### Several cameras -/

/-- What `reproject` shows of one image: the points drawn before and after, the image, and the printed numbers. -/
structure View (Img : Type) where
  image : Img
  before : List V2
  after : List V2
  opt : PrintedOpt
  /-- `camera_to_target` with the calibration -/
  calibrated : Iso
  /-- `camera_to_target` of the PnP estimate -/
  estimated : Iso
  /-- base to target of the PnP estimate -/
  baseToTarget : Iso

/-- `reproject` (`multi_static_camera_extrinsic.cpp` 24-73, `multi_static_camera_multi_step_extrinsic.cpp` 25-71,
`solve_multi_camera_pnp.cpp` 26-77); the variants differ in which of the transforms they print. -/
noncomputable def reproject {Img : Type} (s : Ceres Pose6) (baseToTarget : Iso) (baseToCamera : List Iso) (intr : List Intr)
    (image : Img) (sets : List (List Corr2)) : Res (View Img) :=
  (Res.idxList baseToCamera 0).bind fun first =>
  (Res.idxList intr 0).bind fun intr0 =>
  let cameraToTarget := first.inv * baseToTarget
  let points := sets.flatMap fun cs => cs.map fun c => c.inTarget
  (mcPnp s ⟨intr, baseToCamera, sets, baseToTarget⟩).bind fun r =>
  let estimated := first.inv * r.baseToTarget
  .ok ⟨image, getReprojections cameraToTarget intr0 points, getReprojections estimated intr0 points,
    printOpt r.converged r.initialCost r.finalCost, cameraToTarget, estimated, r.baseToTarget⟩

/-- The parameters of one camera. -/
structure CameraParams (Img : Type) where
  data : DataSet Img
  intr : Intr
  pose : Iso

/-- `param_base + name` -/
def cameraKey (c : Nat) (name : String) : String := "camera_" ++ toString c ++ "/" ++ name

/-- The loop body that loads one camera (`multi_static_camera_extrinsic.cpp` 104-132,
`multi_static_camera_multi_step_extrinsic.cpp` 101-129, `solve_multi_camera_pnp.cpp` 108-136): `load` reads the data set,
`poseName` is the name of the pose. The loaders that return a flag leave the value unchanged if they fail, but then the tool
throws. -/
noncomputable def loadCamera {Img : Type} (W : ToolWorld Img) (load : String → Res (DataSet Img)) (poseName : String) (c : Nat) :
    Res (CameraParams Img) :=
  (getString (W.param (cameraKey c "data_path"))).bind fun path =>
  (load path).bind fun d =>
  (tryLoadIntrParam (W.param (cameraKey c "intrinsics")) ⟨1411, 1408, 8072 / 10, 615⟩).bind fun i =>
  if i.1 = false then .throw .runtimeError else
  (tryLoadPoseParam (W.param (cameraKey c poseName)) 1).bind fun T =>
  if T.1 = false then .throw .runtimeError else
  .ok ⟨d, i.2, T.2⟩

/-- All cameras. -/
noncomputable def loadCameras {Img : Type} (W : ToolWorld Img) (load : String → Res (DataSet Img)) (poseName : String) (n : Nat) :
    Res (List (CameraParams Img)) :=
  Res.mapList (loadCamera W load poseName) (List.range n)

/-- `if (!loadPose(…)) throw` -/
noncomputable def needPose (v : Option XVal) : Res Iso :=
  (tryLoadPoseParam v 1).bind fun T => if T.1 = false then .throw .runtimeError else .ok T.2

/-- The printed camera poses: base to camera and camera 0 to camera (`multi_static_camera_extrinsic.cpp` 171-183,
`multi_static_camera_multi_step_extrinsic.cpp` 172-184 and 207-219). -/
noncomputable def printCameras (n : Nat) (baseToCamera : List Iso) : Res (List (PrintedTransform × PrintedTransform)) :=
  Res.mapList (fun (c : Nat) =>
    (Res.idxList baseToCamera c).bind fun T =>
    (Res.idxList baseToCamera 0).bind fun T0 => .ok (printTransform T, printTransform (T0.inv * T))) (List.range n)

/-- What `multi_static_camera_extrinsic.cpp` prints and shows; `views` has an entry per image of the first camera, `none` if
it is skipped. -/
structure MultiStaticReport (Img : Type) where
  opt : PrintedOpt
  wristToTarget : PrintedTransform
  cameras : List (PrintedTransform × PrintedTransform)
  views : List (Option (View Img))

/-- The last loop of `multi_static_camera_extrinsic.cpp` (187-226) for image `i`. -/
noncomputable def multiStaticView {Img : Type} (s : Ceres Pose6) (t : CorrDataSet) (sets : List (DataSet Img)) (intr : List Intr)
    (r : MsResult) (n i : Nat) : Res (Option (View Img)) :=
  (Res.idxList sets 0).bind fun first =>
  (Res.idxList first.poses i).bind fun wrist =>
  (multiStaticShow t sets n i).bind fun o => match o with
    | none => .ok none
    | some (seen, image) =>
      (Res.mapList (fun e : Nat × List Corr2 => Res.idxList r.baseToCamera e.1) seen).bind fun baseToCamera =>
      (Res.mapList (fun e : Nat × List Corr2 => Res.idxList intr e.1) seen).bind fun intr' =>
      (reproject s (wrist * r.wristToTarget) baseToCamera intr' image (seen.map fun e => e.2)).bind fun v => .ok (some v)

/-- `main` of `multi_static_camera_extrinsic.cpp` (82-236). `junk` is the content of fresh memory. -/
noncomputable def multiStaticMain {Img : Type} (W : ToolWorld Img) (junk : Nat → Nat → Nat) (s : Ceres Pose6) :
    Res (Option (MultiStaticReport Img)) :=
  toolExit <|
  (cameraCount (W.param "num_of_cameras")).bind fun n =>
  (loadCameras W (loadMultiStatic W.codec W.fs) "base_to_camera_guess" n).bind fun cams =>
  (needPose (W.param "wrist_to_target_guess")).bind fun wristToTarget =>
  (loadFinder W).bind fun F =>
  let sets := cams.map fun c => c.data
  let intr := cams.map fun c => c.intr
  (buildCorrDataSet F.find F.create F.draw junk sets).bind fun t =>
  (multiStaticBuild t sets).bind fun data =>
  (multiStatic s { intr := intr, wristPoses := data.map Prod.fst, observations := data.map Prod.snd,
                   wristToTargetGuess := wristToTarget, baseToCameraGuess := cams.map fun c => c.pose }).bind fun r =>
  (printCameras n r.baseToCamera).bind fun cameras =>
  (Res.idxList sets 0).bind fun first =>
  (Res.mapList (multiStaticView s t sets intr r n) (List.range first.images.length)).bind fun views =>
  .ok ⟨printOpt r.converged r.initialCost r.finalCost, printTransform r.wristToTarget, cameras, views⟩

/-- The observations per camera collected in `multi_static_camera_multi_step_extrinsic.cpp` 156-159. -/
def perCamera (rows : Nat) (d : StepData) : List (List (List Corr2)) :=
  (List.range rows).map fun (c : Nat) => d.observations.map fun o => o.getD c []

/-- What `multi_static_camera_multi_step_extrinsic.cpp` prints and shows. -/
structure MultiStepReport (Img : Type) where
  camerasOpt : PrintedOpt
  cameras : List (PrintedTransform × PrintedTransform)
  wristOpt : PrintedOpt
  wristToTarget : PrintedTransform
  corrected : List (PrintedTransform × PrintedTransform)
  views : List (View Img)

/-- The last loop of `multi_static_camera_multi_step_extrinsic.cpp` (221-242) for number `i`. -/
noncomputable def multiStepView {Img : Type} (s : Ceres Pose6) (sets : List (DataSet Img)) (intr : List Intr)
    (obs : List (List (List Corr2))) (d : StepData) (r : WoResult) (n i : Nat) : Res (View Img) :=
  (Res.idxList d.wristPoses i).bind fun wrist =>
  (Res.mapList (fun (c : Nat) => Res.idxList r.baseToCamera c) (List.range n)).bind fun baseToCamera =>
  (Res.mapList (fun (c : Nat) => Res.idxList intr c) (List.range n)).bind fun intr' =>
  (Res.mapList (fun (c : Nat) => (Res.idxList obs c).bind fun oc => Res.idxList oc i) (List.range n)).bind fun cs =>
  (Res.idxList sets 0).bind fun first =>
  (Res.idxList first.images i).bind fun image =>
  reproject s (wrist * r.wristToTarget) baseToCamera intr' image cs

/-- `main` of `multi_static_camera_multi_step_extrinsic.cpp` (82-252). -/
noncomputable def multiStepMain {Img : Type} (W : ToolWorld Img) (junk : Nat → Nat → Nat) (s : Ceres Pose6) :
    Res (Option (MultiStepReport Img)) :=
  toolExit <|
  (cameraCount (W.param "num_of_cameras")).bind fun n =>
  (loadCameras W (loadChecked W.codec W.fs) "base_to_camera_guess" n).bind fun cams =>
  (getBool (W.param "fix_first_camera")).bind fun fixFirst =>
  (loadFinder W).bind fun F =>
  (needPose (W.param "wrist_to_target_guess")).bind fun wristToTarget =>
  let sets := cams.map fun c => c.data
  let intr := cams.map fun c => c.intr
  (buildCorrDataSet F.find F.create F.draw junk sets).bind fun t =>
  (multiStepCollect t sets wristToTarget).bind fun d =>
  let obs := perCamera t.rows d
  (cameraOnly s { fixFirst := fixFirst, intr := intr, baseToTargetGuess := d.targetGuesses, observations := obs,
                  baseToCameraGuess := cams.map fun c => c.pose }).bind fun rc =>
  (printCameras n rc.baseToCamera).bind fun cameras =>
  (wristOnly s { intr := intr, wristPoses := d.wristPoses, observations := obs, wristToTargetGuess := wristToTarget,
                 baseToCameraGuess := rc.baseToCamera }).bind fun rw =>
  (printCameras n rw.baseToCamera).bind fun corrected =>
  (Res.mapList (multiStepView s sets intr obs d rw n) (List.range d.wristPoses.length)).bind fun views =>
  .ok ⟨printOpt rc.converged rc.initialCost rc.finalCost, cameras, printOpt rw.converged rw.initialCost rw.finalCost,
    printTransform rw.wristToTarget, corrected, views⟩

/-- `main` of `solve_multi_camera_pnp.cpp` (87-168): what is shown per image seen by all cameras, with the pose used as guess.
All images are selected before the first optimisation here, one by one in the code. -/
noncomputable def multiPnpMain {Img : Type} (W : ToolWorld Img) (junk : Nat → Nat → Nat) (s : Ceres Pose6) :
    Res (Option (List (Iso × View Img))) :=
  toolExit <|
  (cameraCount (W.param "num_of_cameras")).bind fun n =>
  (loadCameras W (loadChecked W.codec W.fs) "base_to_camera" n).bind fun cams =>
  (loadFinder W).bind fun F =>
  let sets := cams.map fun c => c.data
  (buildCorrDataSet F.find F.create F.draw junk sets).bind fun t =>
  (multiPnpItems t sets n).bind fun items =>
  Res.mapList (fun e : Iso × Img × List (List Corr2) =>
    (reproject s e.1 (cams.map fun c => c.pose) (cams.map fun c => c.intr) e.2.1 e.2.2).bind fun v => .ok (e.1, v)) items

end RCT
