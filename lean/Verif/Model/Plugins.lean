import Verif.Model.Targets
import Verif.Model.CircleDetector
import Verif.Model.Pose
import Verif.Model.Yaml

/-!
# Equality of targets and the target finder plugins

Models the `operator==` of `rct_image_tools/src/rct_image_tools/modified_circle_grid_target.cpp`, `aruco_grid_target.cpp`
and `charuco_grid_target.cpp`, and `rct_ros_tools/src/target_loader_plugins.cpp`. Conversions of scalars to `int` and
`std::size_t` are a parameter (`YInts`); `float` is ℝ. The OpenCV boards are the data they are created with; the
predefined dictionary is its number. Log messages are not modelled.
-/

namespace RCT

/-- `ModifiedCircleGridTarget::operator==` (`modified_circle_grid_target.cpp` 10-18). -/
def CircleTarget.eq (a b : CircleTarget) : Prop :=
  a.rows = b.rows ∧ a.cols = b.cols ∧ |a.spacing - b.spacing| < dblEps

/-- `operator==` of two `std::map`s: the same keys with the same values. -/
def SMap.same {K V : Type} [DecidableEq K] (a b : SMap K V) : Prop := ∀ k, a.find k = b.find k

/-- `ArucoGridTarget` (`rct_image_tools/include/rct_image_tools/aruco_grid_target.h`): the board with its grid size, marker
length, marker separation and dictionary, and the map `points`. -/
structure ArucoTarget where
  width : Int
  height : Int
  markerLength : ℝ
  separation : ℝ
  dictionary : Int
  points : SMap Int (List V3)

/-- `ArucoGridTarget::operator==` (`aruco_grid_target.cpp` 48-62). -/
def ArucoTarget.eq (a b : ArucoTarget) : Prop :=
  b.width = a.width ∧ b.height = a.height ∧ |b.markerLength - a.markerLength| < fltEps ∧
    |b.separation - a.separation| < fltEps ∧ b.points.same a.points

/-- `CharucoGridTarget` (`rct_image_tools/include/rct_image_tools/charuco_grid_target.h`). -/
structure CharucoTarget where
  width : Int
  height : Int
  markerLength : ℝ
  squareLength : ℝ
  dictionary : Int
  points : SMap Nat V3

/-- `CharucoGridTarget::operator==` (`charuco_grid_target.cpp` 45-58). -/
def CharucoTarget.eq (a b : CharucoTarget) : Prop :=
  b.points.same a.points ∧ |b.markerLength - a.markerLength| < fltEps ∧ |b.squareLength - a.squareLength| < fltEps ∧
    b.width = a.width ∧ b.height = a.height

/-! ### target_loader_plugins.cpp -/

/-- Conversions of scalars to integers: `as<int>` and `as<std::size_t>`. -/
structure YInts where
  int : YScalar → Option Int
  size : YScalar → Option Nat

namespace Yaml
/-- `node.as<int>()` -/
def asInt (C : YInts) : Yaml → Res Int
  | scalar s => match C.int s with
    | some i => .ok i
    | none => .throw .yaml
  | _ => .throw .yaml

/-- `node.as<std::size_t>()` -/
def asSize (C : YInts) : Yaml → Res Nat
  | scalar s => match C.size s with
    | some i => .ok i
    | none => .throw .yaml
  | _ => .throw .yaml
end Yaml

/-- `getMember` (`target_loader_plugins.cpp` 12-31) on a node that may be invalid: every exception of yaml-cpp becomes a
`std::runtime_error`. Indexing an invalid node throws `YAML::InvalidNode`. -/
def getMember {α : Type} (n : Option Yaml) (k : String) (dec : Yaml → Res α) : Res α :=
  let r := match n with
    | some n => n.field k dec
    | none => .throw .yaml
  match r with
  | .throw .yaml => .throw .runtimeError
  | r => r

/-- `static_cast<unsigned short>` of an `int`, stored in an `unsigned char`. -/
def toUChar (i : Int) : Nat := (i % 2 ^ 16).toNat % 2 ^ 8

/-- `loadCircleDetectorParams` (`target_loader_plugins.cpp` 38-70). -/
def loadDetectorParams (C : YInts) (n : Option Yaml) : Res DetectorParams :=
  (getMember n "nThresholds" (Yaml.asSize C)).bind fun nThresholds =>
  (getMember n "minThreshold" Yaml.asReal).bind fun minThreshold =>
  (getMember n "maxThreshold" Yaml.asReal).bind fun maxThreshold =>
  (getMember n "minRepeatability" (Yaml.asSize C)).bind fun minRepeatability =>
  (getMember n "circleInclusionRadius" Yaml.asReal).bind fun circleInclusionRadius =>
  (getMember n "maxRadiusDiff" Yaml.asReal).bind fun maxRadiusDiff =>
  (getMember n "maxAverageEllipseError" Yaml.asReal).bind fun maxAverageEllipseError =>
  (getMember n "filterByColor" Yaml.asBool).bind fun filterByColor =>
  (getMember n "circleColor" (Yaml.asInt C)).bind fun circleColor =>
  (getMember n "filterByArea" Yaml.asBool).bind fun filterByArea =>
  (getMember n "minArea" Yaml.asReal).bind fun minArea =>
  (getMember n "maxArea" Yaml.asReal).bind fun maxArea =>
  (getMember n "filterByCircularity" Yaml.asBool).bind fun filterByCircularity =>
  (getMember n "minCircularity" Yaml.asReal).bind fun minCircularity =>
  (getMember n "maxCircularity" Yaml.asReal).bind fun maxCircularity =>
  (getMember n "filterByInertia" Yaml.asBool).bind fun filterByInertia =>
  (getMember n "minInertiaRatio" Yaml.asReal).bind fun minInertiaRatio =>
  (getMember n "maxInertiaRatio" Yaml.asReal).bind fun maxInertiaRatio =>
  (getMember n "filterByConvexity" Yaml.asBool).bind fun filterByConvexity =>
  (getMember n "minConvexity" Yaml.asReal).bind fun minConvexity =>
  (getMember n "maxConvexity" Yaml.asReal).bind fun maxConvexity =>
  .ok
    { minThreshold := minThreshold, maxThreshold := maxThreshold, nThresholds := nThresholds
      minRepeatability := minRepeatability, circleInclusionRadius := circleInclusionRadius
      maxRadiusDiff := maxRadiusDiff, maxAverageEllipseError := maxAverageEllipseError
      filterByColor := filterByColor, circleColor := toUChar circleColor
      filterByArea := filterByArea, minArea := minArea, maxArea := maxArea
      filterByCircularity := filterByCircularity, minCircularity := minCircularity, maxCircularity := maxCircularity
      filterByInertia := filterByInertia, minInertiaRatio := minInertiaRatio, maxInertiaRatio := maxInertiaRatio
      filterByConvexity := filterByConvexity, minConvexity := minConvexity, maxConvexity := maxConvexity }

/-- `ModifiedCircleGridTargetFinderPlugin::init` (`target_loader_plugins.cpp` 81-101): the target and the detector
parameters of the finder it creates. `ModifiedCircleGridTarget` takes `unsigned` numbers. `config["circle_detector_params"]`
throws if `config` is a scalar, but then the conversions before it have failed. -/
noncomputable def circlePluginInit (C : YInts) (config : Yaml) : Res (CircleTarget × DetectorParams) :=
  (config.field "rows" (Yaml.asInt C)).bind fun rows =>
  (config.field "cols" (Yaml.asInt C)).bind fun cols =>
  (config.field "spacing" Yaml.asReal).bind fun spacing =>
  let target : CircleTarget := ⟨toU32 rows, toU32 cols, spacing⟩
  match (config.key "circle_detector_params").bind (loadDetectorParams C) with
  | .ok params => .ok (target, params)
  | .throw _ => .ok (target, {})
  | .abort => .abort
  | .ub => .ub

/-- Arguments of `cv::aruco::CharucoBoard::create` (`charuco_grid_target.cpp` 26-38). -/
structure CharucoArgs where
  squaresX : Int
  squaresY : Int
  squareLength : ℝ
  markerLength : ℝ
  dictionary : Int

/-- `CharucoGridTargetFinderPlugin::init` (`target_loader_plugins.cpp` 109-119) up to the creation of the board. -/
def charucoPluginInit (C : YInts) (config : Yaml) : Res CharucoArgs :=
  (config.field "cols" (Yaml.asInt C)).bind fun cols =>
  (config.field "rows" (Yaml.asInt C)).bind fun rows =>
  (config.field "chessboard_dim" Yaml.asReal).bind fun chessboardDim =>
  (config.field "aruco_marker_dim" Yaml.asReal).bind fun arucoMarkerDim =>
  (config.field "dictionary" (Yaml.asInt C)).bind fun dictionary =>
  .ok ⟨cols, rows, chessboardDim, arucoMarkerDim, dictionary⟩

/-! ### Drawing of the found markers -/

/-- `ArucoGridBoardTargetFinder::drawTargetFeatures` (`aruco_finder.cpp` 40-56): ids and corners given to OpenCV. -/
def arucoDrawn (fs : TargetFeatures) : List Int × List (List V2) := (fs.map fun e => u32ToInt e.1, fs.map Prod.snd)

/-- `CharucoGridBoardTargetFinder::drawTargetFeatures` (`charuco_finder.cpp` 48-71). -/
def charucoDrawn (fs : TargetFeatures) : Res (List Int × List V2) :=
  (Res.mapList (fun e : Nat × List V2 => Res.atList e.2 0) fs).bind fun us => .ok (fs.map fun e => u32ToInt e.1, us)

end RCT
