import Verif.Model.HandEye
import Verif.Core.Std

/-!
# Calibration targets and the feature maps of the marker finders

Models the parts of `rct_image_tools/src/rct_image_tools` that number target points and pair them with image features:
`modified_circle_grid_target.cpp`, `aruco_grid_target.cpp`, `charuco_grid_target.cpp`, `aruco_finder.cpp`,
`charuco_finder.cpp`, and `rct_image_tools/include/rct_image_tools/image_utils.h`.

The OpenCV boards and detectors are inputs: a board is its list of ids and object points, a detection is the list of ids
and corners OpenCV returned. `float` is ℝ. The `assert`s are disabled in release builds and not modelled.
-/

namespace RCT

/-- Conversion of an `int` to `unsigned` (32 bit): reduction modulo 2^32. -/
def toU32 (i : Int) : Nat := (i % 2 ^ 32).toNat

/-- Conversion of an `unsigned` to `int` (32 bit, two's complement). -/
def u32ToInt (n : Nat) : Int := if n < 2 ^ 31 then (n : Int) else (n : Int) - 2 ^ 32

/-- `TargetFeatures`: feature id (`unsigned`) to image points, listed in iteration order
(`rct_image_tools/include/rct_image_tools/target_features.h`). -/
abbrev TargetFeatures := SMap Nat (List V2)

/-- A new entry of a `std::map`: the entries are kept in the order of their keys. -/
def SMap.place {K V : Type _} [LT K] [DecidableLT K] (k : K) (v : V) : SMap K V → SMap K V
  | [] => [(k, v)]
  | e :: m => if k < e.1 then (k, v) :: e :: m else e :: SMap.place k v m

/-- `std::map::emplace` / `insert`: an existing entry is left alone. -/
def SMap.emplace {K V : Type _} [DecidableEq K] [LT K] [DecidableLT K] (m : SMap K V) (k : K) (v : V) : SMap K V :=
  match m.find k with
  | some _ => m
  | none => SMap.place k v m

/-- `ModifiedCircleGridTarget` (`rct_image_tools/include/rct_image_tools/modified_circle_grid_target.h`);
`rows` and `cols` are `unsigned`. -/
structure CircleTarget where
  rows : Nat
  cols : Nat
  spacing : ℝ

/-- `ModifiedCircleGridTarget::createPoints` (`modified_circle_grid_target.cpp` 41-60). The bound `rows + 1` is a 32 bit
sum; `rows - i` is a `size_t` and does not wrap because `i ≤ rows` in the loop. -/
noncomputable def CircleTarget.createPoints (t : CircleTarget) : List V3 :=
  ((List.range ((t.rows + 1) % 2 ^ 32 - 1)).map (· + 1)).flatMap fun i =>
    (List.range t.cols).map fun (j : Nat) => ⟨(j : ℝ) * t.spacing, ((t.rows - i : Nat) : ℝ) * t.spacing, 0⟩

/-- `ModifiedCircleGridTarget::createCorrespondences` (`modified_circle_grid_target.cpp` 20-39), without the assertion. -/
noncomputable def CircleTarget.createCorrespondences (t : CircleTarget) (fs : TargetFeatures) : Res (List Corr2) :=
  let points := t.createPoints
  Res.mapList (fun i =>
    (Res.atList points i).bind fun p =>
    (SMap.at' fs i).bind fun l =>
    (Res.atList l 0).bind fun u => Res.ok { inImage := u, inTarget := p }) (List.range points.length)

/-- An ArUco grid board as OpenCV describes it: marker ids and the object points of each marker. -/
structure ArucoBoard where
  ids : List Int
  objPoints : List (List V3)

/-- `mapArucoIdsToObjPts` (`aruco_grid_target.cpp` 11-26). -/
def arucoPoints (b : ArucoBoard) : Res (SMap Int (List V3)) :=
  Res.foldList (fun m i =>
    (Res.idxList b.objPoints i).bind fun pts =>
    (Res.idxList b.ids i).bind fun id => Res.ok (m.emplace id pts)) [] (List.range b.ids.length)

/-- `ArucoGridTarget::createCorrespondences` (`aruco_grid_target.cpp` 64-81) with the member `points`. -/
def arucoCorrespondences (points : SMap Int (List V3)) (fs : TargetFeatures) : Res (List Corr2) :=
  (Res.mapList (fun e : Nat × List V2 =>
    Res.mapList (fun i =>
      (SMap.at' points (u32ToInt e.1)).bind fun ps =>
      (Res.atList ps i).bind fun p =>
      (SMap.at' fs e.1).bind fun us =>
      (Res.atList us i).bind fun u => Res.ok ({ inImage := u, inTarget := p } : Corr2)) (List.range e.2.length)) fs).bind
    fun ls => Res.ok ls.flatten

/-- `mapCharucoIdsToObjPts` (`charuco_grid_target.cpp` 11-21): the key is the `size_t` index converted to `unsigned`. -/
def charucoPoints (corners : List V3) : Res (SMap Nat V3) :=
  Res.foldList (fun m i => (Res.atList corners i).bind fun p => Res.ok (m.emplace (i % 2 ^ 32) p)) []
    (List.range corners.length)

/-- `CharucoGridTarget::createCorrespondences` (`charuco_grid_target.cpp` 60-75) with the member `points`. -/
def charucoCorrespondences (points : SMap Nat V3) (fs : TargetFeatures) : Res (List Corr2) :=
  Res.mapList (fun e : Nat × List V2 =>
    (SMap.at' points e.1).bind fun p =>
    (SMap.at' fs e.1).bind fun us =>
    (Res.atList us 0).bind fun u => Res.ok { inImage := u, inTarget := p }) fs

/-- `ArucoGridBoardTargetFinder::findTargetFeatures` (`aruco_finder.cpp` 14-38), loop over the detection result.
The four slots of `obs_pts` are filled from the corners of the marker; more than four corners write out of range, fewer
leave slots uninitialised, so only four are defined. -/
def arucoFeatures (ids : List Int) (corners : List (List V2)) : Res TargetFeatures :=
  Res.foldList (fun m i =>
    (Res.idxList corners i).bind fun pts =>
    if pts.length = 4 then
      (Res.idxList ids i).bind fun id => Res.ok (m.emplace (toU32 id) pts)
    else Res.ub) [] (List.range ids.length)

/-- `CharucoGridBoardTargetFinder::findTargetFeatures` (`charuco_finder.cpp` 13-46): `markers` is the number of ArUco
markers found; `detected`, `corners` and `ids` are what `interpolateCornersCharuco` returned. -/
def charucoFeatures (markers : Nat) (detected : Int) (corners : List V2) (ids : List Int) : Res TargetFeatures :=
  if markers = 0 then Res.throw .runtimeError
  else
    Res.foldList (fun m i =>
      (Res.atList corners i).bind fun c =>
      (Res.idxList ids i).bind fun id => Res.ok (m.emplace (toU32 id) [c])) [] (List.range (toU32 detected))

/-- `getReprojections` (`image_utils.h` 18-33). -/
noncomputable def getReprojections (cameraToTarget : Iso) (intr : Intr) (pts : List V3) : List V2 :=
  pts.map fun p => projectPoint intr (cameraToTarget.apply p)

end RCT
