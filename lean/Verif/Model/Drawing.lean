import Verif.Model.CircleDetector
import Verif.Model.DataSet

/-!
# Drawing of found circles, and the test program of the finder

`CircleDetector::drawDetectedCircles` (`rct_image_tools/src/rct_image_tools/circle_detector.cpp`),
`renderObservations` and `drawTargetFeatures` (`modified_circle_grid_finder.cpp`), `rct_image_tools/src/target_finder_tests.cpp`.

What is drawn is a list of shapes and labels with their positions in the image; colours, fonts, line widths, the rounding of
positions to pixels and the display are left out. `cv::drawContours`, `cv::drawKeypoints`, `cv::putText` and `cv::circle` are taken
to succeed; `cv::drawChessboardCorners` reads as many points as the pattern has corners.
-/

namespace RCT

/-- `findCircles` with the contours (`circle_detector.cpp` 75-220): `centers` and `contours` grow together (213-214). -/
noncomputable def findShown (w : ImageOps) (p : DetectorParams) (threshold : ℝ) : Res (List (Center × List PixelPt)) :=
  (Res.mapList (fun c => (contourCircle w p threshold c).bind fun o => .ok (o.map fun x => (x, c)))
    ((w.contours threshold).filter fun c => ¬ c.length < 5)).bind fun os => .ok (os.filterMap id)

/-- What `drawDetectedCircles` draws: contours, and key points. -/
structure CirclesDrawn where
  contours : List (List PixelPt)
  keyPoints : List KeyPointF

/-- `CircleDetector::drawDetectedCircles` on a grey image (`circle_detector.cpp` 393-426); the thresholds are applied again
(`applyThresholds`, 228-264). -/
noncomputable def drawDetectedCircles (w : ImageOps) (p : DetectorParams) : Res CirclesDrawn :=
  (if p.minRepeatability > p.nThresholds then .throw .runtimeError
    else Res.mapList (fun i => findShown w p (thresholdAt p i)) (List.range p.nThresholds)).bind fun results =>
  .ok ⟨results.flatMap fun r => r.map Prod.snd, detectKeyPoints (results.map fun r => r.map Prod.fst) p⟩

/-- What `renderObservations` adds: the corners of the pattern, joined in this order, and the labelled points. -/
structure GridDrawn where
  corners : List V2
  labels : List (String × V2)

/-- The number of points that `cv::drawChessboardCorners` reads (`modified_circle_grid_finder.cpp` 35-40): the size of the pattern
is converted to `int`. -/
def patternSize (t : CircleTarget) : Nat := (u32ToInt t.cols).toNat * (u32ToInt t.rows).toNat

/-- `target.rows * target.cols - target.cols` (`modified_circle_grid_finder.cpp` 45), a 32 bit value. -/
def originIndex (t : CircleTarget) : Nat := (t.rows * t.cols % 2 ^ 32 + 2 ^ 32 - t.cols % 2 ^ 32) % 2 ^ 32

/-- `renderObservations` (`modified_circle_grid_finder.cpp` 27-51). -/
def renderObservations (pts : List V2) (t : CircleTarget) : Res GridDrawn :=
  if pts = [] then .ok ⟨[], []⟩ else
  (Res.mapList (Res.idxList pts) (List.range (patternSize t))).bind fun corners =>
  (Res.idxList pts 0).bind fun first =>
  (Res.idxList pts (originIndex t)).bind fun origin =>
  (Res.idxList pts (pts.length - 1)).bind fun last =>
  .ok ⟨corners, [("First Point", first), ("Origin", origin), ("Last Point", last)]⟩

/-- `ModifiedCircleGridTargetFinder::drawTargetFeatures` (`modified_circle_grid_finder.cpp` 429-447). -/
noncomputable def circleDraw (w : ImageOps) (p : DetectorParams) (t : CircleTarget) (fs : TargetFeatures) :
    Res (CirclesDrawn × GridDrawn) :=
  (drawDetectedCircles w p).bind fun d =>
  (Res.mapList (fun e : Nat × List V2 => Res.atList e.2 0) fs).bind fun pts =>
  (renderObservations pts t).bind fun g => .ok (d, g)

/-- Conversion of an `int` argument to the `unsigned` parameter of the constructor of the target. -/
def intToU32 (n : Int) : Nat := (n % 2 ^ 32).toNat

/-- What the test program ends with. -/
inductive TestExit where
  /-- exit code 1: wrong number of arguments -/
  | usage
  /-- exit code 0 after printing the message of an exception -/
  | failed
  /-- exit code 0 after printing the number of features and showing them -/
  | shown (features : Nat) (drawing : CirclesDrawn × GridDrawn)

/-- `main` of `target_finder_tests.cpp` (5-46). `stoi` is `std::stoi`, whose exceptions are not caught, `image` is what is read from the
file; `find` and `detections` stand for OpenCV as in `circleFeatures`. -/
noncomputable def finderTestMain (args : List String) (stoi : String → Res Int) (image : String → ImageOps)
    (find : ImageOps → Nat → Nat → Bool × List V2) (detections : ImageOps → List (List KeyPoint)) : Res TestExit :=
  match args with
  | [_, path, rowsArg, colsArg] =>
    let run : Res TestExit := (stoi rowsArg).bind fun rows =>
      (stoi colsArg).bind fun cols =>
      let m := image path
      let t : CircleTarget := ⟨intToU32 rows, intToU32 cols, 1 / 100⟩
      ((circleFeatures (find m) (detections m) t).bind fun obs =>
        (circleDraw m {} t obs).bind fun d => .ok (TestExit.shown obs.length d)).tryCatch (fun _ => true) .failed
    match run with
    | .throw _ => .abort
    | r => r
  | _ => .ok .usage

end RCT
