import Verif.Model.CircleGrid

/-!
# The circle detector

`rct_image_tools/src/rct_image_tools/circle_detector.cpp`, `rct_image_tools/include/rct_image_tools/circle_detector.h`.

Simplifications: `float` and `double` are real numbers, except that divisions can give infinities and NaN (`FRatio`);
`exists` (lines 281-304) returns its index as `int`, which is taken to be large enough; colour conversion is left out
(the image is grey); contours kept only for drawing are left out here (see `Model/Drawing.lean`). Contour extraction,
moments, arc length, hull area, contour area and ellipse fit of OpenCV are parameters (`ImageOps`).
-/

namespace RCT

namespace FRatio

/-- IEEE `r < x` for a finite `x`. -/
def Lt : FRatio → ℝ → Prop
  | .fin a, x => a < x
  | .negInf, _ => True
  | _, _ => False

/-- IEEE `r >= x` for a finite `x`. -/
def Ge : FRatio → ℝ → Prop
  | .fin a, x => x ≤ a
  | .posInf, _ => True
  | _, _ => False

/-- IEEE negation of a value. -/
noncomputable def neg : FRatio → FRatio
  | .fin a => .fin (-a)
  | .posInf => .negInf
  | .negInf => .posInf
  | .nan => .nan

open Classical in
/-- IEEE `r * x` for a finite `x`. -/
noncomputable def scale (r : FRatio) (x : ℝ) : FRatio :=
  match r with
  | .fin a => .fin (a * x)
  | .nan => .nan
  | .posInf => if x = 0 then .nan else if 0 < x then .posInf else .negInf
  | .negInf => if x = 0 then .nan else if 0 < x then .negInf else .posInf

/-- IEEE addition. -/
noncomputable def add : FRatio → FRatio → FRatio
  | .fin a, .fin b => .fin (a + b)
  | .nan, _ => .nan
  | _, .nan => .nan
  | .posInf, .negInf => .nan
  | .negInf, .posInf => .nan
  | .posInf, _ => .posInf
  | _, .posInf => .posInf
  | .negInf, _ => .negInf
  | _, .negInf => .negInf

open Classical in
/-- IEEE division (zeros are positive). -/
noncomputable def quot : FRatio → FRatio → FRatio
  | .fin a, .fin b => div a b
  | .nan, _ => .nan
  | _, .nan => .nan
  | .fin _, _ => .fin 0
  | .posInf, .fin b => if 0 ≤ b then .posInf else .negInf
  | .negInf, .fin b => if 0 ≤ b then .negInf else .posInf
  | _, _ => .nan

end FRatio

/-- `CircleDetectorParams` (`circle_detector.h` 10-64). -/
structure DetectorParams where
  minThreshold : ℝ := 50
  maxThreshold : ℝ := 220
  nThresholds : Nat := 18
  minRepeatability : Nat := 3
  circleInclusionRadius : ℝ := 5
  maxRadiusDiff : ℝ := 5
  maxAverageEllipseError : ℝ := 2 / 100
  filterByColor : Bool := true
  circleColor : Nat := 0
  filterByArea : Bool := true
  minArea : ℝ := 25
  maxArea : ℝ := 5000
  filterByCircularity : Bool := false
  minCircularity : ℝ := 8 / 10
  maxCircularity : ℝ := (2 - 1 / 2 ^ 23) * 2 ^ 127
  filterByInertia : Bool := false
  minInertiaRatio : ℝ := 3 / 10
  maxInertiaRatio : ℝ := (2 - 1 / 2 ^ 23) * 2 ^ 127
  filterByConvexity : Bool := true
  minConvexity : ℝ := 95 / 100
  maxConvexity : ℝ := (2 - 1 / 2 ^ 23) * 2 ^ 127

/-- `cv::Point`. -/
structure PixelPt where
  x : Int
  y : Int

/-- The used entries of `cv::Moments`. -/
structure Moments where
  m00 : ℝ
  mu11 : ℝ
  mu20 : ℝ
  mu02 : ℝ

/-- `cv::RotatedRect`, `angle` in degrees. -/
structure RotRect where
  center : V2
  width : ℝ
  height : ℝ
  angle : ℝ

/-- A grey image and the OpenCV functions applied to it and to its contours. -/
structure ImageOps where
  rows : Nat
  cols : Nat
  /-- grey value at row, column -/
  px : Nat → Nat → Nat
  /-- `cv::findContours` on the image binarised at a threshold -/
  contours : ℝ → List (List PixelPt)
  moments : List PixelPt → Moments
  arcLength : List PixelPt → ℝ
  contourArea : List PixelPt → ℝ
  convexHull : List PixelPt → List PixelPt
  fitEllipse : List PixelPt → RotRect
  cvRound : ℝ → Int

/-- `CircleDetector::Center` (`circle_detector.h` 71-76). -/
structure Center where
  location : V2
  radius : ℝ
  confidence : FRatio

/-- `binarized_image.at<uchar>(row, col)` after `cv::threshold(…, 255, THRESH_BINARY)` (`circle_detector.cpp` 80-81, 170).
Reading outside the image is undefined. -/
noncomputable def ImageOps.binAt (w : ImageOps) (threshold : ℝ) (row col : Int) : Res Nat :=
  if 0 ≤ row ∧ row < w.rows ∧ 0 ≤ col ∧ col < w.cols then
    .ok (open Classical in if threshold < w.px row.toNat col.toNat then 255 else 0)
  else .ub

open Classical in
/-- The ratio of the inertia filter (`circle_detector.cpp` 129-146). -/
noncomputable def inertiaRatio (m : Moments) : FRatio :=
  let denominator := Real.sqrt ((2 * m.mu11) ^ 2 + (m.mu20 - m.mu02) ^ 2)
  if denominator > 1 / 100 then
    let cosmin := (m.mu20 - m.mu02) / denominator
    let sinmin := 2 * m.mu11 / denominator
    let cosmax := -cosmin
    let sinmax := -sinmin
    let imin := 1 / 2 * (m.mu20 + m.mu02) - 1 / 2 * (m.mu20 - m.mu02) * cosmin - m.mu11 * sinmin
    let imax := 1 / 2 * (m.mu20 + m.mu02) - 1 / 2 * (m.mu20 - m.mu02) * cosmax - m.mu11 * sinmax
    FRatio.div imin imax
  else .fin 1

/-- The value `one` of the ellipse equation for a contour point (`circle_detector.cpp` 188-197), for non-zero axes. -/
noncomputable def ellipseValue (box : RotRect) (pt : PixelPt) : ℝ :=
  let angle := box.angle * Real.pi / 180
  let a := box.width / 2
  let b := box.height / 2
  let vx := (pt.x : ℝ) - box.center.x
  let vy := (pt.y : ℝ) - box.center.y
  let x := vx * Real.cos angle + vy * Real.sin angle
  let y := vx * Real.sin angle - vy * Real.cos angle
  Real.sqrt (x ^ 2 / a ^ 2 + y ^ 2 / b ^ 2)

open Classical in
/-- `err` (`circle_detector.cpp` 175-205). With an axis of length zero the code computes an infinity or NaN; both are
represented by NaN here, because `err` is only compared with `<` in that case. -/
noncomputable def ellipseError (box : RotRect) (contour : List PixelPt) : FRatio :=
  if box.width = 0 ∨ box.height = 0 ∨ contour.length = 0 then .nan
  else .fin |((contour.map (ellipseValue box)).foldl (· + ·) 0) / contour.length - 1|

open Classical in
/-- The body of the loop over contours (`circle_detector.cpp` 99-217): a centre, or nothing after `continue`. -/
noncomputable def contourCircle (w : ImageOps) (p : DetectorParams) (threshold : ℝ) (contour : List PixelPt) :
    Res (Option Center) :=
  let moms := w.moments contour
  if p.filterByArea = true ∧ (moms.m00 < p.minArea ∨ moms.m00 ≥ p.maxArea) then .ok none else
  let circularity := FRatio.div (4 * Real.pi * moms.m00) (w.arcLength contour * w.arcLength contour)
  if p.filterByCircularity = true ∧ (circularity.Lt p.minCircularity ∨ circularity.Ge p.maxCircularity) then .ok none else
  let inertia := inertiaRatio moms
  if p.filterByInertia = true ∧ (inertia.Lt p.minInertiaRatio ∨ inertia.Ge p.maxInertiaRatio) then .ok none else
  let convexity := FRatio.div (w.contourArea contour) (w.contourArea (w.convexHull contour))
  if p.filterByConvexity = true ∧ (convexity.Lt p.minConvexity ∨ convexity.Ge p.maxConvexity) then .ok none else
  let box := w.fitEllipse contour
  (if p.filterByColor = true then
      (w.binAt threshold (w.cvRound box.center.y) (w.cvRound box.center.x)).bind fun c => .ok (decide (c ≠ p.circleColor))
    else .ok false).bind fun wrongColor =>
  if wrongColor then .ok none else
  match ellipseError box contour with
  | .fin err =>
    if err < p.maxAverageEllipseError then
      .ok (some ⟨box.center, (box.height + box.width) / 4, FRatio.div 1 err⟩)
    else .ok none
  | _ => .ok none

/-- `findCircles` (`circle_detector.cpp` 75-220). -/
noncomputable def findCircles (w : ImageOps) (p : DetectorParams) (threshold : ℝ) : Res (List Center) :=
  (Res.mapList (contourCircle w p threshold) ((w.contours threshold).filter fun c => ¬ c.length < 5)).bind fun os =>
    .ok (os.filterMap id)

/-- The threshold of step `i` (`circle_detector.cpp` 246-256). -/
noncomputable def thresholdAt (p : DetectorParams) (i : Nat) : ℝ :=
  let range := p.maxThreshold - p.minThreshold
  if p.nThresholds < 2 then p.minThreshold + range / 2
  else p.minThreshold + (i : ℝ) / ((p.nThresholds - 1 : Nat) : ℝ) * range

/-- `applyThresholds` (`circle_detector.cpp` 228-264). -/
noncomputable def applyThresholds (w : ImageOps) (p : DetectorParams) : Res (List (List Center)) :=
  if p.minRepeatability > p.nThresholds then .throw .runtimeError
  else Res.mapList (fun i => findCircles w p (thresholdAt p i)) (List.range p.nThresholds)

/-- The comparison of two centres in `exists` (`circle_detector.cpp` 290-301), `existing` first. -/
def nearCenter (p : DetectorParams) (existing c : Center) : Prop :=
  Real.sqrt ((existing.location.x - c.location.x) ^ 2 + (existing.location.y - c.location.y) ^ 2)
      ≤ p.circleInclusionRadius ∧
    |existing.radius - c.radius| ≤ p.maxRadiusDiff

open Classical in
/-- `exists` and the following insertion (`circle_detector.cpp` 281-304, 316-331): the centre is appended to the first
group whose first member is near, or starts a new group at the end. -/
noncomputable def insertGroup {α : Type} (near : α → α → Prop) (c : α) : List (List α) → List (List α)
  | [] => [[c]]
  | [] :: gs => [] :: insertGroup near c gs
  | (f :: g) :: gs => if near f c then (f :: g ++ [c]) :: gs else (f :: g) :: insertGroup near c gs

/-- The grouping loops (`circle_detector.cpp` 307-332). -/
noncomputable def groupCenters {α : Type} (near : α → α → Prop) (all : List (List α)) : List (List α) :=
  all.foldl (fun gs centers => centers.foldl (fun gs c => insertGroup near c gs) gs) []

/-- A detected `cv::KeyPoint`, possibly not finite. -/
structure KeyPointF where
  x : FRatio
  y : FRatio
  size : FRatio

/-- The weighted average of a group (`circle_detector.cpp` 344-356). -/
noncomputable def averageGroup (g : List Center) : KeyPointF :=
  let sx := g.foldl (fun (s : FRatio) c => s.add (c.confidence.scale c.location.x)) (.fin 0)
  let sy := g.foldl (fun (s : FRatio) c => s.add (c.confidence.scale c.location.y)) (.fin 0)
  let sr := g.foldl (fun (s : FRatio) c => s.add (c.confidence.scale c.radius)) (.fin 0)
  let n := g.foldl (fun (s : FRatio) c => s.add c.confidence) (.fin 0)
  ⟨sx.quot n, sy.quot n, (sr.quot n).scale 2⟩

/-- `detectKeyPoints` (`circle_detector.cpp` 274-360). -/
noncomputable def detectKeyPoints (all : List (List Center)) (p : DetectorParams) : List KeyPointF :=
  ((groupCenters (nearCenter p) all).filter fun g => p.minRepeatability ≤ g.length).map averageGroup

/-- `CircleDetector::detect` on a grey image (`circle_detector.cpp` 368-391). -/
noncomputable def detect (w : ImageOps) (p : DetectorParams) : Res (List KeyPointF) :=
  (applyThresholds w p).bind fun all => .ok (detectKeyPoints all p)

end RCT
