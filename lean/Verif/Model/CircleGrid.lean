import Verif.Model.Targets
import Verif.Model.Covariance

/-!
# The finder of the modified circle grid

Models `rct_image_tools/src/rct_image_tools/modified_circle_grid_finder.cpp`.

The circle detector and `cv::findCirclesGrid` are inputs: `detections` lists the key points found for the brightness and
contrast settings in the order in which they are tried; `find` gives the outcome of the grid search for a pattern size.
`float` and `double` are ℝ, so the conversions between `Point2d` and `Point2f` are the identity; the two tolerances of
`isEqual` are the machine epsilons of the two types. The unqualified `abs` of `isEqual` is read as the absolute value of
floating point numbers (with headers that only declare the C function for `int`, it would truncate differences below 1 to 0). Sizes are below 2^31, so that the casts to `int` in the loops are
exact. The variable `large_point` is never used and is not modelled.
-/

namespace RCT

/-- Result of a floating point division of finite numbers. -/
inductive FRatio where
  | fin (x : ℝ)
  | posInf
  | negInf
  | nan

namespace FRatio

open Classical in
/-- IEEE division of `a` by `b` for finite `a` and `b` (zeros are positive). -/
noncomputable def div (a b : ℝ) : FRatio :=
  if b ≠ 0 then .fin (a / b) else if a = 0 then .nan else if 0 < a then .posInf else .negInf

/-- IEEE `(a + b) / 2.0`. -/
noncomputable def mean : FRatio → FRatio → FRatio
  | .fin a, .fin b => .fin ((a + b) / 2)
  | .nan, _ => .nan
  | _, .nan => .nan
  | .posInf, .negInf => .nan
  | .negInf, .posInf => .nan
  | .posInf, _ => .posInf
  | _, .posInf => .posInf
  | .negInf, _ => .negInf
  | _, .negInf => .negInf

/-- IEEE `a > b`. -/
def Gt : FRatio → FRatio → Prop
  | .fin a, .fin b => b < a
  | .posInf, .fin _ => True
  | .posInf, .negInf => True
  | .fin _, .negInf => True
  | _, _ => False

end FRatio

/-- `cv::KeyPoint`: centre and diameter. -/
structure KeyPoint where
  pt : V2
  size : ℝ

/-- Machine epsilon of `float`. -/
noncomputable def fltEps : ℝ := 1 / 2 ^ 23

/-- `isEqual` of both coordinates (`modified_circle_grid_finder.cpp` 6-10) with tolerance `tol`. -/
def ptEqual (tol : ℝ) (a b : V2) : Prop := |a.x - b.x| < tol ∧ |a.y - b.y| < tol

/-- The key points used (75-96): those of the first setting with at least `n` of them, otherwise those of the last
setting tried. -/
def pickKeyPoints (n : Nat) : List (List KeyPoint) → List KeyPoint
  | [] => []
  | [ks] => ks
  | ks :: rest => if n ≤ ks.length then ks else pickKeyPoints n rest

open Classical in
/-- Erase the first element that satisfies `p`, if any. -/
noncomputable def eraseFirst {α : Type _} (p : α → Prop) : List α → List α
  | [] => []
  | a :: l => if p a then l else a :: eraseFirst p l

/-- The centres without a key point (101-112): every key point removes the first centre equal to it. -/
noncomputable def unmatched (centers : List V2) (ks : List KeyPoint) : List V2 :=
  ks.foldl (fun l k => eraseFirst (fun c => ptEqual fltEps c k.pt) l) centers

open Classical in
/-- Set the entry of the first centre that satisfies `p`. -/
noncomputable def setFirst (p : V2 → Prop) (v : ℝ) : List V2 → List ℝ → List ℝ
  | c :: cs, s :: ss => if p c then v :: ss else s :: setFirst p v cs ss
  | _, ss => ss

/-- `feature_sizes` (136-153). -/
noncomputable def featureSizes (centers : List V2) (ks : List KeyPoint) : List ℝ :=
  ks.foldl (fun ss k => setFirst (fun c => ptEqual dblEps c k.pt) k.size centers ss) (centers.map fun _ => 0)

/-- The four corners, named after the variables of the code. -/
inductive Corner where
  | startLast
  | endFirst
  | endLast
  | startFirst
deriving DecidableEq

/-- Index of a corner (119-122), `std::size_t` arithmetic. -/
def cornerIdx (rows cols : Nat) : Corner → Nat
  | .startFirst => 0
  | .endFirst => szSub cols 1
  | .startLast => szSub (szMul rows cols) cols
  | .endLast => szSub (szMul rows cols) 1

/-- The two neighbours with which the size of a corner is compared (156-188). -/
def cornerNbrs (rows cols : Nat) : Corner → Nat × Nat
  | .startLast => (cornerIdx rows cols .startLast + 1, szSub (cornerIdx rows cols .startLast) cols)
  | .endLast => (szSub (cornerIdx rows cols .endLast) 1, szSub (cornerIdx rows cols .endLast) cols)
  | .startFirst => (cornerIdx rows cols .startFirst + 1, cornerIdx rows cols .startFirst + cols)
  | .endFirst => (szSub (cornerIdx rows cols .endFirst) 1, cornerIdx rows cols .endFirst + cols)

/-- Average relative size of a corner (156-188); the reads are unchecked. -/
noncomputable def relSize (sizes : List ℝ) (rows cols : Nat) (c : Corner) : Res FRatio :=
  (Res.idxList sizes (cornerIdx rows cols c)).bind fun s =>
  (Res.idxList sizes (cornerNbrs rows cols c).1).bind fun a =>
  (Res.idxList sizes (cornerNbrs rows cols c).2).bind fun b =>
  Res.ok (FRatio.mean (FRatio.div s a) (FRatio.div s b))

open Classical in
/-- The corner judged to be the large circle (the conditions at 223-225, 261-263, 299-301, 337-339). -/
noncomputable def judge (sl ef el sf : FRatio) : Option Corner :=
  if sl.Gt sf ∧ sl.Gt ef ∧ sl.Gt el then some .startLast
  else if ef.Gt el ∧ ef.Gt sl ∧ ef.Gt sf then some .endFirst
  else if el.Gt sl ∧ el.Gt ef ∧ el.Gt sf then some .endLast
  else if sf.Gt el ∧ sf.Gt ef ∧ sf.Gt sl then some .startFirst
  else none

open Classical in
/-- `usual_ordering` (198-213). -/
noncomputable def usualOrdering (sl el ef : V2) : Bool :=
  let v1x := el.x - sl.x
  let v1y := -el.y + sl.y
  let v2x := ef.x - el.x
  let v2y := -ef.y + el.y
  if v1x * v2y - v1y * v2x < 0 then false else true

/-- Loop counters `0 … n-1`, ascending or descending. -/
def counters (desc : Bool) (n : Nat) : List Nat := if desc then (List.range n).reverse else List.range n

/-- The two nested loops over columns `j` and rows `k` with the index `k * temp_cols + j`. -/
def columnsFirst (descJ descK : Bool) (tempRows tempCols : Nat) : List Nat :=
  (counters descJ tempCols).flatMap fun j => (counters descK tempRows).map fun k => k * tempCols + j

/-- The indices of the centres in the order in which the eight branches (216-349) output them;
`n` is the number of centres. -/
def orderIndices (c : Corner) (usual : Bool) (tempRows tempCols n : Nat) : List Nat :=
  match c, usual with
  | .startLast, true => List.range n
  | .startLast, false => columnsFirst true true tempRows tempCols
  | .endFirst, true => (List.range n).reverse
  | .endFirst, false => columnsFirst false false tempRows tempCols
  | .endLast, true => columnsFirst false true tempRows tempCols
  | .endLast, false => columnsFirst false false tempRows tempCols
  | .startFirst, true => columnsFirst true false tempRows tempCols
  | .startFirst, false => columnsFirst true true tempRows tempCols

/-- What `extractKeyPoints` decides before it outputs the points. -/
structure GridDecision where
  corner : Corner
  usual : Bool

/-- The decision part of `extractKeyPoints` (75-213 and the conditions of the branches). -/
noncomputable def gridDecision (detections : List (List KeyPoint)) (centers : List V2) (rows cols : Nat) :
    Res GridDecision :=
  let ks := pickKeyPoints (szMul rows cols) detections
  if unmatched centers ks ≠ [] then Res.throw .runtimeError
  else
    let sizes := featureSizes centers ks
    (relSize sizes rows cols .startLast).bind fun sl =>
    (relSize sizes rows cols .endLast).bind fun el =>
    (relSize sizes rows cols .startFirst).bind fun sf =>
    (relSize sizes rows cols .endFirst).bind fun ef =>
    (Res.idxList centers (cornerIdx rows cols .startLast)).bind fun slp =>
    (Res.idxList centers (cornerIdx rows cols .endLast)).bind fun elp =>
    (Res.idxList centers (cornerIdx rows cols .endFirst)).bind fun efp =>
    match judge sl ef el sf with
    | some c => Res.ok { corner := c, usual := usualOrdering slp elp efp }
    | none => Res.throw .runtimeError

/-- `extractKeyPoints` (54-352). -/
noncomputable def extractKeyPoints (detections : List (List KeyPoint)) (centers : List V2) (rows cols : Nat)
    (flipped : Bool) : Res (List V2) :=
  (gridDecision detections centers rows cols).bind fun d =>
  Res.mapList (Res.idxList centers)
    (orderIndices d.corner d.usual (if flipped then cols else rows) (if flipped then rows else cols) centers.length)

/-- Centres and flag with which `extractModifiedCircleGrid` continues (354-390): `find w h` is the outcome of
`cv::findCirclesGrid` for the pattern size `(w, h)`. -/
def findGrid (find : Nat → Nat → Bool × List V2) (rows cols : Nat) : List V2 × Bool :=
  let r := find cols rows
  if r.1 = true ∧ r.2.length = szMul rows cols then (r.2, false)
  else
    let f := find rows cols
    (f.2, decide (f.1 = true ∧ f.2.length = szMul rows cols))

/-- `extractModifiedCircleGrid` (354-393). -/
noncomputable def extractModifiedCircleGrid (find : Nat → Nat → Bool × List V2) (detections : List (List KeyPoint))
    (rows cols : Nat) : Res (List V2) :=
  let g := findGrid find rows cols
  if g.1.length = 0 then Res.throw .runtimeError
  else extractKeyPoints detections g.1 rows cols g.2

/-- `ModifiedCircleGridTargetFinder::findTargetFeatures` (410-427). -/
noncomputable def circleFeatures (find : Nat → Nat → Bool × List V2) (detections : List (List KeyPoint))
    (t : CircleTarget) : Res TargetFeatures :=
  (extractModifiedCircleGrid find detections t.rows t.cols).bind fun pts =>
  Res.foldList (fun m i => (Res.atList pts i).bind fun p => Res.ok (SMap.emplace m i [p])) [] (List.range pts.length)

end RCT
