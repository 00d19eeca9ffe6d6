import Verif.Core.Vec
import Verif.Core.Res

/-!
# The script that prints targets

Models `rct_image_tools/script/calibration_target.py`. A drawing is its list of shapes in the order in which they are added.
Outlines have width 0 and are left out, as are the footer text and the choice of the file format. Python numbers are integers and
real numbers; a Python exception is `Exc.other`. Page coordinates are in points, as in reportlab.
-/

namespace RCT

/-- Colours of the script (`calibration_target.py` 35-40). -/
inductive Ink where
  | black
  | white
deriving DecidableEq

/-- The shapes the script draws: rectangles (lower left corner, size) and circles (centre, radius), filled. -/
inductive Shape where
  | rect (x y w h : ℝ) (fill : Ink)
  | circle (x y r : ℝ) (fill : Ink)

/-- A reportlab drawing. -/
structure Drawing where
  width : ℝ
  height : ℝ
  shapes : List Shape

/-- `reportlab.lib.units.mm` in points. -/
noncomputable def mmUnit : ℝ := 72 / (254 / 100) * (1 / 10)

/-- The margin, half an inch, the same for both directions (`calibration_target.py` 28). -/
noncomputable def pageMargin : ℝ := 1 / 2 * 72

/-- The argument `gridSpacing`: `None`, a number, or a sequence of numbers. -/
inductive PySpacing where
  | none
  | num (s : ℝ)
  | seq (l : List ℝ)

/-- Spacing in points (`calibration_target.py` 32-33): 25 if not given; a sequence times a number that is not an integer is
a `TypeError`. -/
noncomputable def PySpacing.points : PySpacing → Res (ℝ × ℝ)
  | .none => .ok (25 * mmUnit, 25 * mmUnit)
  | .num s => .ok (s * mmUnit, s * mmUnit)
  | .seq _ => .throw .other

/-- `range(0, n)`. -/
def pyRange (n : Int) : List Nat := List.range n.toNat

/-- `dotTarget.draw` and `get_pageSize` (`calibration_target.py` 84-102): number of dots, spacing and size of the dots in
points. -/
noncomputable def dotDrawing (count : Int × Int) (spacing : ℝ × ℝ) (dotSize : ℝ) (bg fg : Ink) : Drawing :=
  let w := ((count.1 : ℝ) - 1) * spacing.1 + dotSize + pageMargin * 3
  let h := ((count.2 : ℝ) - 1) * spacing.2 + dotSize + pageMargin * 3
  let off : ℝ × ℝ := (pageMargin + dotSize, pageMargin + dotSize)
  { width := w
    height := h
    shapes := .rect 0 0 w h bg :: .circle off.1 off.2 dotSize fg ::
      (pyRange count.1).flatMap fun (c : Nat) => (pyRange count.2).flatMap fun (r : Nat) =>
        let x := off.1 + (c : ℝ) * spacing.1
        let y := off.2 + (r : ℝ) * spacing.2
        [.circle x y (dotSize / 2) fg, .circle x y (3 / 100 * dotSize) bg] }

/-- `calTarget.__init__` (`calibration_target.py` 30-45): the colours. -/
def inkOf (invert : Bool) : Ink × Ink := if invert then (.black, .white) else (.white, .black)

/-- `dotTarget(...)` (`calibration_target.py` 79-82, 30-45); `dotSize` in millimetres. -/
noncomputable def dotTarget (count : Int × Int) (spacing : PySpacing) (invert : Bool) (dotSize : ℝ) : Res Drawing :=
  spacing.points.bind fun s => .ok (dotDrawing count s (dotSize * mmUnit) (inkOf invert).1 (inkOf invert).2)

/-- `checkerTarget.draw` and `get_pageSize` (`calibration_target.py` 63-77): always black on the paper. -/
noncomputable def checkerDrawing (count : Int × Int) (spacing : ℝ × ℝ) : Drawing where
  width := (count.1 : ℝ) * spacing.1 + pageMargin * 2
  height := (count.2 : ℝ) * spacing.2 + pageMargin * 2
  shapes := (pyRange count.1).flatMap fun (c : Nat) => (pyRange count.2).flatMap fun (r : Nat) =>
    if (r + c) % 2 = 0 then
      [.rect (pageMargin + (c : ℝ) * spacing.1) (pageMargin + (r : ℝ) * spacing.2) spacing.1 spacing.2 .black]
    else []

/-- `checkerTarget(...)`: the constructor is that of `calTarget` (`calibration_target.py` 30-45); the colours are not used. -/
noncomputable def checkerTarget (count : Int × Int) (spacing : PySpacing) (_invert : Bool) : Res Drawing :=
  spacing.points.bind fun s => .ok (checkerDrawing count s)

/-- The type of target (`calibration_target.py` 106). -/
inductive TargetKind where
  | checker
  | dot
deriving DecidableEq

/-- Command line (`calibration_target.py` 104-115); `invert` is the word behind `--invert`. -/
structure TargetArgs where
  kind : TargetKind
  gridX : Int
  gridY : Int
  spacing : ℝ := 25
  dotSize : ℝ := 10
  invert : Option String := none

/-- `type=bool` applies the constructor of `bool` to the word: only the empty word is false. -/
def TargetArgs.inverted (a : TargetArgs) : Bool :=
  match a.invert with
  | none => false
  | some w => !w.isEmpty

/-- The main program (`calibration_target.py` 117-122) up to the finished drawing. -/
noncomputable def printTarget (a : TargetArgs) : Res Drawing :=
  match a.kind with
  | .checker => checkerTarget (a.gridX, a.gridY) (.num a.spacing) a.inverted
  | .dot => dotTarget (a.gridX, a.gridY) (.num a.spacing) a.inverted a.dotSize

end RCT
