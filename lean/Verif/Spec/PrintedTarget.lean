import Verif.Model.PrintedTarget
import Verif.Model.Targets

/-!
# What is seen on a printed page
-/

namespace RCT.Spec

open RCT

/-- Squared distance in the plane. -/
def planeDistSq (p q : V2) : ℝ := (p.x - q.x) ^ 2 + (p.y - q.y) ^ 2

/-- `p` is at most `r` away from `c`. -/
def Within (r : ℝ) (c p : V2) : Prop := planeDistSq p c ≤ r ^ 2

/-- The points a shape covers. -/
def Covers : Shape → V2 → Prop
  | .rect x y w h _, p => x ≤ p.x ∧ p.x ≤ x + w ∧ y ≤ p.y ∧ p.y ≤ y + h
  | .circle x y r _, p => Within r ⟨x, y⟩ p

def fillOf : Shape → Ink
  | .rect _ _ _ _ i => i
  | .circle _ _ _ i => i

open Classical in
/-- The colour of a point of the page: that of the last shape that covers it; the paper is white. -/
noncomputable def inkAt (D : Drawing) (p : V2) : Ink :=
  D.shapes.foldl (fun i s => if Covers s p then fillOf s else i) .white

/-- The page. -/
def OnPage (D : Drawing) (p : V2) : Prop := 0 ≤ p.x ∧ p.x ≤ D.width ∧ 0 ≤ p.y ∧ p.y ≤ D.height

/-- Where a point of the target (in metres) is on the page (in points, 72 to the inch), if the origin of the target is at `o`. -/
noncomputable def onPaper (o : V2) (q : V3) : V2 := ⟨o.x + q.x * (72 / (254 / 10000)), o.y + q.y * (72 / (254 / 10000))⟩

/-- The pattern of a modified circle grid with dots of diameter `d` (points): discs around all target points, a disc of twice
the diameter around the origin, and a small hole in the middle of each. -/
def CirclePattern (t : CircleTarget) (o : V2) (d : ℝ) (p : V2) : Prop :=
  ((∃ q ∈ t.createPoints, Within (d / 2) (onPaper o q) p) ∨ Within d o p) ∧
    ∀ q ∈ t.createPoints, ¬ Within (3 / 100 * d) (onPaper o q) p

/-- The dots of a drawing in the colour `fg`: centres and radii. -/
def dotsOf (fg : Ink) (D : Drawing) : List (V2 × ℝ) :=
  D.shapes.filterMap fun s => match s with
    | .circle x y r i => if i = fg then some (⟨x, y⟩, r) else none
    | _ => none

/-- All dots are on the page completely. -/
def DotsComplete (fg : Ink) (D : Drawing) : Prop := ∀ e ∈ dotsOf fg D, ∀ p, Within e.2 e.1 p → OnPage D p

/-- Dots with different centres have no point in common. -/
def DotsSeparate (fg : Ink) (D : Drawing) : Prop :=
  ∀ e ∈ dotsOf fg D, ∀ e' ∈ dotsOf fg D, e.1 ≠ e'.1 → ∀ p, ¬ (Within e.2 e.1 p ∧ Within e'.2 e'.1 p)

/-- `p` is a corner at which four fields meet, equal colours opposite. -/
def Crossing (D : Drawing) (p : V2) : Prop :=
  ∃ e > 0, ∀ a b, 0 < a → a < e → 0 < b → b < e →
    inkAt D ⟨p.x + a, p.y + b⟩ = inkAt D ⟨p.x - a, p.y - b⟩ ∧ inkAt D ⟨p.x + a, p.y - b⟩ = inkAt D ⟨p.x - a, p.y + b⟩ ∧
    inkAt D ⟨p.x + a, p.y + b⟩ ≠ inkAt D ⟨p.x + a, p.y - b⟩

end RCT.Spec
