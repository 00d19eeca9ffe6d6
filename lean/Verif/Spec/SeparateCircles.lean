import Verif.Spec.CircleDetector

/-!
# Circles in a picture and their detections
-/

namespace RCT.Spec

/-- A circle in the picture. -/
structure Disc where
  center : V2
  radius : ℝ

/-- The detection shows the circle, up to a distance `δ` of the centres and a difference `ε` of the radii. -/
def Disc.ShownBy (δ ε : ℝ) (o : Disc) (c : Center) : Prop :=
  (c.location.x - o.center.x) ^ 2 + (c.location.y - o.center.y) ^ 2 ≤ δ ^ 2 ∧ |c.radius - o.radius| ≤ ε

/-- The centres are farther apart than `r`, or the radii differ by more than `d`. -/
def Disc.Apart (r d : ℝ) (o o' : Disc) : Prop :=
  r ^ 2 < (o.center.x - o'.center.x) ^ 2 + (o.center.y - o'.center.y) ^ 2 ∨ d < |o.radius - o'.radius|

open Classical in
/-- How often the circle is shown by the detections. -/
noncomputable def Disc.times (δ ε : ℝ) (all : List (List Center)) (o : Disc) : Nat :=
  (all.flatten.filter fun c => o.ShownBy δ ε c).length

/-- The key point is finite and shows the circle, up to the given differences; its size is a diameter. -/
def Disc.Reported (δ ε : ℝ) (o : Disc) (k : KeyPointF) : Prop :=
  ∃ x y r : ℝ, k = ⟨.fin x, .fin y, .fin (2 * r)⟩ ∧
    (x - o.center.x) ^ 2 + (y - o.center.y) ^ 2 ≤ δ ^ 2 ∧ |r - o.radius| ≤ ε

end RCT.Spec
