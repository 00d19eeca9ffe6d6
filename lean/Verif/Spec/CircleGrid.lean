import Verif.Model.CircleGrid

/-!
# Grids of image points
-/

namespace RCT.Spec

/-- Position of a corner in a list of `R` rows with `C` points each. -/
def cornerPos (R C : Nat) : Corner → Nat
  | .startFirst => 0
  | .endFirst => C - 1
  | .startLast => (R - 1) * C
  | .endLast => (R - 1) * C + (C - 1)

/-- Positions `x` and `y` of a list with rows of `C` points are horizontal or vertical neighbours. -/
def GridNbr (C x y : Nat) : Prop :=
  ∃ r c r' c', c < C ∧ c' < C ∧ x = r * C + c ∧ y = r' * C + c' ∧
    ((r = r' ∧ (c = c' + 1 ∨ c' = c + 1)) ∨ (c = c' ∧ (r = r' + 1 ∨ r' = r + 1)))

/-- `l` lists, row by row, the points `o + c u + r v` of a parallelogram grid. -/
structure IsGrid (l : List V2) (R C : Nat) (o u v : V2) : Prop where
  length : l.length = R * C
  point : ∀ r c : Nat, r < R → c < C →
    l[r * C + c]? = some ⟨o.x + c * u.x + r * v.x, o.y + c * u.y + r * v.y⟩

/-- Image cross product. With the image axes (x right, y down) it is positive if `v` is clockwise of `u`, as for the
steps "right" and "down" of the target seen from the front. -/
def cross (u v : V2) : ℝ := u.x * v.y - u.y * v.x

/-- The pair of steps `(u', v')` is the pair `(u, v)` up to order and signs. -/
def SameSteps (u v u' v' : V2) : Prop :=
  ∃ s t : ℝ, (s = 1 ∨ s = -1) ∧ (t = 1 ∨ t = -1) ∧
    ((u' = V2.smul s u ∧ v' = V2.smul t v) ∨ (u' = V2.smul s v ∧ v' = V2.smul t u))

end RCT.Spec
