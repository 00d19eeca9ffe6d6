import Verif.Spec.Identify
import Verif.Spec.Near

/-!
# Errors of a calibration from noisy data
-/

namespace RCT.Spec
open RCT

/-- `q` is a combination of some of the points with weights that add up to one and whose absolute values add up to at most `k`.
With `k = 1` these are the points of the convex hull. -/
def Spanned (k : ℝ) (pts : List V3) (q : V3) : Prop :=
  ∃ ws : List (ℝ × V3), (∀ e ∈ ws, e.2 ∈ pts) ∧ (ws.map fun e => e.1).sum = 1 ∧ (ws.map fun e => |e.1|).sum ≤ k ∧
    q = ⟨(ws.map fun e => e.1 * e.2.x).sum, (ws.map fun e => e.1 * e.2.y).sum, (ws.map fun e => e.1 * e.2.z).sum⟩

/-- Measured points deviate from their true positions by at most `noise`. -/
def NoiseBelow {α : Type} (noise : ℝ) (l : List α) (measured true : α → V3) : Prop :=
  ∀ a ∈ l, (measured a - true a).norm ≤ noise

/-- How far a feature can be from its true position if `n` features are measured with errors up to `noise` and half the mean
squared coordinate of their residuals is `cost`. -/
noncomputable def featureBound (noise : ℝ) (n : Nat) (cost : ℝ) : ℝ := noise + Real.sqrt (6 * n * cost)

/-- Three points with distances at most `size` that span a parallelogram with at least the given area. -/
structure WideTriangle (size area : ℝ) (a b c : V3) : Prop where
  ab : (b - a).norm ≤ size
  ac : (c - a).norm ≤ size
  wide : area ≤ ((b - a).cross (c - a)).norm

/-- Frame of the target mount in the camera mount. -/
def mountPose {κ : Type} (o : Obs κ) : Iso := o.toCameraMount.inv * o.toTargetMount

/-- Product of the axes of the motions from observation `o` to `a` and to `b`, scaled with the sines of their angles (twice
each). -/
def axesProduct {κ : Type} (a b o : Obs κ) : V3 := (turnVector (mountMotion a o).R).cross (turnVector (mountMotion b o).R)

/-- Three features of the observation form a triangle of the given size and area. -/
def SeesWide (size area : ℝ) (o : Obs Corr3) : Prop :=
  ∃ a ∈ o.corrs, ∃ b ∈ o.corrs, ∃ c ∈ o.corrs, WideTriangle size area a.inTarget b.inTarget c.inTarget

end RCT.Spec
