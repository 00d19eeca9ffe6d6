import Verif.Core.Vec
import Verif.Model.Projection
import Mathlib.Analysis.SpecialFunctions.Trigonometric.Inverse

/-!
# Geometric specifications, independent of the modelled functions

Only the plain data types (`V2`, `V3`, `M3`, `Iso`, `Intr`) are shared with the model.
-/

namespace RCT.Spec
open RCT

/-- Textbook pinhole projection (meaningful for non-zero depth). -/
noncomputable def pinhole (i : Intr) (p : V3) : V2 := ⟨i.fx * (p.x / p.z) + i.cx, i.fy * (p.y / p.z) + i.cy⟩

/-- The two points lie on one line through the optical centre. -/
def SameRay (p q : V3) : Prop := ∃ k : ℝ, k ≠ 0 ∧ q = ⟨k * p.x, k * p.y, k * p.z⟩

/-- A rigid motion: an affine map given by `R`, `t` that preserves all distances and orientation. -/
def RigidMotion (T : Iso) : Prop :=
  (∀ p q : V3, (T.apply p - T.apply q).norm = (p - q).norm) ∧ T.R.det > 0

/-- The rotation angle in [0, π] of a rotation matrix, defined through its trace. -/
noncomputable def rotAngle (R : M3) : ℝ := Real.arccos ((R.m00 + R.m11 + R.m22 - 1) / 2)

end RCT.Spec
