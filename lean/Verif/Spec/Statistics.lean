import Verif.Core.Vec
import Mathlib.Algebra.BigOperators.Group.List.Basic

/-!
# Specifications of the reported statistics
-/

namespace RCT.Spec
open RCT

/-- `m` and `d` are the mean and the (population) standard deviation of the sample `l`. -/
def MeanStdev (l : List ℝ) (m d : ℝ) : Prop :=
  m * l.length = l.sum ∧ 0 ≤ d ∧ d ^ 2 * l.length = (l.map fun x => (x - m) ^ 2).sum

/-- Scalar product of two quaternions as vectors with four entries; `|qdot| = 1` for unit quaternions means the same
orientation, smaller values mean larger angles. -/
def qdot (a b : Quat) : ℝ := a.w * b.w + a.x * b.x + a.y * b.y + a.z * b.z

/-- The average of Markley et al.: a unit quaternion that maximises the sum of the squared scalar products with the
samples. -/
def IsQuatAverage (qs : List Quat) (m : Quat) : Prop :=
  m.normSq = 1 ∧ ∀ p : Quat, p.normSq = 1 → (qs.map fun q => qdot p q ^ 2).sum ≤ (qs.map fun q => qdot m q ^ 2).sum

end RCT.Spec
