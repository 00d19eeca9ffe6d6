import Verif.Spec.Jet
import Mathlib.Data.List.Basic

/-!
# Iterations of a damped least squares solver

What is assumed about the iterations of the external solver when it minimises residuals of which it knows values and
derivatives: a coordinate either keeps its value or moves by a combination of the derivatives of the residuals in the
direction of that coordinate, divided by a positive damping. Levenberg-Marquardt steps `(JᵀJ + D) δ = -Jᵀr` and steps
against the gradient are of that form.
-/

namespace RCT.Spec

open RCT

/-- The parameters with a unit derivative in the direction of element `k` of block `a`. -/
def along (st : Nat → Mem) (a k : Nat) : Nat → JMem := fun b l => ⟨st b l, some (if b = a ∧ l = k then 1 else 0)⟩

/-- Residual functors, as the solver sees them. -/
abbrev JFunctors := List ((Nat → JMem) → Res (List Jet))

/-- Column of the Jacobian for element `k` of block `a`. -/
def IsColumn (fs : JFunctors) (st : Nat → Mem) (a k : Nat) (col : List ℝ) : Prop :=
  ∃ jss, Res.mapList (fun f => f (along st a k)) fs = .ok jss ∧ jss.flatten.map Jet.v = col.map some

/-- Element `k` of block `a` moves by a damped step. -/
def DampedMove (fs : JFunctors) (st st' : Nat → Mem) (a k : Nat) : Prop :=
  ∃ col, IsColumn fs st a k col ∧ ∃ D > 0, ∃ lin : List ℝ,
    D * (st' a k - st a k) = -(List.zipWith (· * ·) col lin).sum

/-- States that the solver can reach. -/
inductive Reachable (fs : JFunctors) (st0 : Nat → Mem) : (Nat → Mem) → Prop
  | start : Reachable fs st0 st0
  | step {st st' : Nat → Mem} : Reachable fs st0 st → (∀ a k, st' a k = st a k ∨ DampedMove fs st st' a k) →
      Reachable fs st0 st'

end RCT.Spec
