import Verif.Model.Solver
import Verif.Model.Intrinsic
import Mathlib.Analysis.Calculus.Deriv.Basic
import Mathlib.Analysis.SpecialFunctions.Trigonometric.Basic

/-!
# Residuals that do not determine the parameters to first order

`Covariance::Compute` with the options of this library (`covariance_analysis.h` 15-21: `DENSE_SVD`, `null_space_rank` left at
its default 0) computes the singular values of the Jacobian of all residuals. It returns `false` as soon as one of them is too
small compared with the largest. `RejectsSingular` is the part of this contract that does not depend on how small is too small:
singular values that are zero. With fewer residuals than parameters there are only as many singular values as residuals, and if
all are zero their ratio is not a number and passes the test; both cases are left out of the contract.
The kinematic calibration uses other options (`null_space_rank = -1`), for which the contract does not hold.
-/

namespace RCT.Spec

open RCT

/-- Element `k` of a parameter block of three values. -/
def vecElem (v : V3) (k : Nat) : ℝ :=
  match k with
  | 0 => v.x | 1 => v.y | 2 => v.z | _ => 0

/-- The parameters move along a straight line: element `k` of block `b` with speed `d b k`. -/
def Straight {β : Type} (el : β → Nat → ℝ) (γ : ℝ → Nat → β) (d : Nat → Nat → ℝ) : Prop :=
  ∀ u b k, el (γ u b) k = el (γ 0 b) k + u * d b k

/-- Residual number `i` changes at speed `v`. -/
def Speed {β : Type} (pb : List (ResBlock β)) (γ : ℝ → Nat → β) (i : Nat) (v : ℝ) : Prop :=
  HasDerivAt (fun u => (residuals pb (γ u)).getD i 0) v 0

/-- The residuals are differentiable, there are at least as many as parameters, not all derivatives vanish, but in some
direction of the parameters no residual changes to first order. -/
structure Singular {β : Type} (el : β → Nat → ℝ) (size : Nat → Nat) (pb : List (ResBlock β)) (st : Nat → β) : Prop where
  enough : ((usedBlocks pb).map size).sum ≤ (residuals pb st).length
  smooth : ∀ γ d, γ 0 = st → Straight el γ d → ∀ i, ∃ v, Speed pb γ i v
  moves : ∃ γ d, γ 0 = st ∧ Straight el γ d ∧ ∃ i v, v ≠ 0 ∧ Speed pb γ i v
  still : ∃ γ d, γ 0 = st ∧ Straight el γ d ∧ (∃ b ∈ usedBlocks pb, ∃ k < size b, d b k ≠ 0) ∧ ∀ i, Speed pb γ i 0

/-- The covariance computation reports failure if the Jacobian of the residuals is singular. `regular` are the states at which
automatic differentiation yields the derivatives of the residuals (C156). -/
def RejectsSingular {β : Type} (s : Ceres β) (el : β → Nat → ℝ) (size : Nat → Nat) (regular : (Nat → β) → Prop) : Prop :=
  ∀ pb st l, l.Perm (usedBlocks pb) → regular st → Singular el size pb st → s.covCompute pb st l = .ok false

/-- Every change of the parameters of the blocks in use changes some residual to first order: the columns of the Jacobian are
linearly independent. -/
def FullRank {β : Type} (el : β → Nat → ℝ) (size : Nat → Nat) (pb : List (ResBlock β)) (st : Nat → β) : Prop :=
  ∀ γ d, γ 0 = st → Straight el γ d → (∃ b ∈ usedBlocks pb, ∃ k < size b, d b k ≠ 0) → ∃ i v, v ≠ 0 ∧ Speed pb γ i v

/-- A rotation vector of one or more full turns: other rotation vectors of the same length are the same rotation (none). -/
def FullTurns (r : V3) : Prop := r ≠ 0 ∧ ∃ n : ℤ, r.norm = n * (2 * Real.pi)

/-- In each image all features have the same depth, other than zero. -/
def SameDepths (images : List (List Corr2)) (T : Nat → Iso) (Z : Nat → ℝ) : Prop :=
  ∀ i < images.length, Z i ≠ 0 ∧ ∀ k ∈ images.getD i [], ((T i).apply k.inTarget).z = Z i

end RCT.Spec
