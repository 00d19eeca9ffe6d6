import Verif.Model.Covariance

/-!
# The least-squares solver as an external service

ceres itself is not modelled. A `ceres::Problem` is the list of its residual blocks; each residual block names the
parameter blocks it was added with (block addresses are numbers) and a cost functor of the values of these blocks, in
that order. A solver run is an arbitrary function subject to the contract `Ceres.WF`.
-/

namespace RCT

/-- One `problem.AddResidualBlock(cost, nullptr, blocks...)`; `β` is the type of the values of a parameter block. -/
structure ResBlock (β : Type) where
  blocks : List Nat
  eval : List β → List ℝ

/-- The residuals at a parameter state. -/
def ResBlock.residual {β : Type} (b : ResBlock β) (st : Nat → β) : List ℝ := b.eval (b.blocks.map st)

/-- All residuals of a problem. -/
def residuals {β : Type} (pb : List (ResBlock β)) (st : Nat → β) : List ℝ := pb.flatMap fun b => b.residual st

/-- The ceres cost: half the sum of squares. -/
noncomputable def cost {β : Type} (pb : List (ResBlock β)) (st : Nat → β) : ℝ :=
  ((residuals pb st).map fun r => r * r).sum / 2

/-- The parameter blocks known to a problem: those of its residual blocks. -/
def usedBlocks {β : Type} (pb : List (ResBlock β)) : List Nat := (pb.flatMap fun b => b.blocks).dedup

/-- `summary.cost / summary.num_residuals`; `none` stands for the NaN that results without residuals. -/
noncomputable def costPerObs {β : Type} (pb : List (ResBlock β)) (st : Nat → β) : Option ℝ :=
  if (residuals pb st).length = 0 then none else some (cost pb st / (residuals pb st).length)

/-- External solver and covariance services. `order` is the order in which `Problem::GetParameterBlocks` lists the
blocks (by address, hence unknown). -/
structure Ceres (β : Type) where
  solve : List (ResBlock β) → (Nat → β) → (Nat → β)
  converged : List (ResBlock β) → (Nat → β) → Bool
  order : List (ResBlock β) → List Nat
  covCompute : List (ResBlock β) → (Nat → β) → List Nat → Res Bool
  covMatrix : List (ResBlock β) → (Nat → β) → List Nat → Option (Nat → Nat → ℝ)

/-- Contract of the external solver: it changes only blocks of the problem, does not increase the cost, lists every
block of the problem once, and its covariance computation does not throw (it reports failure by its return value or
ends the process). -/
structure Ceres.WF {β : Type} (c : Ceres β) : Prop where
  frame : ∀ pb st a, a ∉ usedBlocks pb → c.solve pb st a = st a
  descent : ∀ pb st, cost pb (c.solve pb st) ≤ cost pb st
  order_perm : ∀ pb, (c.order pb).Perm (usedBlocks pb)
  compute_no_throw : ∀ pb st l e, c.covCompute pb st l ≠ .throw e

/-- The covariance services of a problem whose blocks all have `size` parameters; asking for the size of a block that is
not part of the problem is a fatal check of ceres. -/
def Ceres.covSolver {β : Type} (c : Ceres β) (pb : List (ResBlock β)) (st : Nat → β) (size : Nat) : CovSolver where
  blockSize := fun a => if a ∈ usedBlocks pb then some size else none
  compute := c.covCompute pb st
  matrix := c.covMatrix pb st

end RCT
