import Mathlib.Algebra.BigOperators.Group.Finset.Basic
import Mathlib.Data.Real.Basic

/-!
# Specification vocabulary for covariance reports
-/

namespace RCT.Spec

/-- Symmetric on the leading `n × n` block. -/
def SymmetricOn (n : Nat) (a : Nat → Nat → ℝ) : Prop := ∀ i < n, ∀ j < n, a i j = a j i

/-- Positive semidefinite on the leading `n × n` block. -/
def PosSemidefOn (n : Nat) (a : Nat → Nat → ℝ) : Prop :=
  SymmetricOn n a ∧ ∀ x : Nat → ℝ, 0 ≤ ∑ i ∈ Finset.range n, ∑ j ∈ Finset.range n, x i * a i j * x j

/-- All elements (block, index in block) of a list of blocks, in storage order. -/
def elements (size : Nat → Nat) (blocks : List Nat) : List (Nat × Nat) :=
  blocks.flatMap fun b => (List.range (size b)).map fun i => (b, i)

end RCT.Spec
