import Verif.Model.Jet
import Mathlib.Analysis.Calculus.Deriv.Basic

/-!
# Values and derivatives along a curve

What a number with derivative says about a real function.
-/

namespace RCT.Spec

open RCT

/-- The jet describes the function at `s`: value, continuity and, unless it is not finite, derivative. -/
structure Tan (f : ℝ → ℝ) (s : ℝ) (j : Jet) : Prop where
  val : f s = j.a
  cont : ContinuousAt f s
  der : ∀ v, j.v = some v → HasDerivAt f v s

/-- Componentwise for a point that moves. -/
structure TanV3 (f : ℝ → V3) (s : ℝ) (j : JV3) : Prop where
  x : Tan (fun u => (f u).x) s j.x
  y : Tan (fun u => (f u).y) s j.y
  z : Tan (fun u => (f u).z) s j.z

/-- Every residual is described by its jet. -/
def TanList (F : ℝ → List ℝ) (s : ℝ) (js : List Jet) : Prop :=
  ∃ fs : List (ℝ → ℝ), (∀ u, F u = fs.map fun f => f u) ∧ List.Forall₂ (fun f j => Tan f s j) fs js

/-- The jet has a finite derivative. -/
def FiniteJet (j : Jet) : Prop := ∃ v, j.v = some v

end RCT.Spec
