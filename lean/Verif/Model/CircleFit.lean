import Verif.Model.Intrinsic

/-!
# Circle fit and maximum likelihood prior

Models `rct_optimizations/src/rct_optimizations/circle_fit.cpp`,
`rct_optimizations/include/rct_optimizations/circle_fit.h` and `maximum_likelihood.h`.
-/

namespace RCT

/-- `CircleDistCost::operator()(sample, residual)` (`circle_fit.h` 23-33). -/
def circleCost (obs : V2) (sample : Mem) : List ℝ :=
  let r := sample 2 * sample 2
  let x := obs.x - sample 0
  let y := obs.y - sample 1
  [r * r - x * x - y * y]

/-- `CircleDistCost::operator()(x_sample, y_sample, r_sqrt_sample, residual)` (`circle_fit.h` 44-55). -/
def circleCost3 (obs : V2) (xs ys rs : Mem) : List ℝ :=
  let r := rs 0 * rs 0
  let x := obs.x - xs 0
  let y := obs.y - ys 0
  [r * r - x * x - y * y]

/-- A residual functor with one block of memory. -/
def evalMem1 (f : Mem → List ℝ) : List Mem → List ℝ
  | [a] => f a
  | _ => []

/-- `CircleFitProblem` (`circle_fit.h` 64-87; `labels` is a constant). -/
structure CircleFitProblem where
  observations : List V2
  xInitial : ℝ
  yInitial : ℝ
  radiusInitial : ℝ

def circleLabels : List String := ["x", "y", "r"]

/-- `CircleFitResult` (`circle_fit.h` 92-129). -/
structure CircleFitResult where
  converged : Bool
  initialCost : Option ℝ
  finalCost : Option ℝ
  covariance : CovResult
  xCenter : ℝ
  yCenter : ℝ
  radius : ℝ

/-- Initial values (`circle_fit.cpp` 7-16). The square root of a negative radius (NaN in C++) is outside the model. -/
noncomputable def circleInit (p : CircleFitProblem) : Nat → Mem :=
  fun a => if a = 0 then fun o => match o with
      | 0 => p.xInitial | 1 => p.yInitial | 2 => Real.sqrt p.radiusInitial | _ => 0
    else fun _ => 0

/-- The problem (`circle_fit.cpp` 24-30). -/
def circleBuild (p : CircleFitProblem) : List (ResBlock Mem) :=
  p.observations.map fun o => ⟨[0], evalMem1 (circleCost o)⟩

/-- `optimize` (`circle_fit.cpp` 5-52). -/
noncomputable def circleFit (s : Ceres Mem) (p : CircleFitProblem) : Res CircleFitResult :=
  let pb := circleBuild p
  let st := s.solve pb (circleInit p)
  (computeCovariance (s.covSolver pb st 3) (s.order pb) (SMap.insert [] 0 circleLabels) []).bind fun cov =>
    .ok ⟨s.converged pb (circleInit p), costPerObs pb (circleInit p), costPerObs pb st, cov,
      st 0 0, st 0 1, st 0 2 ^ 2⟩

/-- A constructed `MaximumLikelihood` (`maximum_likelihood.h` 38-39). -/
structure MaxLik where
  mean : MatD
  stdev : MatD

/-- The constructor (`maximum_likelihood.h` 20-24). -/
def MaxLik.make (mean stdev : MatD) : Res MaxLik :=
  if mean.rows * mean.cols ≠ stdev.rows * stdev.cols then .throw .optimization else .ok ⟨mean, stdev⟩

/-- `MaximumLikelihood::operator()` (`maximum_likelihood.h` 26-36). Element-wise operations need equal shapes (an Eigen
assertion, disabled in release builds). The parameter block is column-major; so is the residual. -/
noncomputable def MaxLik.eval (m : MaxLik) (parameter : Mem) : Res Mem :=
  if m.mean.rows = m.stdev.rows ∧ m.mean.cols = m.stdev.cols then
    .ok fun o => (parameter o - m.mean.val (o % m.mean.rows) (o / m.mean.rows)) /
      m.stdev.val (o % m.mean.rows) (o / m.mean.rows)
  else .ub

end RCT
