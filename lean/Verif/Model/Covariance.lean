import Verif.Model.Pose
import Verif.Core.Std

/-!
# Covariance analysis

Model of `rct_optimizations/src/rct_optimizations/covariance_analysis.cpp` and
`rct_optimizations/include/rct_optimizations/covariance_types.h`.
-/

namespace RCT

/-- `Eigen::MatrixXd`; only entries with `i < rows`, `j < cols` are meaningful. -/
structure MatD where
  rows : Nat
  cols : Nat
  val : Nat → Nat → ℝ

/-- `NamedParam` (`covariance_types.h` 15-33). -/
structure NamedParam where
  first : String
  second : String
  value : ℝ

/-- `CovarianceResult` (`covariance_types.h` 40-51). -/
structure CovResult where
  standard_deviations : List NamedParam
  correlation_coeffs : List NamedParam
  covariances : List NamedParam
  covariance_matrix : MatD
  correlation_matrix : MatD

/-- `sqrt(fabs(covariance_matrix(i, i)))` (`covariance_analysis.cpp` 17, 21). -/
noncomputable def sigma (cov : MatD) (i : Nat) : ℝ := Real.sqrt |cov.val i i|

/-- The inner loop of `computeCorrelationsFromCovariance` for row `i` (`covariance_analysis.cpp` 19-34). The variable
`sigma_i` is declared outside of the loop and modified inside of it (line 28). -/
noncomputable def corrRow (cov : MatD) (i : Nat) : List Nat → ℝ → List ℝ
  | [], _ => []
  | j :: js, si =>
    let sj := sigma cov j
    if i = j then si :: corrRow cov i js si
    else
      let si := if si < dblEps then 1 else si
      let sj := if sj < dblEps then 1 else sj
      cov.val i j / (si * sj) :: corrRow cov i js si

/-- `computeCorrelationsFromCovariance` (`covariance_analysis.cpp` 6-38). -/
noncomputable def computeCorrelations (cov : MatD) : Res MatD :=
  if cov.rows ≠ cov.cols then .throw .covariance
  else .ok ⟨cov.rows, cov.rows, fun i j => (corrRow cov i (List.range cov.rows) (sigma cov i)).getD j 0⟩

/-- Body of the inner loop of `computeCovarianceResults` (`covariance_analysis.cpp` 65-85). -/
def covCell (cov corr : MatD) (names : List String) (row : Nat) (acc : CovResult) (col : Nat) : Res CovResult :=
  if row = col then
    (Res.idxList names row).bind fun n =>
      .ok { acc with standard_deviations := acc.standard_deviations ++ [⟨n, "", corr.val row col⟩] }
  else
    (Res.idxList names row).bind fun n => (Res.idxList names col).bind fun n' =>
      .ok { acc with
        correlation_coeffs := acc.correlation_coeffs ++ [⟨n, n', corr.val row col⟩]
        covariances := acc.covariances ++ [⟨n, n', cov.val row col⟩] }

/-- The loops of `computeCovarianceResults` (`covariance_analysis.cpp` 60-88); state: `col_start` and the result. -/
def covRow (cov corr : MatD) (names : List String) (s : Nat × CovResult) (row : Nat) : Res (Nat × CovResult) :=
  (Res.foldList (covCell cov corr names row) s.2 (List.range' s.1 (corr.rows - s.1))).bind fun acc => .ok (s.1 + 1, acc)

/-- `computeCovarianceResults` (`covariance_analysis.cpp` 40-91). -/
noncomputable def computeCovarianceResults (cov : MatD) (names : List String) : Res CovResult :=
  (computeCorrelations cov).bind fun corr =>
    (Res.foldList (covRow cov corr names) (0, ⟨[], [], [], cov, corr⟩) (List.range corr.rows)).bind fun s => .ok s.2

/-- What `computeCovariance` asks of ceres. `blockSize` is `Problem::ParameterBlockSize` (fatal error, here `none`, for
an address that is not a parameter block of the problem); `compute` is `Covariance::Compute` (may report failure, or abort
on duplicated blocks); `matrix` is `Covariance::GetCovarianceMatrix`. -/
structure CovSolver where
  blockSize : Nat → Option Nat
  compute : List Nat → Res Bool
  matrix : List Nat → Option (Nat → Nat → ℝ)

/-- State of the loop of `computeCovariance`: `n_params_in_selected`, `tangent_space_indices`,
`tangent_space_labels`. -/
structure Tangent where
  n : Nat
  indices : List Nat
  labels : List String

/-- The loop over the elements of one block (`covariance_analysis.cpp` 172-179). `std::find` compares the `int` masks
with a `size_t`. -/
def tangentElem (label : List String) (masks : List Int) (s : Tangent) (i : Nat) : Res Tangent :=
  if masks.any (fun m => toSizeT m == i) then .ok s
  else (Res.atList label i).bind fun l => .ok { s with indices := s.indices ++ [s.n + i], labels := s.labels ++ [l] }

/-- Loop body for one block (`covariance_analysis.cpp` 154-182). -/
def tangentBlock (cs : CovSolver) (names : SMap Nat (List String)) (masks : SMap Nat (List Int)) (s : Tangent) (b : Nat) :
    Res Tangent :=
  match cs.blockSize b with
  | none => .abort
  | some size =>
    (names.at' b).bind fun label =>
      if size ≠ label.length then .throw .covariance
      else
        (Res.foldList (tangentElem label ((masks.find b).getD [])) s (List.range size)).bind fun s' =>
          .ok { s' with n := s.n + size }

/-- `computeCovariance(problem, parameter_blocks, param_names, param_masks, options)`
(`covariance_analysis.cpp` 140-208). -/
noncomputable def computeCovariance (cs : CovSolver) (blocks : List Nat) (names : SMap Nat (List String))
    (masks : SMap Nat (List Int)) : Res CovResult :=
  if blocks.length ≠ names.size then .throw .covariance
  else
    (Res.foldList (tangentBlock cs names masks) ⟨0, [], []⟩ blocks).bind fun s =>
      (cs.compute blocks).bind fun good =>
        if good = false then .throw .covariance
        else
          match cs.matrix blocks with
          | none => .throw .covariance
          | some full =>
            computeCovarianceResults
              ⟨s.labels.length, s.labels.length, fun r c => full (s.indices.getD r 0) (s.indices.getD c 0)⟩ s.labels

/-- The label list made for block number `index` by the overload without names
(`covariance_analysis.cpp` 114-119). -/
def dummyBlockNames (index size : Nat) : List String :=
  (List.range size).map fun i => "block" ++ toString index ++ "_element" ++ toString i

/-- The map of dummy names (`covariance_analysis.cpp` 110-121). -/
def dummyNames (cs : CovSolver) (blocks : List Nat) : Res (SMap Nat (List String)) :=
  Res.foldList (fun m (e : Nat × Nat) =>
    match cs.blockSize e.1 with
    | none => .abort
    | some size => .ok (SMap.insert m e.1 (dummyBlockNames e.2 size))) [] blocks.zipIdx

/-- `computeCovariance(problem, parameter_blocks, param_masks, options)` (`covariance_analysis.cpp` 105-124). -/
noncomputable def computeCovarianceUnnamed (cs : CovSolver) (blocks : List Nat) (masks : SMap Nat (List Int)) :
    Res CovResult :=
  (dummyNames cs blocks).bind fun names => computeCovariance cs blocks names masks

/-- The comparison passed to `std::sort` (`covariance_types.h` 66). -/
noncomputable def absGreater (a b : NamedParam) : Bool := decide (|a.value| > |b.value|)

/-- `CovarianceResult::getCorrelationCoeffOutsideThreshold` (`covariance_types.h` 58-68); `sort` is `std::sort`. -/
noncomputable def outsideThreshold (sort : (NamedParam → NamedParam → Bool) → List NamedParam → List NamedParam)
    (coeffs : List NamedParam) (threshold : ℝ) : List NamedParam :=
  sort absGreater (coeffs.filter fun c => decide (|c.value| > threshold))

end RCT
