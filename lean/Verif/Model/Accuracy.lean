import Verif.Model.PnP
import Verif.Core.Std

/-!
# Intrinsic calibration validation and noise qualification

Models `rct_optimizations/src/rct_optimizations/validation/camera_intrinsic_calibration_validation.cpp` and
`noise_qualification.cpp`. The singular value decomposition of Eigen is a parameter. The accumulators of boost return, in
exact arithmetic, the mean and the population variance of the values given to them; without values the mean is NaN
(`none`) and the variance keeps its initial value 0.
-/

namespace RCT

/-- `boost::accumulators::mean`. -/
noncomputable def accMean (l : List ℝ) : Option ℝ := if l.length = 0 then none else some (l.sum / l.length)

/-- `boost::accumulators::variance` (divides by the number of values; 0 if there are none). -/
noncomputable def accVar (l : List ℝ) : Option ℝ :=
  match accMean l with
  | some m => some ((l.map fun x => (x - m) * (x - m)).sum / l.length)
  | none => some 0

/-- `VirtualCorrespondenceResult` (`camera_intrinsic_calibration_validation.h`). -/
structure VirtualTargetResult where
  t1ToT2 : Iso
  positionalError : ℝ
  angularError : ℝ

/-- `result.final_cost_per_obs > threshold`; a comparison with NaN is false. -/
def costAbove (c : Option ℝ) (threshold : ℝ) : Prop :=
  match c with
  | some x => x > threshold
  | none => False

open Classical in
/-- The lambda `solve_pnp` (`camera_intrinsic_calibration_validation.cpp` 13-31). -/
noncomputable def virtualPnp (s : Ceres V3) (intr : Intr) (guess : Iso) (threshold : ℝ) (corrs : List Corr2) : Res Iso :=
  (pnp2 s { intr := intr, correspondences := corrs, guess := guess }).bind fun r =>
    if r.converged = false ∨ costAbove r.finalCost threshold then .throw .runtimeError else .ok r.cameraToTarget

/-- `measureVirtualTargetDiff` (`camera_intrinsic_calibration_validation.cpp` 7-57). -/
noncomputable def virtualTargetDiff (s : Ceres V3) (corrs : List Corr2) (intr : Intr) (guess : Iso) (threshold : ℝ) :
    Res VirtualTargetResult :=
  let half := corrs.length / 2
  let set1 := corrs.take half
  let set2 := corrs.drop half
  (virtualPnp s intr guess threshold set1).bind fun T1 =>
    (virtualPnp s intr guess threshold set2).bind fun T2 =>
      let q1 := T1.R.toQuat
      let q2 := T2.R.toQuat
      .ok ⟨T1.inv * T2, (T1.inv * T2).t.norm, q1.angularDistance q2⟩

/-- `IntrinsicCalibrationAccuracyResult` (`camera_intrinsic_calibration_validation.h`): mean and standard deviation of
both errors. -/
structure IntrAccResult where
  posMean : Option ℝ
  posStdev : Option ℝ
  angMean : Option ℝ
  angStdev : Option ℝ

/-- The size check (`camera_intrinsic_calibration_validation.cpp` 69-81). The bound `size() - 1` is computed with
`std::size_t`; `operator[]` does not check its index. -/
def sizeCheck (observations : List (Obs Corr2)) : Res Unit :=
  Res.foldList (fun _ i =>
    (Res.idxList observations i).bind fun o1 =>
      (Res.idxList observations (i + 1)).bind fun o2 =>
        if o1.corrs.length ≠ o2.corrs.length then .throw .optimization else .ok ()) ()
    (List.range (szSub observations.length 1))

/-- `measureIntrinsicCalibrationAccuracy` (`camera_intrinsic_calibration_validation.cpp` 59-115). -/
noncomputable def intrinsicAccuracy (s : Ceres V3) (observations : List (Obs Corr2)) (intr : Intr)
    (mountToCamera mountToTarget cameraBaseToTargetBase : Iso) (threshold : ℝ) : Res IntrAccResult :=
  (sizeCheck observations).bind fun _ =>
    (Res.mapList (fun obs : Obs Corr2 =>
      let baseToCamera := obs.toCameraMount * mountToCamera
      let baseToTarget := cameraBaseToTargetBase * obs.toTargetMount * mountToTarget
      let cameraToTarget := baseToCamera.inv * baseToTarget
      virtualTargetDiff s obs.corrs intr cameraToTarget threshold) observations).bind fun rs =>
      let pos := rs.map fun r => r.positionalError
      let ang := rs.map fun r => r.angularError
      .ok ⟨accMean pos, (accVar pos).map Real.sqrt, accMean ang, (accVar ang).map Real.sqrt⟩

/-! ### Noise qualification -/

/-- The entry of `Quaterniond::coeffs()` (memory order x, y, z, w). -/
def Quat.coeff (q : Quat) (i : Fin 4) : ℝ :=
  match i with
  | 0 => q.x
  | 1 => q.y
  | 2 => q.z
  | 3 => q.w

/-- The matrix accumulated by `computeQuaternionMean` (`noise_qualification.cpp` 29-34). -/
def quatMomentMatrix (qs : List Quat) : Fin 4 → Fin 4 → ℝ :=
  qs.foldl (fun M q => fun i j => M i j + q.coeff i * q.coeff j) (fun _ _ => 0)

/-- First column of `matrixU()` of a `JacobiSVD` of a 4x4 matrix, as `coeffs()` of a quaternion. -/
abbrev SvdU0 := (Fin 4 → Fin 4 → ℝ) → Quat

/-- `computeQuaternionMean` (`noise_qualification.cpp` 14-48). -/
def quatMean (svd : SvdU0) (qs : List Quat) : Quat := svd (quatMomentMatrix qs)

/-- `QuaternionStats` (`noise_qualification.h`). -/
structure QuatStats where
  mean : Quat
  stdev : Option ℝ

/-- `computeQuaternionStats` (`noise_qualification.cpp` 50-64). The divisor `size() - 1` is computed with `std::size_t`;
division by zero gives NaN or infinity (both `none`). -/
noncomputable def quatStats (svd : SvdU0) (qs : List Quat) : QuatStats :=
  let mean := quatMean svd qs
  let var := qs.foldl (fun v q => v + mean.angularDistance q ^ 2) 0
  let n := szSub qs.length 1
  ⟨mean, if n = 0 then none else some (Real.sqrt (var / n))⟩

/-- `PnPNoiseStat` (`noise_qualification.h`); positions by component. -/
structure NoiseStat where
  meanX : Option ℝ
  meanY : Option ℝ
  meanZ : Option ℝ
  stdevX : Option ℝ
  stdevY : Option ℝ
  stdevZ : Option ℝ
  qStat : QuatStats

/-- The loop and the report shared by both functions (`noise_qualification.cpp` 85-109, 131-155): `run` is the PnP
optimisation of one problem. -/
noncomputable def qualifyNoise {π : Type} (run : π → Res PnPResult) (svd : SvdU0) (params : List π) : Res NoiseStat :=
  (Res.foldList (fun (acc : List Iso) prob =>
      (run prob).bind fun r => if r.converged then .ok (acc ++ [r.cameraToTarget]) else .ok acc) [] params).bind fun ts =>
    let xs := ts.map fun T => T.t.x
    let ys := ts.map fun T => T.t.y
    let zs := ts.map fun T => T.t.z
    let orientations := ts.map fun T => T.R.toQuat
    .ok ⟨accMean xs, accMean ys, accMean zs, (accVar xs).map Real.sqrt, (accVar ys).map Real.sqrt,
      (accVar zs).map Real.sqrt, quatStats svd orientations⟩

/-- `qualifyNoise2D` (`noise_qualification.cpp` 66-110). -/
noncomputable def qualifyNoise2 (s : Ceres V3) (svd : SvdU0) (params : List (PnPProblem Corr2)) : Res NoiseStat :=
  qualifyNoise (pnp2 s) svd params

/-- `qualifyNoise3D` (`noise_qualification.cpp` 112-156). -/
noncomputable def qualifyNoise3 (s : Ceres V3) (svd : SvdU0) (params : List (PnPProblem Corr3)) : Res NoiseStat :=
  qualifyNoise (pnp3 s) svd params

end RCT
