import Verif.Model.HandEye
import Verif.Model.PnP

/-!
# Back-projection of image points and projection errors in space

Models `rct_optimizations/src/rct_optimizations/validation/projection.cpp`.
An `Eigen::MatrixX2d` / `MatrixX3d` is the list of its rows.
-/

namespace RCT

/-- The default `epsilon = 1.0e-6` of `computeLinePlaneIntersection` (`validation/projection.h`). -/
noncomputable def lineEps : ℝ := 1 / 10 ^ 6

/-- `computeLinePlaneIntersection` (`projection.cpp` 5-20). -/
noncomputable def linePlane (planeNormal planePt line linePt : V3) (epsilon : ℝ) : Res V3 :=
  let dp := line.dot planeNormal
  if |dp| < epsilon then .throw .runtimeError
  else
    let d := (planePt - linePt).dot planeNormal / dp
    .ok (linePt + V3.smul d line)

/-- `Eigen::Matrix3d::inverse()`: the adjugate divided by the determinant. A singular matrix (division by zero in C++) is
outside the model. -/
noncomputable def M3.inverse (a : M3) : M3 :=
  let k := 1 / a.det
  ⟨k * (a.m11 * a.m22 - a.m12 * a.m21), k * (a.m02 * a.m21 - a.m01 * a.m22), k * (a.m01 * a.m12 - a.m02 * a.m11),
   k * (a.m12 * a.m20 - a.m10 * a.m22), k * (a.m00 * a.m22 - a.m02 * a.m20), k * (a.m02 * a.m10 - a.m00 * a.m12),
   k * (a.m10 * a.m21 - a.m11 * a.m20), k * (a.m01 * a.m20 - a.m00 * a.m21), k * (a.m00 * a.m11 - a.m01 * a.m10)⟩

/-- `project3D` (`projection.cpp` 22-58). -/
noncomputable def project3D (source : List V2) (sourceToPlane : Iso) (k : M3) : Res (List V3) :=
  let normal : V3 := ⟨sourceToPlane.R.m02, sourceToPlane.R.m12, sourceToPlane.R.m22⟩
  let pt := sourceToPlane.t
  let rays := source.map fun s => (k.inverse.mulVec ⟨s.x, s.y, 1⟩).normalized
  (Res.mapList (fun ray => linePlane normal pt ray 0 lineEps) rays).bind fun pts =>
    .ok (pts.map fun p => sourceToPlane.inv.apply p)

/-- `compute3DProjectionError` of one observation (`projection.cpp` 60-89). -/
noncomputable def projErr3 (obs : Obs Corr2) (intr : Intr) (mountToCamera mountToTarget : Iso) : Res (List ℝ) :=
  let cameraMatrix : M3 := ⟨intr.fx, 0, intr.cx, 0, intr.fy, intr.cy, 0, 0, 1⟩
  let cameraToTarget := mountToCamera.inv * obs.toCameraMount.inv * obs.toTargetMount * mountToTarget
  (project3D (obs.corrs.map fun c => c.inImage) cameraToTarget cameraMatrix).bind fun projected =>
    .ok (List.zipWith (fun t p => (t - p).norm) (obs.corrs.map fun c => c.inTarget) projected)

/-- `compute3DProjectionError` of a set of observations (`projection.cpp` 91-109): the array grows by the errors of each
observation. -/
noncomputable def projErr3Set (observations : List (Obs Corr2)) (intr : Intr) (mountToCamera mountToTarget : Iso) :
    Res (List ℝ) :=
  Res.foldList (fun error obs => (projErr3 obs intr mountToCamera mountToTarget).bind fun e => .ok (error ++ e)) []
    observations

end RCT
