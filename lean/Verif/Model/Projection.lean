import Verif.Core.Vec

/-!
# Camera projection

Models `rct_optimizations/include/rct_optimizations/types.h` 13-28 and
`rct_optimizations/include/rct_optimizations/ceres_math_utilities.h` 36-91 at `T = double`.
-/

namespace RCT

/-- `types.h` 13-28, `CameraIntrinsics` (memory order `fx, fy, cx, cy`). -/
@[ext] structure Intr where
  fx : ℝ
  fy : ℝ
  cx : ℝ
  cy : ℝ

/-- `ceres_math_utilities.h` 36-61: `projectPoint(intr, const T point[3], T xy_image[2])`. -/
noncomputable def projectPoint (i : Intr) (p : V3) : V2 :=
  let xp := if p.z = 0 then p.x else p.x / p.z
  let yp := if p.z = 0 then p.y else p.y / p.z
  ⟨i.fx * xp + i.cx, i.fy * yp + i.cy⟩

/-- `ceres_math_utilities.h` 63-91: the overload on `Eigen::Matrix<T, 3, 1>`. The condition of line 72 is
`std::abs(bool)` of `point.z() - 0 > 1e-10`, i.e. plainly `point.z() > 1e-10`. -/
noncomputable def projectPointE (i : Intr) (p : V3) : V2 :=
  let s : V3 := if p.z - 0 > 1 / 10 ^ 10 then ⟨p.x / p.z, p.y / p.z, 1⟩ else ⟨p.x, p.y, 1⟩
  let k : M3 := ⟨i.fx, 0, i.cx, 0, i.fy, i.cy, 0, 0, 1⟩
  let im := k.mulVec s
  ⟨im.x, im.y⟩

end RCT
