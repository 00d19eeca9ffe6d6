import Mathlib.Analysis.Real.Sqrt
import Mathlib.Tactic.Ring
import Mathlib.Tactic.Linarith
import Mathlib.Tactic.LinearCombination
import Mathlib.Tactic.FieldSimp
import Mathlib.Tactic.NormNum

/-!
# Vectors, matrices, isometries, quaternions over ℝ

Plain structures with explicit formulas; they stand for the fixed-size Eigen types used by the code.
Rounding is not modelled: `double` is ℝ.
-/

namespace RCT

@[ext] structure V2 where
  x : ℝ
  y : ℝ

@[ext] structure V3 where
  x : ℝ
  y : ℝ
  z : ℝ

/-- 3x3 matrix, `mrc` is row `r`, column `c`. -/
@[ext] structure M3 where
  m00 : ℝ
  m01 : ℝ
  m02 : ℝ
  m10 : ℝ
  m11 : ℝ
  m12 : ℝ
  m20 : ℝ
  m21 : ℝ
  m22 : ℝ

/-- `Eigen::Isometry3d`: linear part and translation. -/
@[ext] structure Iso where
  R : M3
  t : V3

@[ext] structure Quat where
  w : ℝ
  x : ℝ
  y : ℝ
  z : ℝ

namespace V2
instance : Zero V2 := ⟨⟨0, 0⟩⟩
instance : Add V2 := ⟨fun a b => ⟨a.x + b.x, a.y + b.y⟩⟩
instance : Sub V2 := ⟨fun a b => ⟨a.x - b.x, a.y - b.y⟩⟩
def smul (k : ℝ) (a : V2) : V2 := ⟨k * a.x, k * a.y⟩
def normSq (a : V2) : ℝ := a.x * a.x + a.y * a.y
noncomputable def norm (a : V2) : ℝ := Real.sqrt a.normSq
@[simp] theorem zero_x : (0 : V2).x = 0 := rfl
@[simp] theorem zero_y : (0 : V2).y = 0 := rfl
@[simp] theorem add_x (a b : V2) : (a + b).x = a.x + b.x := rfl
@[simp] theorem add_y (a b : V2) : (a + b).y = a.y + b.y := rfl
@[simp] theorem sub_x (a b : V2) : (a - b).x = a.x - b.x := rfl
@[simp] theorem sub_y (a b : V2) : (a - b).y = a.y - b.y := rfl
end V2

namespace V3
instance : Zero V3 := ⟨⟨0, 0, 0⟩⟩
instance : Add V3 := ⟨fun a b => ⟨a.x + b.x, a.y + b.y, a.z + b.z⟩⟩
instance : Sub V3 := ⟨fun a b => ⟨a.x - b.x, a.y - b.y, a.z - b.z⟩⟩
instance : Neg V3 := ⟨fun a => ⟨-a.x, -a.y, -a.z⟩⟩
def smul (k : ℝ) (a : V3) : V3 := ⟨k * a.x, k * a.y, k * a.z⟩
def dot (a b : V3) : ℝ := a.x * b.x + a.y * b.y + a.z * b.z
def cross (a b : V3) : V3 := ⟨a.y * b.z - a.z * b.y, a.z * b.x - a.x * b.z, a.x * b.y - a.y * b.x⟩
def normSq (a : V3) : ℝ := a.dot a
noncomputable def norm (a : V3) : ℝ := Real.sqrt a.normSq
/-- `Eigen::MatrixBase::normalized()`: the vector divided by its norm; a vector whose squared norm
is not positive is returned unchanged. -/
noncomputable def normalized (a : V3) : V3 := if a.normSq > 0 then smul (1 / a.norm) a else a
@[simp] theorem zero_x : (0 : V3).x = 0 := rfl
@[simp] theorem zero_y : (0 : V3).y = 0 := rfl
@[simp] theorem zero_z : (0 : V3).z = 0 := rfl
@[simp] theorem add_x (a b : V3) : (a + b).x = a.x + b.x := rfl
@[simp] theorem add_y (a b : V3) : (a + b).y = a.y + b.y := rfl
@[simp] theorem add_z (a b : V3) : (a + b).z = a.z + b.z := rfl
@[simp] theorem sub_x (a b : V3) : (a - b).x = a.x - b.x := rfl
@[simp] theorem sub_y (a b : V3) : (a - b).y = a.y - b.y := rfl
@[simp] theorem sub_z (a b : V3) : (a - b).z = a.z - b.z := rfl
@[simp] theorem neg_x (a : V3) : (-a).x = -a.x := rfl
@[simp] theorem neg_y (a : V3) : (-a).y = -a.y := rfl
@[simp] theorem neg_z (a : V3) : (-a).z = -a.z := rfl
@[simp] theorem smul_x (k : ℝ) (a : V3) : (smul k a).x = k * a.x := rfl
@[simp] theorem smul_y (k : ℝ) (a : V3) : (smul k a).y = k * a.y := rfl
@[simp] theorem smul_z (k : ℝ) (a : V3) : (smul k a).z = k * a.z := rfl
end V3

namespace M3
def one : M3 := ⟨1, 0, 0, 0, 1, 0, 0, 0, 1⟩
instance : One M3 := ⟨one⟩
instance : Mul M3 := ⟨fun a b =>
  ⟨a.m00 * b.m00 + a.m01 * b.m10 + a.m02 * b.m20,
   a.m00 * b.m01 + a.m01 * b.m11 + a.m02 * b.m21,
   a.m00 * b.m02 + a.m01 * b.m12 + a.m02 * b.m22,
   a.m10 * b.m00 + a.m11 * b.m10 + a.m12 * b.m20,
   a.m10 * b.m01 + a.m11 * b.m11 + a.m12 * b.m21,
   a.m10 * b.m02 + a.m11 * b.m12 + a.m12 * b.m22,
   a.m20 * b.m00 + a.m21 * b.m10 + a.m22 * b.m20,
   a.m20 * b.m01 + a.m21 * b.m11 + a.m22 * b.m21,
   a.m20 * b.m02 + a.m21 * b.m12 + a.m22 * b.m22⟩⟩
def tr (a : M3) : M3 := ⟨a.m00, a.m10, a.m20, a.m01, a.m11, a.m21, a.m02, a.m12, a.m22⟩
def det (a : M3) : ℝ :=
  a.m00 * (a.m11 * a.m22 - a.m12 * a.m21) - a.m01 * (a.m10 * a.m22 - a.m12 * a.m20)
    + a.m02 * (a.m10 * a.m21 - a.m11 * a.m20)
def trace (a : M3) : ℝ := a.m00 + a.m11 + a.m22
def mulVec (a : M3) (v : V3) : V3 :=
  ⟨a.m00 * v.x + a.m01 * v.y + a.m02 * v.z,
   a.m10 * v.x + a.m11 * v.y + a.m12 * v.z,
   a.m20 * v.x + a.m21 * v.y + a.m22 * v.z⟩
/-- Proper rotation: orthonormal with determinant one. -/
def IsRot (a : M3) : Prop := a.tr * a = 1 ∧ a.det = 1
theorem one_def : (1 : M3) = ⟨1, 0, 0, 0, 1, 0, 0, 0, 1⟩ := rfl
@[simp] theorem one_m00 : (1 : M3).m00 = 1 := rfl
@[simp] theorem one_m01 : (1 : M3).m01 = 0 := rfl
@[simp] theorem one_m02 : (1 : M3).m02 = 0 := rfl
@[simp] theorem one_m10 : (1 : M3).m10 = 0 := rfl
@[simp] theorem one_m11 : (1 : M3).m11 = 1 := rfl
@[simp] theorem one_m12 : (1 : M3).m12 = 0 := rfl
@[simp] theorem one_m20 : (1 : M3).m20 = 0 := rfl
@[simp] theorem one_m21 : (1 : M3).m21 = 0 := rfl
@[simp] theorem one_m22 : (1 : M3).m22 = 1 := rfl
theorem mul_def (a b : M3) : a * b =
  ⟨a.m00 * b.m00 + a.m01 * b.m10 + a.m02 * b.m20,
   a.m00 * b.m01 + a.m01 * b.m11 + a.m02 * b.m21,
   a.m00 * b.m02 + a.m01 * b.m12 + a.m02 * b.m22,
   a.m10 * b.m00 + a.m11 * b.m10 + a.m12 * b.m20,
   a.m10 * b.m01 + a.m11 * b.m11 + a.m12 * b.m21,
   a.m10 * b.m02 + a.m11 * b.m12 + a.m12 * b.m22,
   a.m20 * b.m00 + a.m21 * b.m10 + a.m22 * b.m20,
   a.m20 * b.m01 + a.m21 * b.m11 + a.m22 * b.m21,
   a.m20 * b.m02 + a.m21 * b.m12 + a.m22 * b.m22⟩ := rfl
end M3

namespace Iso
def one : Iso := ⟨1, 0⟩
instance : One Iso := ⟨one⟩
/-- `Isometry3d * Isometry3d`. -/
instance : Mul Iso := ⟨fun a b => ⟨a.R * b.R, a.R.mulVec b.t + a.t⟩⟩
/-- `Isometry3d * Vector3d`. -/
def apply (a : Iso) (p : V3) : V3 := a.R.mulVec p + a.t
/-- `Isometry3d::inverse()`: transposed linear part, `-Rᵀ t`. -/
def inv (a : Iso) : Iso := ⟨a.R.tr, -(a.R.tr.mulVec a.t)⟩
/-- A rigid transform. -/
def IsRigid (a : Iso) : Prop := a.R.IsRot
theorem one_def : (1 : Iso) = ⟨1, 0⟩ := rfl
theorem mul_def (a b : Iso) : a * b = ⟨a.R * b.R, a.R.mulVec b.t + a.t⟩ := rfl
@[simp] theorem one_R : (1 : Iso).R = 1 := rfl
@[simp] theorem one_t : (1 : Iso).t = 0 := rfl
@[simp] theorem mul_R (a b : Iso) : (a * b).R = a.R * b.R := rfl
@[simp] theorem mul_t (a b : Iso) : (a * b).t = a.R.mulVec b.t + a.t := rfl
end Iso

namespace Quat
def normSq (q : Quat) : ℝ := q.w * q.w + q.x * q.x + q.y * q.y + q.z * q.z
/-- Hamilton product (`Eigen::Quaternion::operator*`). -/
instance : Mul Quat := ⟨fun a b =>
  ⟨a.w * b.w - a.x * b.x - a.y * b.y - a.z * b.z,
   a.w * b.x + a.x * b.w + a.y * b.z - a.z * b.y,
   a.w * b.y + a.y * b.w + a.z * b.x - a.x * b.z,
   a.w * b.z + a.z * b.w + a.x * b.y - a.y * b.x⟩⟩
theorem mul_def (a b : Quat) : a * b =
  ⟨a.w * b.w - a.x * b.x - a.y * b.y - a.z * b.z,
   a.w * b.x + a.x * b.w + a.y * b.z - a.z * b.y,
   a.w * b.y + a.y * b.w + a.z * b.x - a.x * b.z,
   a.w * b.z + a.z * b.w + a.x * b.y - a.y * b.x⟩ := rfl
def conj (q : Quat) : Quat := ⟨q.w, -q.x, -q.y, -q.z⟩
instance : Neg Quat := ⟨fun q => ⟨-q.w, -q.x, -q.y, -q.z⟩⟩
def one : Quat := ⟨1, 0, 0, 0⟩
def vec (q : Quat) : V3 := ⟨q.x, q.y, q.z⟩
def IsUnit (q : Quat) : Prop := q.normSq = 1
/-- `Eigen::QuaternionBase::toRotationMatrix()` (no normalisation). -/
def toMat (q : Quat) : M3 :=
  ⟨1 - (2 * q.y * q.y + 2 * q.z * q.z), 2 * q.y * q.x - 2 * q.z * q.w, 2 * q.z * q.x + 2 * q.y * q.w,
   2 * q.y * q.x + 2 * q.z * q.w, 1 - (2 * q.x * q.x + 2 * q.z * q.z), 2 * q.z * q.y - 2 * q.x * q.w,
   2 * q.z * q.x - 2 * q.y * q.w, 2 * q.z * q.y + 2 * q.x * q.w, 1 - (2 * q.x * q.x + 2 * q.y * q.y)⟩
end Quat

end RCT
