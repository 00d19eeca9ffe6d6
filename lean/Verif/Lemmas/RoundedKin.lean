import Verif.Model.RoundedKin
import Verif.Spec.RoundedKin
import Verif.Lemmas.RoundedMore
import Verif.Lemmas.DH

/-!
# Rounding errors of products of rigid motions
-/

namespace RCT

open Spec

def M3.row0 (m : M3) : V3 := ⟨m.m00, m.m01, m.m02⟩
def M3.row1 (m : M3) : V3 := ⟨m.m10, m.m11, m.m12⟩
def M3.row2 (m : M3) : V3 := ⟨m.m20, m.m21, m.m22⟩

theorem V3.norm_le_two {v : V3} {m : ℝ} (hx : |v.x| ≤ m) (hy : |v.y| ≤ m) (hz : |v.z| ≤ m) : v.norm ≤ 2 * m := by
  have hm : 0 ≤ m := (abs_nonneg _).trans hx
  apply V3.norm_le_of_normSq (by positivity)
  have h1 := abs_le.1 hx
  have h2 := abs_le.1 hy
  have h3 := abs_le.1 hz
  unfold V3.normSq V3.dot
  nlinarith

/-- Every row of the one matrix is near that of the other. -/
structure RowsNear (α : ℝ) (A' A : M3) : Prop where
  r0 : (A'.row0 - A.row0).norm ≤ α * dblUnit
  r1 : (A'.row1 - A.row1).norm ≤ α * dblUnit
  r2 : (A'.row2 - A.row2).norm ≤ α * dblUnit

/-- Every entry of the one matrix is near that of the other. -/
structure EntriesNear (b : ℝ) (A' A : M3) : Prop where
  m00 : |A'.m00 - A.m00| ≤ b * dblUnit
  m01 : |A'.m01 - A.m01| ≤ b * dblUnit
  m02 : |A'.m02 - A.m02| ≤ b * dblUnit
  m10 : |A'.m10 - A.m10| ≤ b * dblUnit
  m11 : |A'.m11 - A.m11| ≤ b * dblUnit
  m12 : |A'.m12 - A.m12| ≤ b * dblUnit
  m20 : |A'.m20 - A.m20| ≤ b * dblUnit
  m21 : |A'.m21 - A.m21| ≤ b * dblUnit
  m22 : |A'.m22 - A.m22| ≤ b * dblUnit

theorem RowsNear.entries {α : ℝ} {A' A : M3} (h : RowsNear α A' A) : EntriesNear α A' A :=
  ⟨(V3.abs_x_le _).trans h.r0, (V3.abs_y_le _).trans h.r0, (V3.abs_z_le _).trans h.r0,
   (V3.abs_x_le _).trans h.r1, (V3.abs_y_le _).trans h.r1, (V3.abs_z_le _).trans h.r1,
   (V3.abs_x_le _).trans h.r2, (V3.abs_y_le _).trans h.r2, (V3.abs_z_le _).trans h.r2⟩

theorem EntriesNear.rows {b : ℝ} {A' A : M3} (h : EntriesNear b A' A) : RowsNear (2 * b) A' A :=
  ⟨(V3.norm_le_two h.m00 h.m01 h.m02).trans (by linarith), (V3.norm_le_two h.m10 h.m11 h.m12).trans (by linarith),
   (V3.norm_le_two h.m20 h.m21 h.m22).trans (by linarith)⟩

theorem RowsNear.mono {α β : ℝ} {A' A : M3} (h : RowsNear α A' A) (hab : α ≤ β) : RowsNear β A' A := by
  have := mul_le_mul_of_nonneg_right hab dblUnit_pos.le
  exact ⟨h.r0.trans this, h.r1.trans this, h.r2.trans this⟩

theorem M3.IsRot.row_norm {a : M3} (h : a.IsRot) : a.row0.norm = 1 ∧ a.row1.norm = 1 ∧ a.row2.norm = 1 := by
  obtain ⟨h0, h1, h2, -⟩ := h.rows
  refine ⟨?_, ?_, ?_⟩ <;> simp [V3.norm, V3.normSq, V3.dot, M3.row0, M3.row1, M3.row2, h0, h1, h2]

namespace Double

variable {D : Double}

theorem abs_products (a b : V3) : |a.x * b.x| + |a.y * b.y| + |a.z * b.z| ≤ a.norm * b.norm := by
  have h := V3.abs_dot_le ⟨|a.x|, |a.y|, |a.z|⟩ ⟨|b.x|, |b.y|, |b.z|⟩
  have e : ∀ v : V3, (⟨|v.x|, |v.y|, |v.z|⟩ : V3).norm = v.norm := by
    intro v; unfold V3.norm V3.normSq V3.dot; simp
  rw [e, e] at h
  have h' := le_abs_self ((⟨|a.x|, |a.y|, |a.z|⟩ : V3).dot ⟨|b.x|, |b.y|, |b.z|⟩)
  simp only [abs_mul]
  unfold V3.dot at h h'
  simp only at h h'
  linarith

theorem WF.dot_round (hD : D.WF) (a b : V3) : |D.dot a b - a.dot b| ≤ 4 * (dblUnit * (a.norm * b.norm)) := by
  have hu := dblUnit_pos
  have hu' := dblUnit_le
  have hp := abs_products a b
  unfold Double.dot Double.add Double.mul V3.dot
  have h1 := hD.rnd_err (a.x * b.x)
  have h2 := hD.rnd_err (a.y * b.y)
  have h3 := hD.rnd_err (a.z * b.z)
  generalize a.x * b.x = x at *
  generalize a.y * b.y = y at *
  generalize a.z * b.z = z at *
  have h4 := hD.rnd_err (D.rnd x + D.rnd y)
  generalize D.rnd x = x' at *
  generalize D.rnd y = y' at *
  generalize D.rnd z = z' at *
  have h5 := hD.rnd_err (D.rnd (x' + y') + z')
  generalize D.rnd (x' + y') = s at *
  generalize D.rnd (s + z') = w at *
  have px := abs_nonneg x
  have py := abs_nonneg y
  have pz := abs_nonneg z
  have ux : dblUnit * |x| ≤ 1 / 100 * |x| := mul_le_mul_of_nonneg_right (hu'.trans (by norm_num)) px
  have uy : dblUnit * |y| ≤ 1 / 100 * |y| := mul_le_mul_of_nonneg_right (hu'.trans (by norm_num)) py
  have uz : dblUnit * |z| ≤ 1 / 100 * |z| := mul_le_mul_of_nonneg_right (hu'.trans (by norm_num)) pz
  have t1 : |x' + y'| ≤ 101 / 100 * (|x| + |y|) := by
    have e : x' + y' = (x + y) + ((x' - x) + (y' - y)) := by ring
    have := abs_add_le (x + y) ((x' - x) + (y' - y))
    have := abs_add_le (x' - x) (y' - y)
    have := abs_add_le x y
    rw [e]; linarith
  have us : dblUnit * |x' + y'| ≤ 1 / 100 * |x' + y'| := mul_le_mul_of_nonneg_right (hu'.trans (by norm_num)) (abs_nonneg _)
  have t2 : |s + z'| ≤ 11 / 10 * (|x| + |y| + |z|) := by
    have e : s + z' = (x' + y') + (s - (x' + y')) + z + (z' - z) := by ring
    have a1 := abs_add_le ((x' + y') + (s - (x' + y')) + z) (z' - z)
    have a2 := abs_add_le ((x' + y') + (s - (x' + y'))) z
    have a3 := abs_add_le (x' + y') (s - (x' + y'))
    rw [e]
    linarith
  have e : w - (x + y + z) = (w - (s + z')) + (s - (x' + y')) + ((x' - x) + (y' - y) + (z' - z)) := by ring
  have a1 := abs_add_le ((w - (s + z')) + (s - (x' + y'))) ((x' - x) + (y' - y) + (z' - z))
  have a2 := abs_add_le (w - (s + z')) (s - (x' + y'))
  have a3 := abs_add_le ((x' - x) + (y' - y)) (z' - z)
  have a4 := abs_add_le (x' - x) (y' - y)
  rw [e]
  have t3 : dblUnit * |s + z'| ≤ dblUnit * (11 / 10 * (|x| + |y| + |z|)) := mul_le_mul_of_nonneg_left t2 hu.le
  have t4 : dblUnit * |x' + y'| ≤ dblUnit * (101 / 100 * (|x| + |y|)) := mul_le_mul_of_nonneg_left t1 hu.le
  have t5 : dblUnit * (|x| + |y| + |z|) ≤ dblUnit * (a.norm * b.norm) := mul_le_mul_of_nonneg_left hp hu.le
  have t6 : 0 ≤ dblUnit * |x| := by positivity
  have t7 : 0 ≤ dblUnit * |y| := by positivity
  have t8 : 0 ≤ dblUnit * |z| := by positivity
  linarith

/-- A scalar product whose factors are themselves known up to rounding. -/
theorem WF.scalar_step (hD : D.WF) {a a' b b' : V3} {α β S : ℝ} (ha : (a' - a).norm ≤ α * dblUnit) (h1 : a.norm ≤ 1) (hb : (b' - b).norm ≤ β * (dblUnit * S))
    (hS : b.norm ≤ S) (hα : 0 ≤ α ∧ α * dblUnit ≤ 1 / 1000) (hβ : 0 ≤ β ∧ β * dblUnit ≤ 1 / 1000) :
    |D.dot a' b' - a.dot b| ≤ (1001 / 1000 * α + β + 5) * (dblUnit * S) := by
  have hu := dblUnit_pos
  have hS0 : 0 ≤ S := (V3.norm_nonneg b).trans hS
  have na : a'.norm ≤ 1001 / 1000 := by have := V3.norm_le_sub a' a; linarith
  have nb : b'.norm ≤ 1001 / 1000 * S := by
    have := V3.norm_le_sub b' b
    have : β * (dblUnit * S) ≤ 1 / 1000 * S := by rw [← mul_assoc]; exact mul_le_mul_of_nonneg_right hβ.2 hS0
    linarith
  have t0 := hD.dot_round a' b'
  have t1 : a'.norm * b'.norm ≤ 5 / 4 * S := by
    have := mul_le_mul na nb (V3.norm_nonneg _) (by norm_num)
    nlinarith
  have t2 : |(a' - a).dot b'| ≤ α * dblUnit * (1001 / 1000 * S) :=
    (V3.abs_dot_le _ _).trans (mul_le_mul ha nb (V3.norm_nonneg _) (by nlinarith))
  have t3 : |a.dot (b' - b)| ≤ β * (dblUnit * S) := by
    have := (V3.abs_dot_le a (b' - b)).trans (mul_le_mul h1 hb (V3.norm_nonneg _) (by norm_num))
    linarith
  have e : D.dot a' b' - a.dot b = (D.dot a' b' - a'.dot b') + (a' - a).dot b' + a.dot (b' - b) := by
    simp only [V3.dot, V3.sub_x, V3.sub_y, V3.sub_z]; ring
  have a1 := abs_add_le ((D.dot a' b' - a'.dot b') + (a' - a).dot b') (a.dot (b' - b))
  have a2 := abs_add_le (D.dot a' b' - a'.dot b') ((a' - a).dot b')
  rw [e]
  have t5 : dblUnit * (a'.norm * b'.norm) ≤ dblUnit * (5 / 4 * S) := mul_le_mul_of_nonneg_left t1 hu.le
  nlinarith

/-- A sum whose terms are themselves known up to rounding. -/
theorem WF.sum_step (hD : D.WF) {a a' b b' e f W : ℝ} (ha : |a' - a| ≤ e) (hb : |b' - b| ≤ f) (hW : |a + b| ≤ W) :
    |D.add a' b' - (a + b)| ≤ e + f + dblUnit * (W + e + f) := by
  have hu := dblUnit_pos
  have h := hD.rnd_err (a' + b')
  unfold Double.add
  have e1 : a' + b' = (a + b) + ((a' - a) + (b' - b)) := by ring
  have t1 : |a' + b'| ≤ W + e + f := by
    have := abs_add_le (a + b) ((a' - a) + (b' - b))
    have := abs_add_le (a' - a) (b' - b)
    rw [e1]; linarith
  have t2 := mul_le_mul_of_nonneg_left t1 hu.le
  have e2 : D.rnd (a' + b') - (a + b) = (D.rnd (a' + b') - (a' + b')) + ((a' - a) + (b' - b)) := by ring
  have := abs_add_le (D.rnd (a' + b') - (a' + b')) ((a' - a) + (b' - b))
  have := abs_add_le (a' - a) (b' - b)
  rw [e2]; linarith

/-- A row of a product. -/
theorem WF.row_step (hD : D.WF) {a a' : V3} {B B' : M3} {α b : ℝ} (ha : (a' - a).norm ≤ α * dblUnit) (h1 : a.norm ≤ 1) (hB : B.IsRot)
    (hb : EntriesNear b B' B) (hα : 0 ≤ α ∧ α * dblUnit ≤ 1 / 1000) (hβ : 0 ≤ b ∧ b * dblUnit ≤ 1 / 1000) :
    (D.rowMul a' B' - B.tr.mulVec a).norm ≤ (α + 5 * b + 10) * dblUnit := by
  have hu := dblUnit_pos
  have na : a'.norm ≤ 1001 / 1000 := by have := V3.norm_le_sub a' a; linarith
  have key : ∀ c c' : V3, c.norm ≤ 1 → |c'.x - c.x| ≤ b * dblUnit → |c'.y - c.y| ≤ b * dblUnit → |c'.z - c.z| ≤ b * dblUnit →
      |D.dot a' c' - a'.dot c| ≤ (9 / 4 * b + 9 / 2) * dblUnit := by
    intro c c' hc hx hy hz
    have hd : (c' - c).norm ≤ 2 * (b * dblUnit) := V3.norm_le_two hx hy hz
    have hc' : c'.norm ≤ 1002 / 1000 := by have := V3.norm_le_sub c' c; linarith
    have t0 := hD.dot_round a' c'
    have t1 : a'.norm * c'.norm ≤ 11 / 10 := by
      have := mul_le_mul na hc' (V3.norm_nonneg _) (by norm_num)
      linarith
    have t2 : |a'.dot (c' - c)| ≤ 1001 / 1000 * (2 * (b * dblUnit)) :=
      (V3.abs_dot_le _ _).trans (mul_le_mul na hd (V3.norm_nonneg _) (by norm_num))
    have e : D.dot a' c' - a'.dot c = (D.dot a' c' - a'.dot c') + a'.dot (c' - c) := by
      simp only [V3.dot, V3.sub_x, V3.sub_y, V3.sub_z]; ring
    have := abs_add_le (D.dot a' c' - a'.dot c') (a'.dot (c' - c))
    have t5 : dblUnit * (a'.norm * c'.norm) ≤ dblUnit * (11 / 10) := mul_le_mul_of_nonneg_left t1 hu.le
    have : 0 ≤ b * dblUnit := mul_nonneg hβ.1 hu.le
    rw [e]
    linarith
  obtain ⟨n0, n1, n2⟩ := hB.tr.row_norm
  have k0 := key B.tr.row0 ⟨B'.m00, B'.m10, B'.m20⟩ n0.le hb.m00 hb.m10 hb.m20
  have k1 := key B.tr.row1 ⟨B'.m01, B'.m11, B'.m21⟩ n1.le hb.m01 hb.m11 hb.m21
  have k2 := key B.tr.row2 ⟨B'.m02, B'.m12, B'.m22⟩ n2.le hb.m02 hb.m12 hb.m22
  have d1 : (B.tr.mulVec a' - B.tr.mulVec a).norm ≤ α * dblUnit := by
    have : B.tr.mulVec a' - B.tr.mulVec a = B.tr.mulVec (a' - a) := by
      unfold M3.mulVec; ext <;> simp <;> ring
    rw [this, M3.IsRot.norm hB.tr]; exact ha
  have e0 : B.tr.mulVec a' = ⟨a'.dot B.tr.row0, a'.dot B.tr.row1, a'.dot B.tr.row2⟩ := by
    unfold M3.mulVec V3.dot M3.row0 M3.row1 M3.row2; ext <;> simp <;> ring
  have d2 : (D.rowMul a' B' - B.tr.mulVec a').norm ≤ 2 * ((9 / 4 * b + 9 / 2) * dblUnit) := by
    rw [e0]
    exact V3.norm_le_two k0 k1 k2
  have := V3.norm_sub_le (D.rowMul a' B') (B.tr.mulVec a') (B.tr.mulVec a)
  have : 0 ≤ b * dblUnit := mul_nonneg hβ.1 hu.le
  linarith

theorem WF.mul_rows (hD : D.WF) {A A' B B' : M3} {α b : ℝ} (hA : A.IsRot) (ha : RowsNear α A' A) (hB : B.IsRot)
    (hb : EntriesNear b B' B) (hα : 0 ≤ α ∧ α * dblUnit ≤ 1 / 1000) (hβ : 0 ≤ b ∧ b * dblUnit ≤ 1 / 1000) :
    RowsNear (α + 5 * b + 10) (D.mulM A' B') (A * B) := by
  obtain ⟨n0, n1, n2⟩ := hA.row_norm
  have e0 : (A * B).row0 = B.tr.mulVec A.row0 := by
    rw [M3.mul_def]; unfold M3.mulVec M3.row0 M3.tr; ext <;> simp <;> ring
  have e1 : (A * B).row1 = B.tr.mulVec A.row1 := by
    rw [M3.mul_def]; unfold M3.mulVec M3.row1 M3.tr; ext <;> simp <;> ring
  have e2 : (A * B).row2 = B.tr.mulVec A.row2 := by
    rw [M3.mul_def]; unfold M3.mulVec M3.row2 M3.tr; ext <;> simp <;> ring
  refine ⟨?_, ?_, ?_⟩
  · rw [e0]; exact hD.row_step ha.r0 n0.le hB hb hα hβ
  · rw [e1]; exact hD.row_step ha.r1 n1.le hB hb hα hβ
  · rw [e2]; exact hD.row_step ha.r2 n2.le hB hb hα hβ

end Double

end RCT
