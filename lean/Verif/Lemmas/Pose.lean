import Verif.Lemmas.Vec
import Verif.Model.Pose
import Mathlib.Analysis.Real.Pi.Bounds

/-! Lemmas on rotation conversions. -/

namespace RCT
open Real

theorem dblEps_pos : 0 < dblEps := by unfold dblEps; positivity

/-- An angle-axis with unit axis gives a rotation. -/
theorem AngleAxis.toMat_isRot {a : AngleAxis} (h : a.axis.normSq = 1) : a.toMat.IsRot := by
  have hcs : Real.cos a.angle * Real.cos a.angle + Real.sin a.angle * Real.sin a.angle = 1 := by
    have := Real.cos_sq_add_sin_sq a.angle; nlinarith
  simp only [V3.normSq, V3.dot] at h
  have hu : a.axis.x * a.axis.x = 1 - a.axis.y * a.axis.y - a.axis.z * a.axis.z := by linarith
  apply M3.IsRot.of_cols <;> simp only [AngleAxis.toMat, M3.det]
  all_goals generalize Real.cos a.angle = c at *
  all_goals generalize Real.sin a.angle = s at *
  all_goals grind

theorem AngleAxis.toMat_zero_angle (u : V3) : AngleAxis.toMat ⟨0, u⟩ = 1 := by
  simp only [AngleAxis.toMat, M3.one_def]; ext <;> simp

/-- `poseTransformPoint` is the action of `poseCalToEigen`. -/
theorem poseTransformPoint_eq (p : Pose6) (pt : V3) :
    poseTransformPoint p pt = (poseCalToEigen p).apply pt := by
  show transformPoint p.rot p.trans pt = _
  unfold transformPoint poseCalToEigen angleAxisRotatePoint
  by_cases h : p.rot.dot p.rot > dblEps
  · have hne : p.rot.normSq > 0 := lt_trans dblEps_pos h
    simp only [if_pos h, V3.normalized, if_pos hne]
    simp only [V3.norm, V3.normSq]
    generalize Real.sqrt (p.rot.dot p.rot) = t
    simp only [AngleAxis.toMat, Iso.apply, M3.mulVec, V3.cross, V3.dot, V3.smul]
    ext <;> simp only [V3.add_x, V3.add_y, V3.add_z] <;> ring
  · simp only [if_neg h]
    simp only [Iso.apply, M3.mulVec, V3.cross]
    ext <;> simp only [V3.add_x, V3.add_y, V3.add_z] <;> ring

theorem transformPoint_eq (p : Pose6) (pt : V3) :
    transformPoint p.rot p.trans pt = (poseCalToEigen p).apply pt := poseTransformPoint_eq p pt

/-- All the 2x2 minor identities behind the matrix to quaternion conversion. -/
theorem quatIds {m : M3} (h : m.IsRot) :
    let a := 1 + m.m00 + m.m11 + m.m22
    let b := 1 + m.m00 - m.m11 - m.m22
    let c := 1 - m.m00 + m.m11 - m.m22
    let d := 1 - m.m00 - m.m11 + m.m22
    let A := m.m21 - m.m12
    let B := m.m02 - m.m20
    let C := m.m10 - m.m01
    let P := m.m10 + m.m01
    let Q := m.m20 + m.m02
    let S := m.m21 + m.m12
    (a * b = A * A ∧ a * c = B * B ∧ a * d = C * C ∧ a * P = A * B ∧ a * Q = A * C ∧ a * S = B * C) ∧
    (b * c = P * P ∧ b * d = Q * Q ∧ b * B = A * P ∧ b * C = A * Q ∧ b * S = P * Q) ∧
    (c * d = S * S ∧ c * A = B * P ∧ c * C = B * S ∧ c * Q = P * S) ∧
    (d * A = C * Q ∧ d * B = C * S ∧ d * P = Q * S) := by
  obtain ⟨c1, c2, c3, c4, c5, c6, c7, c8, c9⟩ := h.cof
  obtain ⟨r1, r2, r3, r4, r5, r6⟩ := h.rows
  obtain ⟨k1, k2, k3, k4, k5, k6⟩ := h.cols
  refine ⟨⟨?_, ?_, ?_, ?_, ?_, ?_⟩, ⟨?_, ?_, ?_, ?_, ?_⟩, ⟨?_, ?_, ?_, ?_⟩, ⟨?_, ?_, ?_⟩⟩ <;> grind

/-- From the six products of one row of `4 q qᵀ` recover the whole matrix: scalar part dominant. -/
theorem toQuat_core {a b c d A B C P Q S t : ℝ} (ht0 : 0 < t) (htt : t * t = a)
    (e1 : a * b = A * A) (e2 : a * c = B * B) (e3 : a * d = C * C)
    (e4 : a * P = A * B) (e5 : a * Q = A * C) (e6 : a * S = B * C) :
    let k := (1 / 2) / t
    4 * (t / 2) * (t / 2) = a ∧ 4 * (A * k) * (A * k) = b ∧ 4 * (B * k) * (B * k) = c ∧ 4 * (C * k) * (C * k) = d ∧
    4 * (t / 2) * (A * k) = A ∧ 4 * (t / 2) * (B * k) = B ∧ 4 * (t / 2) * (C * k) = C ∧
    4 * (A * k) * (B * k) = P ∧ 4 * (A * k) * (C * k) = Q ∧ 4 * (B * k) * (C * k) = S := by
  have hne : t ≠ 0 := ht0.ne'
  subst htt
  refine ⟨?_, ?_, ?_, ?_, ?_, ?_, ?_, ?_, ?_, ?_⟩ <;> field_simp <;> linarith

theorem toMat_of_products {m : M3} {q : Quat}
    (e0 : 4 * q.w * q.w = 1 + m.m00 + m.m11 + m.m22)
    (e1 : 4 * q.x * q.x = 1 + m.m00 - m.m11 - m.m22)
    (e2 : 4 * q.y * q.y = 1 - m.m00 + m.m11 - m.m22)
    (e3 : 4 * q.z * q.z = 1 - m.m00 - m.m11 + m.m22)
    (e4 : 4 * q.w * q.x = m.m21 - m.m12) (e5 : 4 * q.w * q.y = m.m02 - m.m20) (e6 : 4 * q.w * q.z = m.m10 - m.m01)
    (e7 : 4 * q.x * q.y = m.m10 + m.m01) (e8 : 4 * q.x * q.z = m.m20 + m.m02) (e9 : 4 * q.y * q.z = m.m21 + m.m12) :
    q.IsUnit ∧ q.toMat = m := by
  constructor
  · unfold Quat.IsUnit Quat.normSq; linarith
  · unfold Quat.toMat; ext <;> simp only <;> linarith

theorem sqrt_facts {r : ℝ} (hr : 0 < r) : 0 < Real.sqrt r ∧ Real.sqrt r * Real.sqrt r = r :=
  ⟨Real.sqrt_pos.2 hr, Real.mul_self_sqrt hr.le⟩

theorem toQuat_w {m : M3} (h : m.IsRot) {t : ℝ} (ht0 : 0 < t) (htt : t * t = m.m00 + m.m11 + m.m22 + 1) (q : Quat)
    (hq : q = ⟨t / 2, (m.m21 - m.m12) * ((1 / 2) / t), (m.m02 - m.m20) * ((1 / 2) / t), (m.m10 - m.m01) * ((1 / 2) / t)⟩) :
    q.IsUnit ∧ q.toMat = m := by
  obtain ⟨⟨a1, a2, a3, a4, a5, a6⟩, _, _, _⟩ := quatIds h
  obtain ⟨f0, f1, f2, f3, f4, f5, f6, f7, f8, f9⟩ :=
    toQuat_core ht0 (a := 1 + m.m00 + m.m11 + m.m22) (by linear_combination htt) a1 a2 a3 a4 a5 a6
  subst hq
  exact toMat_of_products f0 f1 f2 f3 f4 f5 f6 f7 f8 f9

theorem toQuat_x {m : M3} (h : m.IsRot) {t : ℝ} (ht0 : 0 < t) (htt : t * t = m.m00 - m.m11 - m.m22 + 1) (q : Quat)
    (hq : q = ⟨(m.m21 - m.m12) * ((1 / 2) / t), t / 2, (m.m10 + m.m01) * ((1 / 2) / t), (m.m20 + m.m02) * ((1 / 2) / t)⟩) :
    q.IsUnit ∧ q.toMat = m := by
  obtain ⟨⟨a1, a2, a3, a4, a5, a6⟩, ⟨b1, b2, b3, b4, b5⟩, ⟨c1, c2, c3, c4⟩, ⟨d1, d2, d3⟩⟩ := quatIds h
  obtain ⟨f0, f1, f2, f3, f4, f5, f6, f7, f8, f9⟩ :=
    toQuat_core ht0 (a := 1 + m.m00 - m.m11 - m.m22) (b := 1 + m.m00 + m.m11 + m.m22)
      (by linear_combination htt) ((mul_comm _ _).trans a1) b1 b2 b3 b4 b5
  subst hq
  exact toMat_of_products f1 f0 f2 f3 (by linear_combination f4) f7 f8 f5 f6 f9

theorem toQuat_y {m : M3} (h : m.IsRot) {t : ℝ} (ht0 : 0 < t) (htt : t * t = m.m11 - m.m22 - m.m00 + 1) (q : Quat)
    (hq : q = ⟨(m.m02 - m.m20) * ((1 / 2) / t), (m.m01 + m.m10) * ((1 / 2) / t), t / 2, (m.m21 + m.m12) * ((1 / 2) / t)⟩) :
    q.IsUnit ∧ q.toMat = m := by
  obtain ⟨⟨a1, a2, a3, a4, a5, a6⟩, ⟨b1, b2, b3, b4, b5⟩, ⟨c1, c2, c3, c4⟩, ⟨d1, d2, d3⟩⟩ := quatIds h
  obtain ⟨f0, f1, f2, f3, f4, f5, f6, f7, f8, f9⟩ :=
    toQuat_core ht0 (a := 1 - m.m00 + m.m11 - m.m22) (b := 1 + m.m00 + m.m11 + m.m22) (c := 1 + m.m00 - m.m11 - m.m22)
      (by linear_combination htt) ((mul_comm _ _).trans a2) ((mul_comm _ _).trans b1) c1 c2 c3 c4
  subst hq
  apply toMat_of_products <;> simp only
  · exact f1
  · linear_combination f2
  · exact f0
  · exact f3
  · linear_combination f7
  · linear_combination f4
  · exact f8
  · linear_combination f5
  · linear_combination f9
  · exact f6

theorem toQuat_z {m : M3} (h : m.IsRot) {t : ℝ} (ht0 : 0 < t) (htt : t * t = m.m22 - m.m00 - m.m11 + 1) (q : Quat)
    (hq : q = ⟨(m.m10 - m.m01) * ((1 / 2) / t), (m.m02 + m.m20) * ((1 / 2) / t), (m.m12 + m.m21) * ((1 / 2) / t), t / 2⟩) :
    q.IsUnit ∧ q.toMat = m := by
  obtain ⟨⟨a1, a2, a3, a4, a5, a6⟩, ⟨b1, b2, b3, b4, b5⟩, ⟨c1, c2, c3, c4⟩, ⟨d1, d2, d3⟩⟩ := quatIds h
  obtain ⟨f0, f1, f2, f3, f4, f5, f6, f7, f8, f9⟩ :=
    toQuat_core ht0 (a := 1 - m.m00 - m.m11 + m.m22) (b := 1 + m.m00 + m.m11 + m.m22) (c := 1 + m.m00 - m.m11 - m.m22)
      (d := 1 - m.m00 + m.m11 - m.m22)
      (by linear_combination htt) ((mul_comm _ _).trans a3) ((mul_comm _ _).trans b2) ((mul_comm _ _).trans c1) d1 d2 d3
  subst hq
  apply toMat_of_products <;> simp only
  · exact f1
  · linear_combination f2
  · linear_combination f3
  · exact f0
  · linear_combination f7
  · linear_combination f8
  · linear_combination f4
  · linear_combination f9
  · linear_combination f5
  · linear_combination f6

/-- Matrix to quaternion conversion is correct on every rotation matrix, in all branches. -/
theorem M3.IsRot.toQuat {m : M3} (h : m.IsRot) : m.toQuat.IsUnit ∧ m.toQuat.toMat = m := by
  unfold M3.toQuat
  simp only [M3.trace]
  split
  · obtain ⟨ht0, htt⟩ := sqrt_facts (r := m.m00 + m.m11 + m.m22 + 1) (by linarith)
    exact toQuat_w h ht0 htt _ rfl
  · split
    · split
      · obtain ⟨ht0, htt⟩ := sqrt_facts (r := m.m22 - m.m00 - m.m11 + 1) (by linarith)
        exact toQuat_z h ht0 htt _ rfl
      · obtain ⟨ht0, htt⟩ := sqrt_facts (r := m.m11 - m.m22 - m.m00 + 1) (by linarith)
        exact toQuat_y h ht0 htt _ rfl
    · split
      · obtain ⟨ht0, htt⟩ := sqrt_facts (r := m.m22 - m.m00 - m.m11 + 1) (by linarith)
        exact toQuat_z h ht0 htt _ rfl
      · obtain ⟨ht0, htt⟩ := sqrt_facts (r := m.m00 - m.m11 - m.m22 + 1) (by linarith)
        exact toQuat_x h ht0 htt _ rfl

/-- cos and sin of `atan2` on a non-zero point. -/
theorem cos_sin_atan2 {y x : ℝ} (h : x * x + y * y = 1) :
    Real.cos (atan2 y x) = x ∧ Real.sin (atan2 y x) = y := by
  unfold atan2
  have hn : ‖(⟨x, y⟩ : ℂ)‖ = 1 := by
    rw [Complex.norm_def, Complex.normSq_mk, h, Real.sqrt_one]
  constructor
  · rw [Complex.cos_arg (by intro h0; rw [h0] at hn; simp at hn), hn]; simp
  · rw [Complex.sin_arg, hn]; simp

theorem atan2_nonneg {y x : ℝ} (hy : 0 ≤ y) : 0 ≤ atan2 y x := by
  unfold atan2; rw [Complex.arg_nonneg_iff]; exact hy

theorem toAngleAxis_core {q : Quat} {n n' th : ℝ} (hn : n * n = q.x * q.x + q.y * q.y + q.z * q.z)
    (hn' : n' * n' = n * n) (h0 : n' ≠ 0) (hs : Real.sin th * (1 / n') = 2 * q.w) (hc : Real.cos th = 1 - 2 * (n * n)) :
    (⟨q.x / n', q.y / n', q.z / n'⟩ : V3).normSq = 1 ∧
    AngleAxis.toMat ⟨th, ⟨q.x / n', q.y / n', q.z / n'⟩⟩ = q.toMat := by
  have hp : ∀ a b : ℝ, (1 - Real.cos th) * (a / n') * (b / n') = 2 * a * b := by
    intro a b
    rw [hc, ← hn']; field_simp; ring
  have hs' : ∀ a : ℝ, Real.sin th * (a / n') = 2 * a * q.w := by
    intro a
    have : Real.sin th * (a / n') = Real.sin th * (1 / n') * a := by ring
    rw [this, hs]; ring
  constructor
  · have h2 : (⟨q.x / n', q.y / n', q.z / n'⟩ : V3).normSq = (q.x * q.x + q.y * q.y + q.z * q.z) / (n' * n') := by
      simp only [V3.normSq, V3.dot]; field_simp
    rw [h2, ← hn, hn', div_self]
    rw [← hn']; exact mul_self_ne_zero.2 h0
  · simp only [AngleAxis.toMat, hp, hs', Quat.toMat]
    simp only [hc, hn]
    ext <;> simp only <;> ring

/-- Quaternion to angle-axis conversion is correct on unit quaternions: unit axis, non-negative angle, same
rotation. -/
theorem Quat.IsUnit.toAngleAxis {q : Quat} (h : q.IsUnit) :
    q.toAngleAxis.axis.normSq = 1 ∧ 0 ≤ q.toAngleAxis.angle ∧ q.toAngleAxis.toMat = q.toMat := by
  have hn : q.vec.norm * q.vec.norm = q.x * q.x + q.y * q.y + q.z * q.z := V3.norm_sq q.vec
  have hn0 := V3.norm_nonneg q.vec
  have hw := abs_mul_abs_self q.w
  have hu := h
  unfold Quat.IsUnit Quat.normSq at hu
  unfold Quat.toAngleAxis
  by_cases hz : q.vec.norm ≠ 0
  · simp only [if_pos hz]
    generalize q.vec.norm = n at *
    obtain ⟨hc, hs⟩ := cos_sin_atan2 (y := n) (x := |q.w|) (by linarith)
    have hat : 0 ≤ atan2 n |q.w| := atan2_nonneg hn0
    generalize atan2 n |q.w| = th at *
    have h2c : Real.cos (2 * th) = 1 - 2 * (n * n) := by
      rw [Real.cos_two_mul, hc, pow_two, hw]; linarith
    have h2s : Real.sin (2 * th) = 2 * n * |q.w| := by
      rw [Real.sin_two_mul, hc, hs]
    have hcore := toAngleAxis_core (q := q) (n := n) (n' := if q.w < 0 then -n else n) (th := 2 * th) hn
      (by split <;> ring) (by split <;> simpa using hz)
      (by
        rw [h2s]
        split
        · rename_i hwn; rw [abs_of_neg hwn]; field_simp
        · rename_i hwn; rw [abs_of_nonneg (not_lt.1 hwn)]; field_simp) h2c
    exact ⟨hcore.1, by linarith, hcore.2⟩
  · rw [if_neg hz]
    have hz' := V3.norm_eq_zero.1 (not_not.1 hz)
    have hx : q.x = 0 := congrArg V3.x hz'
    have hy : q.y = 0 := congrArg V3.y hz'
    have hzz : q.z = 0 := congrArg V3.z hz'
    refine ⟨by simp [V3.normSq, V3.dot], le_refl _, ?_⟩
    rw [AngleAxis.toMat_zero_angle]
    simp only [Quat.toMat, hx, hy, hzz, M3.one_def]; ext <;> simp

theorem M3.IsRot.toAngleAxis {m : M3} (h : m.IsRot) :
    m.toAngleAxis.axis.normSq = 1 ∧ 0 ≤ m.toAngleAxis.angle ∧ m.toAngleAxis.toMat = m := by
  obtain ⟨h1, h2⟩ := h.toQuat
  obtain ⟨h3, h4, h5⟩ := h1.toAngleAxis
  exact ⟨h3, h4, h5.trans h2⟩

theorem poseCalToEigen_big {p : Pose6} (h : p.rot.normSq > dblEps) :
    poseCalToEigen p = ⟨AngleAxis.toMat ⟨p.rot.norm, p.rot.normalized⟩, p.trans⟩ := by
  unfold poseCalToEigen; exact if_pos h

theorem poseCalToEigen_small {p : Pose6} (h : ¬ p.rot.normSq > dblEps) :
    poseCalToEigen p = ⟨⟨1, -p.rot.z, p.rot.y, p.rot.z, 1, -p.rot.x, -p.rot.y, p.rot.x, 1⟩, p.trans⟩ := by
  unfold poseCalToEigen; exact if_neg h

theorem poseCalToEigen_t (p : Pose6) : (poseCalToEigen p).t = p.trans := by
  unfold poseCalToEigen; simp only; split <;> rfl

/-- Above the threshold the result is rigid. -/
theorem poseCalToEigen_rigid {p : Pose6} (h : p.rot.normSq > dblEps) : (poseCalToEigen p).IsRigid := by
  rw [poseCalToEigen_big h]
  apply AngleAxis.toMat_isRot
  apply V3.normSq_normalized
  intro h0; rw [V3.normSq_eq_zero.2 h0] at h; exact absurd h (not_lt.2 dblEps_pos.le)

theorem poseCalToEigen_zero {p : Pose6} (h : p.rot = 0) : poseCalToEigen p = ⟨1, p.trans⟩ := by
  rw [poseCalToEigen_small (by rw [V3.normSq_eq_zero.2 h]; exact not_lt.2 dblEps_pos.le), h, M3.one_def]
  simp

theorem poseEigenToCal_rot (T : Iso) :
    (poseEigenToCal T).rot = V3.smul T.R.toAngleAxis.angle T.R.toAngleAxis.axis := rfl
theorem poseEigenToCal_trans (T : Iso) : (poseEigenToCal T).trans = T.t := rfl

theorem poseEigenToCal_normSq {T : Iso} (h : T.IsRigid) :
    (poseEigenToCal T).rot.normSq = T.R.toAngleAxis.angle * T.R.toAngleAxis.angle := by
  have h1 := (M3.IsRot.toAngleAxis h).1
  rw [poseEigenToCal_rot]
  simp only [V3.normSq, V3.dot, V3.smul] at *
  linear_combination (T.R.toAngleAxis.angle * T.R.toAngleAxis.angle) * h1

/-- Round trip isometry → 6-value pose → isometry when the rotation angle is zero or its square is above the
threshold of the back conversion. -/
theorem poseCalToEigen_poseEigenToCal {T : Iso} (h : T.IsRigid)
    (ha : T.R.toAngleAxis.angle = 0 ∨ T.R.toAngleAxis.angle * T.R.toAngleAxis.angle > dblEps) :
    poseCalToEigen (poseEigenToCal T) = T := by
  obtain ⟨h1, h2, h3⟩ := M3.IsRot.toAngleAxis h
  have hsq := poseEigenToCal_normSq h
  have hnorm : (poseEigenToCal T).rot.norm = T.R.toAngleAxis.angle := by
    unfold V3.norm; rw [hsq, Real.sqrt_mul_self h2]
  rcases ha with ha | ha
  · have h0 : (poseEigenToCal T).rot = 0 := by
      rw [← V3.normSq_eq_zero, hsq, ha]; ring
    rw [poseCalToEigen_zero h0]
    have hI : T.R = 1 := by
      rw [← h3]
      have : T.R.toAngleAxis = ⟨0, T.R.toAngleAxis.axis⟩ := by ext1 <;> simp [ha]
      rw [this, AngleAxis.toMat_zero_angle]
    ext1
    · exact hI.symm
    · rfl
  · rw [poseCalToEigen_big (by rw [hsq]; exact ha), hnorm]
    have hpos : T.R.toAngleAxis.angle ≠ 0 := by
      intro h0; rw [h0] at ha; have := dblEps_pos; simp at ha; linarith
    have hne : (poseEigenToCal T).rot ≠ 0 := by
      intro h0; rw [V3.normSq_eq_zero.2 h0] at hsq; exact hpos (mul_self_eq_zero.1 hsq.symm)
    have : (poseEigenToCal T).rot.normalized = T.R.toAngleAxis.axis := by
      rw [V3.normalized_of_ne hne, hnorm, poseEigenToCal_rot]
      ext <;> simp <;> field_simp
    rw [this]
    ext1
    · exact h3
    · rfl

end RCT
