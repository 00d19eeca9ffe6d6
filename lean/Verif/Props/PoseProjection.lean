import Verif.Lemmas.PoseSpec
import Verif.Model.Projection

/-!
# C01 – C05: projection and poses
-/

namespace RCT

/-! ## C01 Both image projections agree

Full statement: `∀ i p, projectPoint i p = projectPointE i p`. It is false (`C01_negation`); the exact set on which
it holds is `C01_partial`. -/

/-- The two projections agree exactly on points deeper than 1e-10, points with zero depth, and points whose two
scaled image coordinates vanish. Missing from the full claim: all other points with depth at most 1e-10. -/
theorem C01_partial (i : Intr) (p : V3) :
    projectPoint i p = projectPointE i p ↔
      p.z > 1 / 10 ^ 10 ∨ p.z = 0 ∨ (i.fx * p.x = 0 ∧ i.fy * p.y = 0) := by
  unfold projectPoint projectPointE
  simp only [sub_zero]
  by_cases h1 : p.z > 1 / 10 ^ 10
  · have h0 : p.z ≠ 0 := by intro h; rw [h] at h1; norm_num at h1
    simp only [if_pos h1, if_neg h0, M3.mulVec]
    simp only [h1, true_or, iff_true]
    ext <;> simp
  · by_cases h0 : p.z = 0
    · simp only [if_neg h1, if_pos h0, M3.mulVec]
      simp only [h0, true_or, or_true, iff_true]
      ext <;> simp
    · simp only [if_neg h1, if_neg h0, M3.mulVec, V2.ext_iff]
      have hz1 : p.z ≠ 1 := by intro h; rw [h] at h1; norm_num at h1
      have key : ∀ f a c : ℝ, f * (a / p.z) + c = f * a + 0 * 0 + c * 1 ↔ f * a = 0 := by
        intro f a c
        constructor
        · intro h
          have h2 : f * (a / p.z) = f * a := by linarith
          field_simp at h2
          have : f * a * (1 - p.z) = 0 := by linarith
          rcases mul_eq_zero.1 this with h3 | h3
          · exact h3
          · exact absurd (by linarith) hz1
        · intro h
          have : f * (a / p.z) = f * a / p.z := by ring
          rw [this, h]; simp
      have k1 := key i.fx p.x i.cx
      have k2 := key i.fy p.y i.cy
      simp only [zero_mul, mul_one, add_zero, zero_add] at *
      rw [k1, k2]
      tauto

/-- The full claim fails: a point behind the camera. -/
theorem C01_negation : ¬ ∀ (i : Intr) (p : V3), projectPoint i p = projectPointE i p := by
  intro h
  have := (C01_partial ⟨1, 1, 0, 0⟩ ⟨1, 0, -1⟩).1 (h _ _)
  norm_num at this

/-- The full claim also fails for points in front of the camera, however close to it. -/
theorem C01_negation_in_front : ¬ ∀ (i : Intr) (p : V3), p.z > 0 → projectPoint i p = projectPointE i p := by
  intro h
  have := (C01_partial ⟨1, 1, 0, 0⟩ ⟨1, 0, 1 / 10 ^ 11⟩).1 (h _ _ (by norm_num))
  norm_num at this

example : (⟨1, 2, 3⟩ : V3).z > 1 / 10 ^ 10 := by norm_num

/-! ## C02 Projection is the pinhole model -/

/-- The pixel of a point with non-zero depth is the pinhole projection. -/
theorem C02_pinhole (i : Intr) (p : V3) (h : p.z ≠ 0) : projectPoint i p = Spec.pinhole i p := by
  unfold projectPoint Spec.pinhole; simp [h]

/-- Two points with non-zero depth share a pixel exactly when they lie on one line through the optical centre. -/
theorem C02_ray_iff (i : Intr) (p q : V3) (hx : i.fx ≠ 0) (hy : i.fy ≠ 0) (hp : p.z ≠ 0) (hq : q.z ≠ 0) :
    projectPoint i p = projectPoint i q ↔ Spec.SameRay p q := by
  rw [C02_pinhole i p hp, C02_pinhole i q hq]
  unfold Spec.pinhole Spec.SameRay
  rw [V2.ext_iff]
  simp only [add_left_inj]
  constructor
  · rintro ⟨h1, h2⟩
    have h1' := mul_left_cancel₀ hx h1
    have h2' := mul_left_cancel₀ hy h2
    refine ⟨q.z / p.z, div_ne_zero hq hp, ?_⟩
    have e : ∀ a b : ℝ, a / p.z = b / q.z → b = q.z / p.z * a := by
      intro a b hab
      have : b = b / q.z * q.z := by field_simp
      rw [this, ← hab]; ring
    ext
    · exact e _ _ h1'
    · exact e _ _ h2'
    · simp only; field_simp
  · rintro ⟨k, hk, rfl⟩
    constructor <;> simp only <;> field_simp

/-- Scaling a point by any non-zero factor does not move its pixel (no condition on the focal lengths). -/
theorem C02_scale (i : Intr) (p : V3) (k : ℝ) (hk : k ≠ 0) (hp : p.z ≠ 0) :
    projectPoint i ⟨k * p.x, k * p.y, k * p.z⟩ = projectPoint i p := by
  rw [C02_pinhole i p hp, C02_pinhole i _ (mul_ne_zero hk hp)]
  unfold Spec.pinhole
  ext <;> simp only <;> field_simp

example : (500 : ℝ) ≠ 0 ∧ (⟨1, 2, 3⟩ : V3).z ≠ 0 ∧ Spec.SameRay ⟨1, 2, 3⟩ ⟨2, 4, 6⟩ :=
  ⟨by norm_num, by norm_num, 2, by norm_num, by ext <;> norm_num⟩

/-! ## C03 Point transformation agrees with the reported pose -/

/-- Transforming a point by a 6-value pose inside a cost function is the action of the reported isometry; for every
pose, including zero and tiny rotations. -/
theorem C03_pose_action (p : Pose6) (pt : V3) : poseTransformPoint p pt = (poseCalToEigen p).apply pt :=
  poseTransformPoint_eq p pt

/-- The same for the variant that takes rotation and translation separately. -/
theorem C03_transform_action (rx ry rz x y z : ℝ) (pt : V3) :
    transformPoint ⟨rx, ry, rz⟩ ⟨x, y, z⟩ pt = (poseCalToEigen ⟨rx, ry, rz, x, y, z⟩).apply pt :=
  poseTransformPoint_eq ⟨rx, ry, rz, x, y, z⟩ pt

/-! ## C04 6-value pose to isometry gives a rigid transform

Full statement: `∀ p, Spec.RigidMotion (poseCalToEigen p)`; false for tiny non-zero rotations. -/

/-- The result is a rigid motion exactly when the rotation vector is zero or its squared length exceeds the double
epsilon. Missing from the full claim: non-zero rotation vectors with squared length at most 2^-52. -/
theorem C04_partial (p : Pose6) :
    Spec.RigidMotion (poseCalToEigen p) ↔ p.rot = 0 ∨ p.rot.normSq > 1 / 2 ^ 52 := by
  rw [← rigid_iff]; exact poseCalToEigen_rigid_iff p

/-- The translation is always kept. -/
theorem C04_translation (p : Pose6) : (poseCalToEigen p).t = ⟨p.x, p.y, p.z⟩ := poseCalToEigen_t p

theorem C04_negation : ¬ ∀ p : Pose6, Spec.RigidMotion (poseCalToEigen p) := by
  intro h
  have := (C04_partial ⟨1 / 10 ^ 9, 0, 0, 0, 0, 0⟩).1 (h _)
  rcases this with h1 | h1
  · have := congrArg V3.x h1
    simp [Pose6.rot] at this
  · norm_num [Pose6.rot, V3.normSq, V3.dot] at h1

/-- How far off the tiny rotations are: the determinant exceeds one by the squared length of the rotation vector,
at most 2^-52. -/
theorem C04_defect_size (p : Pose6) (h : ¬ p.rot.normSq > 1 / 2 ^ 52) :
    (poseCalToEigen p).R.det = 1 + p.rot.normSq ∧ p.rot.normSq ≤ 1 / 2 ^ 52 :=
  ⟨poseCalToEigen_small_det h, not_lt.1 h⟩

example : (⟨1, 0, 0, 0, 0, 0⟩ : Pose6).rot.normSq > 1 / 2 ^ 52 := by norm_num [Pose6.rot, V3.normSq, V3.dot]

/-! ## C05 Isometry to 6-value pose and back is lossless

Full statement: `∀ T, Spec.RigidMotion T → poseCalToEigen (poseEigenToCal T) = T`; false for tiny rotations. -/

/-- The round trip is the identity exactly when the rotation angle is zero or its square exceeds the double epsilon.
Missing from the full claim: rotations by a non-zero angle of at most 2^-26 rad. -/
theorem C05_partial (T : Iso) (h : Spec.RigidMotion T) :
    poseCalToEigen (poseEigenToCal T) = T ↔ Spec.rotAngle T.R = 0 ∨ Spec.rotAngle T.R ^ 2 > 1 / 2 ^ 52 := by
  have hr := (rigid_iff T).2 h
  rw [← toAngleAxis_angle hr]
  constructor
  · intro he
    have h1 : (poseCalToEigen (poseEigenToCal T)).IsRigid := by rw [he]; exact hr
    rcases (poseCalToEigen_rigid_iff _).1 h1 with h2 | h2
    · left
      rw [← V3.normSq_eq_zero, poseEigenToCal_normSq hr] at h2
      exact mul_self_eq_zero.1 h2
    · right
      rw [poseEigenToCal_normSq hr] at h2
      rw [pow_two]; exact h2
  · intro ha
    apply poseCalToEigen_poseEigenToCal hr
    rcases ha with ha | ha
    · exact Or.inl ha
    · right; rw [pow_two] at ha; exact ha

/-- Conversely a 6-value pose survives conversion to an isometry only up to the choice of the rotation vector: both
poses act the same on every point. -/
theorem C05_same_action (p : Pose6) (pt : V3)
    (h : Spec.RigidMotion (poseCalToEigen p))
    (ha : Spec.rotAngle (poseCalToEigen p).R = 0 ∨ Spec.rotAngle (poseCalToEigen p).R ^ 2 > 1 / 2 ^ 52) :
    poseTransformPoint (poseEigenToCal (poseCalToEigen p)) pt = poseTransformPoint p pt := by
  rw [C03_pose_action, C03_pose_action, (C05_partial _ h).2 ha]

/-- A rotation about x by `th`. -/
noncomputable def exRotX (th : ℝ) : Iso := ⟨AngleAxis.toMat ⟨th, ⟨1, 0, 0⟩⟩, ⟨1, 2, 3⟩⟩

theorem exRotX_rigid (th : ℝ) : Spec.RigidMotion (exRotX th) :=
  (rigid_iff _).1 (AngleAxis.toMat_isRot (by norm_num [V3.normSq, V3.dot]))

theorem exRotX_angle (th : ℝ) (h0 : 0 ≤ th) (h1 : th ≤ 1) : Spec.rotAngle (exRotX th).R = th :=
  rotAngle_angleAxis (by norm_num [V3.normSq, V3.dot]) h0 (by have := Real.pi_gt_three; linarith)

theorem C05_negation :
    ¬ ∀ T : Iso, Spec.RigidMotion T → poseCalToEigen (poseEigenToCal T) = T := by
  intro h
  have h1 := (C05_partial (exRotX (1 / 10 ^ 9)) (exRotX_rigid _)).1 (h _ (exRotX_rigid _))
  rw [exRotX_angle _ (by norm_num) (by norm_num)] at h1
  norm_num at h1

example : Spec.RigidMotion (exRotX (1 / 2)) ∧ Spec.rotAngle (exRotX (1 / 2)).R ^ 2 > 1 / 2 ^ 52 := by
  refine ⟨exRotX_rigid _, ?_⟩
  rw [exRotX_angle _ (by norm_num) (by norm_num)]; norm_num

end RCT
