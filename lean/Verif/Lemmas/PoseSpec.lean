import Verif.Lemmas.Pose
import Verif.Spec.Geometry

/-! Link between the pose model and the geometric specification. -/

namespace RCT
open Real

/-- `IsRigid` (orthonormal, determinant one) is the same as being a rigid motion. -/
theorem rigid_iff (T : Iso) : T.IsRigid ↔ Spec.RigidMotion T := by
  constructor
  · intro h
    exact ⟨h.dist, by rw [h.2]; norm_num⟩
  · rintro ⟨h, hd⟩
    have key : ∀ v : V3, (T.R.mulVec v).normSq = v.normSq := by
      intro v
      have h1 := h v 0
      have e1 : T.apply v - T.apply 0 = T.R.mulVec v := by
        simp only [Iso.apply, M3.mulVec_zero]; ext <;> simp
      have e2 : v - 0 = v := by ext <;> simp
      rw [e1, e2] at h1
      rw [← V3.norm_sq, ← V3.norm_sq, h1]
    have x := key ⟨1, 0, 0⟩
    have y := key ⟨0, 1, 0⟩
    have z := key ⟨0, 0, 1⟩
    have xy := key ⟨1, 1, 0⟩
    have xz := key ⟨1, 0, 1⟩
    have yz := key ⟨0, 1, 1⟩
    simp only [V3.normSq, V3.dot, M3.mulVec] at x y z xy xz yz
    have horth : T.R.tr * T.R = 1 := by
      rw [M3.mul_def, M3.one_def]
      ext <;> simp only [M3.tr] <;> grind
    have hdd : T.R.det * T.R.det = 1 := by
      have := M3.det_mul T.R.tr T.R
      rw [horth, M3.det_tr, M3.det_one] at this
      exact this.symm
    refine ⟨horth, ?_⟩
    rcases mul_self_eq_one_iff.1 hdd with h1 | h1
    · exact h1
    · rw [h1] at hd; norm_num at hd

theorem rotAngle_angleAxis {th : ℝ} {u : V3} (hu : u.normSq = 1) (h0 : 0 ≤ th) (h1 : th ≤ π) :
    Spec.rotAngle (AngleAxis.toMat ⟨th, u⟩) = th := by
  unfold Spec.rotAngle
  have : ((AngleAxis.toMat ⟨th, u⟩).m00 + (AngleAxis.toMat ⟨th, u⟩).m11 + (AngleAxis.toMat ⟨th, u⟩).m22 - 1) / 2
      = Real.cos th := by
    simp only [AngleAxis.toMat, V3.normSq, V3.dot] at *
    linear_combination ((1 - Real.cos th) / 2) * hu
  rw [this, Real.arccos_cos h0 h1]

theorem Quat.toAngleAxis_le_pi (q : Quat) : q.toAngleAxis.angle ≤ π := by
  unfold Quat.toAngleAxis
  by_cases hz : q.vec.norm ≠ 0
  · simp only [if_pos hz]
    have : |Complex.arg ⟨|q.w|, q.vec.norm⟩| ≤ π / 2 :=
      Complex.abs_arg_le_pi_div_two_iff.2 (abs_nonneg q.w)
    have := (abs_le.1 this).2
    unfold atan2; linarith
  · rw [if_neg hz]; exact Real.pi_pos.le

/-- The angle computed by the code is the rotation angle. -/
theorem toAngleAxis_angle {R : M3} (h : R.IsRot) : R.toAngleAxis.angle = Spec.rotAngle R := by
  obtain ⟨h1, h2, h3⟩ := h.toAngleAxis
  have := rotAngle_angleAxis (th := R.toAngleAxis.angle) (u := R.toAngleAxis.axis) h1 h2 (Quat.toAngleAxis_le_pi _)
  rw [← this]; congr 1

theorem poseCalToEigen_small_det {p : Pose6} (h : ¬ p.rot.normSq > dblEps) :
    (poseCalToEigen p).R.det = 1 + p.rot.normSq := by
  rw [poseCalToEigen_small h]; simp only [M3.det, V3.normSq, V3.dot]; ring

/-- Exactly when the conversion of a 6-value pose gives a rigid transform. -/
theorem poseCalToEigen_rigid_iff (p : Pose6) :
    (poseCalToEigen p).IsRigid ↔ p.rot = 0 ∨ p.rot.normSq > dblEps := by
  constructor
  · intro h
    by_cases hb : p.rot.normSq > dblEps
    · exact Or.inr hb
    · left
      have h1 := poseCalToEigen_small_det hb
      rw [h.2] at h1
      exact V3.normSq_eq_zero.1 (by linarith)
  · rintro (h | h)
    · rw [poseCalToEigen_zero h]; exact M3.IsRot.one
    · exact poseCalToEigen_rigid h

end RCT
