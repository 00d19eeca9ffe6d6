import Verif.Spec.Frames
import Verif.Props.PoseProjection

namespace RCT
open Spec

theorem rotAngle_tr (R : M3) : rotAngle R.tr = rotAngle R := rfl

theorem Spec.Representable.rigid {T : Iso} (h : Representable T) : T.IsRigid := (rigid_iff T).2 h.1

theorem Spec.Representable.roundtrip {T : Iso} (h : Representable T) : poseCalToEigen (poseEigenToCal T) = T :=
  (C05_partial T h.1).2 h.2

theorem Spec.Representable.inv {T : Iso} (h : Representable T) : Representable T.inv :=
  ⟨(rigid_iff _).1 h.rigid.inv, h.2⟩

theorem Spec.Representable.one : Representable 1 := by
  refine ⟨(rigid_iff _).1 Iso.IsRigid.one, Or.inl ?_⟩
  unfold rotAngle
  rw [show ((1 : Iso).R.m00 + (1 : Iso).R.m11 + (1 : Iso).R.m22 - 1) / 2 = 1 by simp]
  exact Real.arccos_one

/-- A pure translation is representable. -/
theorem Spec.Representable.translation (t : V3) : Representable ⟨1, t⟩ := by
  refine ⟨(rigid_iff _).1 (show Iso.IsRigid ⟨1, t⟩ from M3.IsRot.one), Or.inl ?_⟩
  unfold rotAngle
  rw [show ((⟨1, t⟩ : Iso).R.m00 + (⟨1, t⟩ : Iso).R.m11 + (⟨1, t⟩ : Iso).R.m22 - 1) / 2 = 1 by simp]
  exact Real.arccos_one

theorem exRotX_representable (th : ℝ) (h0 : 1 / 10 ^ 7 ≤ th) (h1 : th ≤ 1) : Representable (exRotX th) := by
  refine ⟨exRotX_rigid th, Or.inr ?_⟩
  rw [exRotX_angle th (le_trans (by norm_num) h0) h1]
  calc th ^ 2 ≥ (1 / 10 ^ 7) ^ 2 := by gcongr
    _ > 1 / 2 ^ 52 := by norm_num

/-- Applying a representable isometry through its six values is exact. -/
theorem Spec.Representable.act {T : Iso} (h : Representable T) (pt : V3) :
    poseTransformPoint (poseEigenToCal T) pt = T.apply pt := by
  rw [poseTransformPoint_eq, h.roundtrip]

/-- The angle-axis of a rotation built from an angle in (0, π) and a unit axis. -/
theorem toAngleAxis_toMat {th : ℝ} {u : V3} (hu : u.normSq = 1) (h0 : 0 < th) (h1 : th < Real.pi) :
    (AngleAxis.toMat ⟨th, u⟩).toAngleAxis = ⟨th, u⟩ := by
  have hrot : (AngleAxis.toMat ⟨th, u⟩).IsRot := AngleAxis.toMat_isRot hu
  have hang : (AngleAxis.toMat ⟨th, u⟩).toAngleAxis.angle = th := by
    rw [toAngleAxis_angle hrot, rotAngle_angleAxis hu h0.le h1.le]
  obtain ⟨-, -, h3⟩ := hrot.toAngleAxis
  obtain ⟨a, ha⟩ : ∃ a, a = (AngleAxis.toMat ⟨th, u⟩).toAngleAxis := ⟨_, rfl⟩
  rw [← ha] at h3 hang ⊢
  obtain ⟨b, v⟩ := a
  simp only at hang
  subst hang
  have hs : Real.sin b ≠ 0 := (Real.sin_pos_of_pos_of_lt_pi h0 h1).ne'
  have e1 := congrArg M3.m21 h3
  have e1' := congrArg M3.m12 h3
  have e2 := congrArg M3.m02 h3
  have e2' := congrArg M3.m20 h3
  have e3 := congrArg M3.m10 h3
  have e3' := congrArg M3.m01 h3
  simp only [AngleAxis.toMat] at e1 e1' e2 e2' e3 e3'
  congr 1
  ext
  · apply mul_left_cancel₀ hs; linarith
  · apply mul_left_cancel₀ hs; linarith
  · apply mul_left_cancel₀ hs; linarith

/-- The six values of a rotation about the x axis. -/
theorem poseEigenToCal_rotX {th : ℝ} (h0 : 0 < th) (h1 : th < Real.pi) (t : V3) :
    poseEigenToCal ⟨AngleAxis.toMat ⟨th, ⟨1, 0, 0⟩⟩, t⟩ = ⟨th, 0, 0, t.x, t.y, t.z⟩ := by
  unfold poseEigenToCal
  simp only
  rw [toAngleAxis_toMat (by norm_num [V3.normSq, V3.dot]) h0 h1]
  simp [V3.smul]

/-- The rotation about the x axis by a positive angle, transposed: rotation about the opposite axis. -/
theorem rotX_tr (th : ℝ) : (AngleAxis.toMat ⟨th, ⟨1, 0, 0⟩⟩).tr = AngleAxis.toMat ⟨th, ⟨-1, 0, 0⟩⟩ := by
  simp [AngleAxis.toMat, M3.tr]

theorem poseEigenToCal_rotX_neg {th : ℝ} (h0 : 0 < th) (h1 : th < Real.pi) (t : V3) :
    poseEigenToCal ⟨AngleAxis.toMat ⟨th, ⟨-1, 0, 0⟩⟩, t⟩ = ⟨-th, 0, 0, t.x, t.y, t.z⟩ := by
  unfold poseEigenToCal
  simp only
  rw [toAngleAxis_toMat (by norm_num [V3.normSq, V3.dot]) h0 h1]
  simp [V3.smul]

end RCT
