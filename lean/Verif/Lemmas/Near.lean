import Verif.Spec.Near
import Verif.Lemmas.HandEye
import Mathlib.Analysis.SpecialFunctions.Trigonometric.Bounds

/-! Norm inequalities and rotations by tiny angles. -/

namespace RCT
open Spec

theorem V3.dot_le (a b : V3) : a.dot b ≤ a.norm * b.norm := by
  have h : a.dot b * a.dot b ≤ (a.norm * b.norm) * (a.norm * b.norm) := by
    have e : (a.norm * b.norm) * (a.norm * b.norm) = a.normSq * b.normSq := by
      rw [← V3.norm_sq a, ← V3.norm_sq b]; ring
    rw [e]; unfold V3.normSq V3.dot
    nlinarith [sq_nonneg (a.x * b.y - a.y * b.x), sq_nonneg (a.x * b.z - a.z * b.x), sq_nonneg (a.y * b.z - a.z * b.y)]
  exact le_of_abs_le (abs_le_of_sq_le_sq (by nlinarith) (mul_nonneg a.norm_nonneg b.norm_nonneg))

theorem V3.norm_le_of_normSq {a : V3} {k : ℝ} (hk : 0 ≤ k) (h : a.normSq ≤ k * k) : a.norm ≤ k := by
  unfold V3.norm; exact Real.sqrt_le_iff.2 ⟨hk, by nlinarith⟩

theorem V3.norm_add_le (a b : V3) : (a + b).norm ≤ a.norm + b.norm := by
  apply V3.norm_le_of_normSq (add_nonneg a.norm_nonneg b.norm_nonneg)
  have h := V3.dot_le a b
  have e : (a + b).normSq = a.normSq + 2 * a.dot b + b.normSq := by
    simp only [V3.normSq, V3.dot, V3.add_x, V3.add_y, V3.add_z]; ring
  rw [e, ← V3.norm_sq a, ← V3.norm_sq b]; nlinarith

theorem V3.norm_sub_le (a b c : V3) : (a - c).norm ≤ (a - b).norm + (b - c).norm := by
  have h := V3.norm_add_le (a - b) (b - c)
  have e : a - b + (b - c) = a - c := by ext <;> simp
  rwa [e] at h

theorem V3.norm_le_sub (a b : V3) : a.norm ≤ b.norm + (a - b).norm := by
  have h := V3.norm_add_le b (a - b)
  have e : b + (a - b) = a := by ext <;> simp
  rwa [e] at h

theorem V3.norm_smul (k : ℝ) (a : V3) : (V3.smul k a).norm = |k| * a.norm := by
  have e : (V3.smul k a).normSq = k ^ 2 * a.normSq := by
    simp only [V3.normSq, V3.dot, V3.smul_x, V3.smul_y, V3.smul_z]; ring
  unfold V3.norm; rw [e, Real.sqrt_mul (sq_nonneg k), Real.sqrt_sq_eq_abs]

theorem V3.abs_x_le (a : V3) : |a.x| ≤ a.norm := by
  unfold V3.norm; exact Real.abs_le_sqrt (by unfold V3.normSq V3.dot; nlinarith [sq_nonneg a.y, sq_nonneg a.z])
theorem V3.abs_y_le (a : V3) : |a.y| ≤ a.norm := by
  unfold V3.norm; exact Real.abs_le_sqrt (by unfold V3.normSq V3.dot; nlinarith [sq_nonneg a.x, sq_nonneg a.z])
theorem V3.abs_z_le (a : V3) : |a.z| ≤ a.norm := by
  unfold V3.norm; exact Real.abs_le_sqrt (by unfold V3.normSq V3.dot; nlinarith [sq_nonneg a.y, sq_nonneg a.x])

/-- The first order rotation matrix. -/
def smallRot (r : V3) : M3 := ⟨1, -r.z, r.y, r.z, 1, -r.x, -r.y, r.x, 1⟩

/-- The first order matrix differs from the rotation by at most the squared angle. -/
theorem smallRot_near {u : V3} (hu : u.normSq = 1) {th : ℝ} (h0 : 0 ≤ th) (h1 : th ≤ 1) (v : V3) :
    ((smallRot (V3.smul th u)).mulVec v - (AngleAxis.toMat ⟨th, u⟩).mulVec v).norm ≤ th * th * v.norm := by
  apply V3.norm_le_of_normSq (mul_nonneg (mul_nonneg h0 h0) v.norm_nonneg)
  have hc1 : 1 - Real.cos th ≤ th ^ 2 / 2 := by have := Real.one_sub_sq_div_two_le_cos (x := th); linarith
  have hc0 : 0 ≤ 1 - Real.cos th := by have := Real.cos_le_one th; linarith
  have hs0 : 0 ≤ th - Real.sin th := by have := Real.sin_le h0; linarith
  have hs1 : th - Real.sin th ≤ th ^ 2 / 2 := by
    rcases h0.lt_or_eq with h | h
    · have := Real.sin_gt_sub_cube h
      nlinarith [mul_nonneg (mul_nonneg h0 h0) (sub_nonneg.2 h1)]
    · rw [← h]; simp
  have hv : u.dot v * u.dot v ≤ v.normSq := by
    have : u.normSq * v.normSq - u.dot v * u.dot v = (u.cross v).normSq := by
      simp only [V3.normSq, V3.dot, V3.cross]; ring
    have h2 := V3.normSq_nonneg (u.cross v)
    rw [hu] at this; linarith
  have e : ((smallRot (V3.smul th u)).mulVec v - (AngleAxis.toMat ⟨th, u⟩).mulVec v).normSq =
      ((th - Real.sin th) ^ 2 + (1 - Real.cos th) ^ 2) * (v.normSq - u.dot v * u.dot v) := by
    have hu' : u.x * u.x + u.y * u.y + u.z * u.z = 1 := hu
    simp only [smallRot, AngleAxis.toMat, M3.mulVec, V3.normSq, V3.dot, V3.smul_x, V3.smul_y, V3.smul_z, V3.sub_x, V3.sub_y, V3.sub_z]
    generalize Real.sin th = s
    generalize Real.cos th = c
    linear_combination ((th - s) ^ 2 * (v.x * v.x + v.y * v.y + v.z * v.z) +
      (1 - c) ^ 2 * (u.x * v.x + u.y * v.y + u.z * v.z) ^ 2) * hu'
  rw [e]
  have hq : (th - Real.sin th) ^ 2 + (1 - Real.cos th) ^ 2 ≤ th * th * (th * th) := by
    have a1 := mul_self_le_mul_self hs0 hs1
    have a2 := mul_self_le_mul_self hc0 hc1
    nlinarith [sq_nonneg (th * th)]
  have hd : 0 ≤ u.dot v * u.dot v := mul_self_nonneg _
  calc _ ≤ th * th * (th * th) * (v.normSq - u.dot v * u.dot v) :=
        mul_le_mul_of_nonneg_right hq (by linarith)
    _ ≤ th * th * (th * th) * v.normSq := by
        apply mul_le_mul_of_nonneg_left (by linarith); positivity
    _ = _ := by rw [← V3.norm_sq v]; ring

/-- The same for the reversed rotation. -/
theorem smallRot_tr_near {u : V3} (hu : u.normSq = 1) {th : ℝ} (h0 : 0 ≤ th) (h1 : th ≤ 1) (v : V3) :
    ((smallRot (V3.smul th u)).tr.mulVec v - (AngleAxis.toMat ⟨th, u⟩).tr.mulVec v).norm ≤ th * th * v.norm := by
  have h := smallRot_near (u := V3.smul (-1) u) (by
    simp only [V3.normSq, V3.dot, V3.smul_x, V3.smul_y, V3.smul_z] at *; linarith) h0 h1 v
  have e1 : smallRot (V3.smul th (V3.smul (-1) u)) = (smallRot (V3.smul th u)).tr := by
    ext <;> simp [smallRot, M3.tr]
  have e2 : AngleAxis.toMat ⟨th, V3.smul (-1) u⟩ = (AngleAxis.toMat ⟨th, u⟩).tr := by
    ext <;> simp [AngleAxis.toMat, M3.tr] <;> ring
  rwa [e1, e2] at h

/-- A rotation by an angle moves a point by at most the angle times its distance. -/
theorem rot_near_one {u : V3} (hu : u.normSq = 1) {th : ℝ} (h0 : 0 ≤ th) (v : V3) :
    (v - (AngleAxis.toMat ⟨th, u⟩).mulVec v).norm ≤ th * v.norm := by
  apply V3.norm_le_of_normSq (mul_nonneg h0 v.norm_nonneg)
  have hv : 0 ≤ v.normSq - u.dot v * u.dot v := by
    have : u.normSq * v.normSq - u.dot v * u.dot v = (u.cross v).normSq := by
      simp only [V3.normSq, V3.dot, V3.cross]; ring
    have h2 := V3.normSq_nonneg (u.cross v)
    rw [hu] at this; linarith
  have e : (v - (AngleAxis.toMat ⟨th, u⟩).mulVec v).normSq =
      (2 * (1 - Real.cos th)) * (v.normSq - u.dot v * u.dot v) := by
    have hu' : u.x * u.x + u.y * u.y + u.z * u.z = 1 := hu
    have hsc := Real.sin_sq_add_cos_sq th
    simp only [AngleAxis.toMat, M3.mulVec, V3.normSq, V3.dot, V3.sub_x, V3.sub_y, V3.sub_z]
    generalize Real.sin th = s at *
    generalize Real.cos th = c at *
    linear_combination (s ^ 2 * (v.x * v.x + v.y * v.y + v.z * v.z) +
      (1 - c) ^ 2 * (u.x * v.x + u.y * v.y + u.z * v.z) ^ 2) * hu' +
      ((v.x * v.x + v.y * v.y + v.z * v.z) - (u.x * v.x + u.y * v.y + u.z * v.z) ^ 2) * hsc
  rw [e]
  have hc1 : 1 - Real.cos th ≤ th ^ 2 / 2 := by have := Real.one_sub_sq_div_two_le_cos (x := th); linarith
  have hd : 0 ≤ u.dot v * u.dot v := mul_self_nonneg _
  calc _ ≤ th * th * (v.normSq - u.dot v * u.dot v) := mul_le_mul_of_nonneg_right (by nlinarith) hv
    _ ≤ th * th * v.normSq := by
        apply mul_le_mul_of_nonneg_left (by linarith); positivity
    _ = _ := by rw [← V3.norm_sq v]; ring

/-- The exact rigid transform meant by a six-value pose. -/
noncomputable def exactPose (p : Pose6) : Iso :=
  ⟨AngleAxis.toMat ⟨p.rot.norm, p.rot.normalized⟩, p.trans⟩

theorem smul_norm_normalized (a : V3) : V3.smul a.norm a.normalized = a := by
  by_cases h : a = 0
  · subst h; rw [V3.normalized_zero]; ext <;> simp
  · rw [V3.normalized_of_ne h]
    have := (V3.norm_pos h).ne'
    ext <;> simp <;> field_simp

theorem norm_zero_v3 : (0 : V3).norm = 0 := V3.norm_eq_zero.2 rfl

theorem exactPose_zero {p : Pose6} (h : p.rot = 0) : exactPose p = ⟨1, p.trans⟩ := by
  unfold exactPose
  rw [h, norm_zero_v3, AngleAxis.toMat_zero_angle]

theorem exactPose_isRigid (p : Pose6) : (exactPose p).IsRigid := by
  by_cases h : p.rot = 0
  · rw [exactPose_zero h]; exact M3.IsRot.one
  · exact AngleAxis.toMat_isRot (V3.normSq_normalized h)

/-- Rotation parts: forward and transposed. -/
theorem exactPose_near (p : Pose6) (v : V3) :
    ((poseCalToEigen p).R.mulVec v - (exactPose p).R.mulVec v).norm ≤ 1 / 2 ^ 52 * v.norm ∧
    ((poseCalToEigen p).R.tr.mulVec v - (exactPose p).R.tr.mulVec v).norm ≤ 1 / 2 ^ 52 * v.norm := by
  have hp : (0 : ℝ) ≤ 1 / 2 ^ 52 * v.norm := mul_nonneg (by norm_num) v.norm_nonneg
  by_cases h : p.rot.normSq > dblEps
  · rw [poseCalToEigen_big h]
    unfold exactPose
    rw [V3.sub_self, V3.sub_self, norm_zero_v3]
    exact ⟨hp, hp⟩
  · by_cases h0 : p.rot = 0
    · rw [poseCalToEigen_zero h0, exactPose_zero h0, V3.sub_self, V3.sub_self, norm_zero_v3]
      exact ⟨hp, hp⟩
    · rw [poseCalToEigen_small h]
      have hn : p.rot.norm * p.rot.norm ≤ 1 / 2 ^ 52 := by rw [V3.norm_sq]; exact not_lt.1 h
      have h1 : p.rot.norm ≤ 1 := by
        by_contra hc
        have : (1 : ℝ) < p.rot.norm * p.rot.norm := by nlinarith
        norm_num at hn; linarith
      have hle : p.rot.norm * p.rot.norm * v.norm ≤ 1 / 2 ^ 52 * v.norm :=
        mul_le_mul_of_nonneg_right hn v.norm_nonneg
      have a := smallRot_near (V3.normSq_normalized h0) p.rot.norm_nonneg h1 v
      have b := smallRot_tr_near (V3.normSq_normalized h0) p.rot.norm_nonneg h1 v
      rw [smul_norm_normalized] at a b
      exact ⟨a.trans hle, b.trans hle⟩

theorem apply_sub_apply {S T : Iso} (h : S.t = T.t) (v : V3) :
    S.apply v - T.apply v = S.R.mulVec v - T.R.mulVec v := by
  unfold Iso.apply; rw [h]; ext <;> simp

theorem exactPose_nearAt (p : Pose6) : NearAt (1 / 2 ^ 52) (poseCalToEigen p) (exactPose p) := by
  have ht : (poseCalToEigen p).t = (exactPose p).t := poseCalToEigen_t p
  refine ⟨ht, fun v => ?_⟩
  rw [apply_sub_apply ht]
  exact (exactPose_near p v).1

theorem exactPose_nearBy_inv (p : Pose6) : NearBy (1 / 2 ^ 52) (poseCalToEigen p).inv (exactPose p).inv := by
  intro v
  have ht : (poseCalToEigen p).t = (exactPose p).t := poseCalToEigen_t p
  have hE := exactPose_isRigid p
  have e : ∀ S : Iso, S.inv.apply v = S.R.tr.mulVec (v - S.t) := by
    intro S; simp only [Iso.apply, Iso.inv, M3.mulVec]; ext <;> simp <;> ring
  rw [e, e, ht]
  have hn : (exactPose p).inv.t.norm = (exactPose p).t.norm := by
    have : (exactPose p).inv.t = V3.smul (-1) ((exactPose p).R.tr.mulVec (exactPose p).t) := by
      simp only [Iso.inv, M3.mulVec]; ext <;> simp
    rw [this, V3.norm_smul, (M3.IsRot.tr hE).norm]; simp
  rw [hn]
  refine ((exactPose_near p _).2).trans ?_
  apply mul_le_mul_of_nonneg_left _ (by norm_num)
  have := V3.norm_add_le v (V3.smul (-1) (exactPose p).t)
  rw [V3.norm_smul] at this
  have e2 : v + V3.smul (-1) (exactPose p).t = v - (exactPose p).t := by ext <;> simp <;> ring
  rw [e2] at this
  simpa using this

/-- The exact pose of the six values of a rigid transform is that transform. -/
theorem exactPose_poseEigenToCal {T : Iso} (h : T.IsRigid) : exactPose (poseEigenToCal T) = T := by
  obtain ⟨h1, h2, h3⟩ := M3.IsRot.toAngleAxis h
  have hsq := poseEigenToCal_normSq h
  have hnorm : (poseEigenToCal T).rot.norm = T.R.toAngleAxis.angle := by
    unfold V3.norm; rw [hsq, Real.sqrt_mul_self h2]
  have key : AngleAxis.toMat ⟨(poseEigenToCal T).rot.norm, (poseEigenToCal T).rot.normalized⟩ = T.R := by
    rcases h2.lt_or_eq with hp | h0
    · have hne : (poseEigenToCal T).rot ≠ 0 := by
        intro h0; rw [h0, norm_zero_v3] at hnorm; exact absurd hnorm hp.ne
      have e : (poseEigenToCal T).rot.normalized = T.R.toAngleAxis.axis := by
        rw [V3.normalized_of_ne hne, hnorm, poseEigenToCal_rot]
        ext <;> simp <;> field_simp
      rw [e, hnorm]; exact h3
    · rw [hnorm, ← h0, AngleAxis.toMat_zero_angle]
      rw [← h3]
      have : T.R.toAngleAxis = ⟨0, T.R.toAngleAxis.axis⟩ := by ext1 <;> simp [← h0]
      rw [this, AngleAxis.toMat_zero_angle]
  unfold exactPose
  rw [key]; rfl

/-- A near transform applied to a near point. -/
theorem Spec.NearAt.step {e d : ℝ} {S T : Iso} (h : NearAt e S T) (hT : T.IsRigid) {v w : V3} (hd : (v - w).norm ≤ d) (he : 0 ≤ e) :
    (S.apply v - T.apply w).norm ≤ (1 + e) * d + e * w.norm := by
  have h1 := V3.norm_sub_le (S.apply v) (T.apply v) (T.apply w)
  have h2 := h.2 v
  have h3 : (T.apply v - T.apply w).norm = (v - w).norm := by
    rw [← M3.IsRot.norm hT (v - w)]
    congr 1; simp only [Iso.apply, M3.mulVec]; ext <;> simp <;> ring
  have h4 := V3.norm_le_sub v w
  have h5 : e * v.norm ≤ e * (w.norm + d) := mul_le_mul_of_nonneg_left (by linarith) he
  nlinarith

end RCT
