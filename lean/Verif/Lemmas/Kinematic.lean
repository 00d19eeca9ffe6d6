import Verif.Model.Kinematic
import Verif.Spec.Kinematic
import Verif.Lemmas.DH
import Verif.Lemmas.PoseSpec
import Verif.Lemmas.Maps
import Verif.Props.Masks

/-! # Lemmas on kinematic calibration -/

namespace RCT
open Spec

theorem M3.ext_mulVec {a b : M3} (h : ∀ v, a.mulVec v = b.mulVec v) : a = b := by
  have x := h ⟨1, 0, 0⟩
  have y := h ⟨0, 1, 0⟩
  have z := h ⟨0, 0, 1⟩
  simp only [M3.mulVec, _root_.mul_one, mul_zero, add_zero, zero_add, V3.mk.injEq] at x y z
  ext
  all_goals first | exact x.1 | exact x.2.1 | exact x.2.2 | exact y.1 | exact y.2.1 | exact y.2.2 | exact z.1 | exact z.2.1 | exact z.2.2

theorem turnsBy_toMat {u : V3} (hu : u.normSq = 1) (th : ℝ) : TurnsBy (AngleAxis.toMat ⟨th, u⟩) u th := by
  refine ⟨hu, fun v => ?_⟩
  simp only [AngleAxis.toMat, M3.mulVec, V3.cross, V3.dot]
  ext <;> simp only [V3.add_x, V3.add_y, V3.add_z, V3.smul_x, V3.smul_y, V3.smul_z] <;> ring

theorem Spec.TurnsBy.eq_toMat {R : M3} {u : V3} {th : ℝ} (h : TurnsBy R u th) : R = AngleAxis.toMat ⟨th, u⟩ :=
  M3.ext_mulVec fun v => by rw [h.2, (turnsBy_toMat h.1 th).2]

theorem Spec.IsRotVec.rot {a : V3} {R : M3} (h : IsRotVec a R) : R.IsRot := by
  obtain ⟨u, th, ht, -⟩ := h
  rw [ht.eq_toMat]; exact AngleAxis.toMat_isRot ht.1

theorem Spec.IsRotVec.zero {R : M3} (h : IsRotVec 0 R) : R = 1 := by
  obtain ⟨u, th, ht, ha⟩ := h
  have hth : th = 0 := by
    by_contra hne
    have h1 : u = 0 := by
      have := congrArg V3.x ha
      have hy := congrArg V3.y ha
      have hz := congrArg V3.z ha
      simp only [V3.zero_x, V3.zero_y, V3.zero_z, V3.smul_x, V3.smul_y, V3.smul_z, zero_eq_mul, hne, false_or] at this hy hz
      ext <;> simp [*]
    have := ht.1
    rw [h1] at this
    simp [V3.normSq, V3.dot] at this
  rw [ht.eq_toMat, hth, AngleAxis.toMat_zero_angle]

theorem V3.norm_smul_unit {u : V3} (hu : u.normSq = 1) (th : ℝ) : (V3.smul th u).norm = |th| := by
  have : (V3.smul th u).normSq = th ^ 2 := by
    simp only [V3.normSq, V3.dot, V3.smul_x, V3.smul_y, V3.smul_z] at *
    linear_combination th ^ 2 * hu
  unfold V3.norm
  rw [this, Real.sqrt_sq_eq_abs]

theorem Spec.IsRotVec.eq {a : V3} {R : M3} (h : IsRotVec a R) (ha : a ≠ 0) :
    R = AngleAxis.toMat ⟨a.norm, a.normalized⟩ := by
  obtain ⟨u, th, ht, rfl⟩ := h
  rw [V3.normalized_of_ne ha, V3.norm_smul_unit ht.1, ht.eq_toMat]
  have hth : th ≠ 0 := by
    rintro rfl
    apply ha
    ext <;> simp
  have hs : V3.smul (1 / |th|) (V3.smul th u) = V3.smul (th / |th|) u := by
    ext <;> simp <;> ring
  rw [hs]
  rcases lt_or_gt_of_ne hth with h | h
  · rw [abs_of_neg h]
    have : th / -th = -1 := by field_simp
    rw [this]
    simp only [AngleAxis.toMat, V3.smul_x, V3.smul_y, V3.smul_z, Real.cos_neg, Real.sin_neg]
    ext <;> simp only <;> ring
  · rw [abs_of_pos h, div_self hth]
    simp only [AngleAxis.toMat, V3.smul_x, V3.smul_y, V3.smul_z, one_mul]

theorem kinTransform_big {t aa : V3} (h : aa.norm > dblEps) :
    kinTransform t aa = ⟨AngleAxis.toMat ⟨aa.norm, aa.normalized⟩, t⟩ := by
  unfold kinTransform
  simp only [if_pos h, Iso.translateBy, Iso.rotateBy]
  rw [Iso.one_mul, Iso.mul_def]
  simp only [M3.one_mul, M3.mulVec_zero, V3.zero_add]

theorem kinTransform_small {t aa : V3} (h : ¬ aa.norm > dblEps) : kinTransform t aa = ⟨1, t⟩ := by
  unfold kinTransform
  simp only [if_neg h, Iso.translateBy, Iso.one_mul]

theorem ne_zero_of_norm {a : V3} (h : a.norm > dblEps) : a ≠ 0 := by
  rintro rfl
  rw [V3.norm_eq_zero.2 rfl] at h
  exact absurd h (not_lt.2 dblEps_pos.le)

theorem kinTransform_rigid (t aa : V3) : (kinTransform t aa).IsRigid := by
  by_cases h : aa.norm > dblEps
  · rw [kinTransform_big h]
    exact AngleAxis.toMat_isRot (V3.normSq_normalized (ne_zero_of_norm h))
  · rw [kinTransform_small h]; exact M3.IsRot.one

theorem kinTransform_eq {m m' : Mem} {T : Iso} (ht : StoresVec m T.t) {a : V3} (ha : StoresVec m' a)
    (hr : IsRotVec a T.R) (hb : a = 0 ∨ a.norm > 1 / 2 ^ 52) : kinTransform m.v3 m'.v3 = T := by
  have e1 : m.v3 = T.t := by obtain ⟨h1, h2, h3⟩ := ht; simp [Mem.v3, h1, h2, h3]
  have e2 : m'.v3 = a := by obtain ⟨h1, h2, h3⟩ := ha; simp [Mem.v3, h1, h2, h3]
  rw [e1, e2]
  rcases hb with rfl | hb
  · rw [kinTransform_small]
    · rw [← IsRotVec.zero hr]
    · rw [V3.norm_eq_zero.2 rfl]; exact not_lt.2 dblEps_pos.le
  · have hb' : a.norm > dblEps := hb
    rw [kinTransform_big hb', ← IsRotVec.eq hr (ne_zero_of_norm hb')]

theorem dhRows_eq {m : Mem} {n : Nat} {offs : List V4} (h : StoresTable m n offs) : m.dhRows n = offs := by
  obtain ⟨hl, h⟩ := h
  apply List.ext_getElem?
  intro r
  unfold Mem.dhRows
  rw [List.getElem?_map]
  by_cases hr : r < n
  · rw [List.getElem?_range hr]
    have hr' : r < offs.length := by omega
    rw [List.getElem?_eq_getElem hr']
    have hh := h r offs[r] (List.getElem?_eq_getElem hr')
    have h0 := hh 0
    have h1 := hh 1
    have h2 := hh 2
    have h3 := hh 3
    simp only [entry, Fin.isValue, Fin.val_zero, Fin.val_one, Fin.val_two, mul_zero, zero_add, mul_one] at h0 h1 h2 h3
    have e3 : ((3 : Fin 4) : Nat) = 3 := rfl
    rw [e3] at h3
    simp only [Option.map_some, Option.some.injEq]
    ext
    · exact h0
    · exact h1
    · simp only [mul_comm 2 n]; exact h2
    · simp only [mul_comm 3 n]; exact h3
  · rw [List.getElem?_eq_none (by simpa using hr), List.getElem?_eq_none (by omega)]; rfl

theorem dhRows_length (m : Mem) (n : Nat) : (m.dhRows n).length = n := by simp [Mem.dhRows]

/-- The computed pose, in terms of chain poses. -/
theorem kinCameraToTarget_eq (cc tc : DHChain) (qc qt : List ℝ) (p : Nat → Mem) :
    kinCameraToTarget cc tc qc qt p =
      if qc.length ≤ cc.dof ∧ qt.length ≤ tc.dof then
        .ok ((endPose cc ((p 0).dhRows cc.dof) qc * kinTransform (p 2).v3 (p 3).v3).inv *
          (kinTransform (p 6).v3 (p 7).v3 * endPose tc ((p 1).dhRows tc.dof) qt * kinTransform (p 4).v3 (p 5).v3))
      else .throw .runtimeError := by
  unfold kinCameraToTarget
  simp only [getFK_eq, dhRows_length, endPose, DHChain.joints]
  unfold DHChain.dof
  by_cases h1 : qc.length ≤ cc.transforms.length
  · by_cases h2 : qt.length ≤ tc.transforms.length
    · simp [h1, h2]
    · simp [h1, h2]
  · simp [h1]

theorem endPose_rigid {c : DHChain} (h : c.base.IsRigid) (offs : List V4) (q : List ℝ) : (endPose c offs q).IsRigid :=
  chainPose_rigid h _ _ _

theorem Quat.toMat_conj (q : Quat) : q.conj.toMat = q.toMat.tr := by
  simp only [Quat.toMat, Quat.conj, M3.tr]
  ext <;> simp only <;> ring

theorem angularDistance_eq {A B : M3} (hA : A.IsRot) (hB : B.IsRot) :
    A.toQuat.angularDistance B.toQuat = Spec.rotAngle (A * B.tr) := by
  obtain ⟨ua, ea⟩ := hA.toQuat
  obtain ⟨ub, eb⟩ := hB.toQuat
  have hu : (A.toQuat * B.toQuat.conj).IsUnit := ua.mul ub.conj
  have hm : (A.toQuat * B.toQuat.conj).toMat = A * B.tr := by
    rw [Quat.toMat_mul ua ub.conj, ea, Quat.toMat_conj, eb]
  obtain ⟨q, hq⟩ : ∃ q, q = A.toQuat * B.toQuat.conj := ⟨_, rfl⟩
  unfold Quat.angularDistance
  rw [← hm]
  rw [← hq] at hu ⊢
  obtain ⟨h1, h2, h3⟩ := hu.toAngleAxis
  have e := rotAngle_angleAxis (th := q.toAngleAxis.angle) (u := q.toAngleAxis.axis) h1 h2 (Quat.toAngleAxis_le_pi q)
  have e' : AngleAxis.toMat ⟨q.toAngleAxis.angle, q.toAngleAxis.axis⟩ = q.toMat := by rw [← h3]
  rw [e'] at e
  rw [e]
  unfold Quat.toAngleAxis
  by_cases hn : q.vec.norm ≠ 0
  · simp only [if_pos hn]
  · simp only [if_neg hn]
    rw [not_not.1 hn]
    simp only [atan2]
    have : (⟨|q.w|, 0⟩ : ℂ) = ((|q.w| : ℝ) : ℂ) := by apply Complex.ext <;> simp
    rw [this, Complex.arg_ofReal_of_nonneg (abs_nonneg _)]; simp

theorem rotAngle_eq_zero_iff {A B : M3} (hA : A.IsRot) (hB : B.IsRot) : Spec.rotAngle (A * B.tr) = 0 ↔ A = B := by
  constructor
  · intro h
    have hR := hA.mul hB.tr
    have h1 := toAngleAxis_angle hR
    rw [h] at h1
    obtain ⟨-, -, h3⟩ := hR.toAngleAxis
    have h4 : A * B.tr = 1 := by
      rw [← h3]
      have : (A * B.tr).toAngleAxis = ⟨0, (A * B.tr).toAngleAxis.axis⟩ := by
        rw [← h1]
      rw [this, AngleAxis.toMat_zero_angle]
    have h5 : A * B.tr * B = B := by rw [h4, M3.one_mul]
    rw [M3.mul_assoc, hB.1, M3.mul_one] at h5
    exact h5
  · rintro rfl
    rw [hA.mul_tr]
    unfold Spec.rotAngle
    simp only [M3.one_m00, M3.one_m11, M3.one_m22]
    norm_num

end RCT
