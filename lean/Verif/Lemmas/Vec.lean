import Verif.Core.Vec

/-! Algebra of the small vector / matrix structures. -/

namespace RCT

namespace V3
theorem normSq_nonneg (a : V3) : 0 ≤ a.normSq := by
  unfold normSq dot; nlinarith [sq_nonneg a.x, sq_nonneg a.y, sq_nonneg a.z]
theorem normSq_eq_zero {a : V3} : a.normSq = 0 ↔ a = 0 := by
  constructor
  · intro h
    unfold normSq dot at h
    have hx : a.x * a.x = 0 := by nlinarith [mul_self_nonneg a.x, mul_self_nonneg a.y, mul_self_nonneg a.z]
    have hy : a.y * a.y = 0 := by nlinarith [mul_self_nonneg a.x, mul_self_nonneg a.y, mul_self_nonneg a.z]
    have hz : a.z * a.z = 0 := by nlinarith [mul_self_nonneg a.x, mul_self_nonneg a.y, mul_self_nonneg a.z]
    ext
    · simpa using hx
    · simpa using hy
    · simpa using hz
  · rintro rfl; simp [normSq, dot]
theorem norm_nonneg (a : V3) : 0 ≤ a.norm := Real.sqrt_nonneg _
theorem norm_sq (a : V3) : a.norm * a.norm = a.normSq := Real.mul_self_sqrt (normSq_nonneg a)
theorem norm_eq_zero {a : V3} : a.norm = 0 ↔ a = 0 := by
  rw [← normSq_eq_zero, ← norm_sq]; simp
theorem norm_pos {a : V3} (h : a ≠ 0) : 0 < a.norm :=
  lt_of_le_of_ne (norm_nonneg a) (fun h' => h (norm_eq_zero.1 h'.symm))
theorem normSq_pos {a : V3} (h : a ≠ 0) : 0 < a.normSq :=
  lt_of_le_of_ne (normSq_nonneg a) (fun h' => h (normSq_eq_zero.1 h'.symm))
theorem sub_self (a : V3) : a - a = 0 := by ext <;> simp
theorem sub_eq_zero {a b : V3} : a - b = 0 ↔ a = b := by
  constructor
  · intro h
    have hx := congrArg V3.x h; have hy := congrArg V3.y h; have hz := congrArg V3.z h
    simp at hx hy hz
    ext <;> linarith
  · rintro rfl; exact sub_self _
theorem add_zero (a : V3) : a + 0 = a := by ext <;> simp
theorem zero_add (a : V3) : 0 + a = a := by ext <;> simp
theorem normalized_of_ne {a : V3} (h : a ≠ 0) : a.normalized = smul (1 / a.norm) a := by
  unfold normalized; rw [if_pos (normSq_pos h)]
theorem normalized_zero : (0 : V3).normalized = 0 := by
  unfold normalized; rw [if_neg]; simp [normSq, dot]
theorem normSq_normalized {a : V3} (h : a ≠ 0) : a.normalized.normSq = 1 := by
  rw [normalized_of_ne h]
  have h1 := norm_sq a
  have h2 := (norm_pos h).ne'
  have : (smul (1 / a.norm) a).normSq = a.normSq / (a.norm * a.norm) := by
    unfold normSq dot; simp only [smul_x, smul_y, smul_z]; field_simp
  rw [this, h1, div_self (normSq_pos h).ne']
end V3

namespace V2
theorem normSq_nonneg (a : V2) : 0 ≤ a.normSq := by
  unfold normSq; nlinarith [mul_self_nonneg a.x, mul_self_nonneg a.y]
theorem norm_nonneg (a : V2) : 0 ≤ a.norm := Real.sqrt_nonneg _
theorem normSq_eq_zero {a : V2} : a.normSq = 0 ↔ a = 0 := by
  constructor
  · intro h
    unfold normSq at h
    have hx : a.x * a.x = 0 := by nlinarith [mul_self_nonneg a.x, mul_self_nonneg a.y]
    have hy : a.y * a.y = 0 := by nlinarith [mul_self_nonneg a.x, mul_self_nonneg a.y]
    ext
    · simpa using hx
    · simpa using hy
  · rintro rfl; simp [normSq]
theorem norm_eq_zero {a : V2} : a.norm = 0 ↔ a = 0 := by
  unfold norm
  rw [Real.sqrt_eq_zero (normSq_nonneg a), normSq_eq_zero]
theorem sub_eq_zero {a b : V2} : a - b = 0 ↔ a = b := by
  constructor
  · intro h
    have hx := congrArg V2.x h; have hy := congrArg V2.y h
    simp at hx hy
    ext <;> linarith
  · rintro rfl; ext <;> simp
end V2

namespace M3
theorem mul_assoc (a b c : M3) : a * b * c = a * (b * c) := by
  simp only [mul_def]; ext <;> simp only <;> ring
theorem one_mul (a : M3) : 1 * a = a := by
  simp only [mul_def, one_def]; ext <;> simp
theorem mul_one (a : M3) : a * 1 = a := by
  simp only [mul_def, one_def]; ext <;> simp
theorem tr_mul (a b : M3) : (a * b).tr = b.tr * a.tr := by
  simp only [mul_def, tr]; ext <;> simp only <;> ring
@[simp] theorem tr_tr (a : M3) : a.tr.tr = a := rfl
@[simp] theorem tr_one : (1 : M3).tr = 1 := rfl
theorem det_mul (a b : M3) : (a * b).det = a.det * b.det := by
  simp only [mul_def, det]; ring
@[simp] theorem det_one : (1 : M3).det = 1 := by simp [one_def, det]
@[simp] theorem det_tr (a : M3) : a.tr.det = a.det := by simp only [det, tr]; ring
theorem mulVec_mul (a b : M3) (v : V3) : (a * b).mulVec v = a.mulVec (b.mulVec v) := by
  simp only [mul_def, mulVec]; ext <;> simp only <;> ring
@[simp] theorem one_mulVec (v : V3) : (1 : M3).mulVec v = v := by
  simp only [one_def, mulVec]; ext <;> simp
theorem mulVec_add (a : M3) (v w : V3) : a.mulVec (v + w) = a.mulVec v + a.mulVec w := by
  simp only [mulVec]; ext <;> simp <;> ring
theorem mulVec_sub (a : M3) (v w : V3) : a.mulVec (v - w) = a.mulVec v - a.mulVec w := by
  simp only [mulVec]; ext <;> simp <;> ring
theorem mulVec_neg (a : M3) (v : V3) : a.mulVec (-v) = -a.mulVec v := by
  simp only [mulVec]; ext <;> simp <;> ring
theorem mulVec_smul (a : M3) (k : ℝ) (v : V3) : a.mulVec (V3.smul k v) = V3.smul k (a.mulVec v) := by
  simp only [mulVec, V3.smul]; ext <;> simp <;> ring
@[simp] theorem mulVec_zero (a : M3) : a.mulVec 0 = 0 := by
  simp only [mulVec]; ext <;> simp

/-- Adjugate. -/
def adj (a : M3) : M3 :=
  ⟨a.m11 * a.m22 - a.m12 * a.m21, a.m02 * a.m21 - a.m01 * a.m22, a.m01 * a.m12 - a.m02 * a.m11,
   a.m12 * a.m20 - a.m10 * a.m22, a.m00 * a.m22 - a.m02 * a.m20, a.m02 * a.m10 - a.m00 * a.m12,
   a.m10 * a.m21 - a.m11 * a.m20, a.m01 * a.m20 - a.m00 * a.m21, a.m00 * a.m11 - a.m01 * a.m10⟩

theorem mul_adj_of_det_one {a : M3} (h : a.det = 1) : a * a.adj = 1 := by
  simp only [det] at h
  simp only [mul_def, adj, one_def]
  ext <;> simp only <;> first | ring1 | linear_combination h

/-- The adjugate of a rotation is its transpose. -/
theorem IsRot.adj_eq {a : M3} (h : a.IsRot) : a.adj = a.tr := by
  have h1 := mul_adj_of_det_one h.2
  calc a.adj = (a.tr * a) * a.adj := by rw [h.1, one_mul]
    _ = a.tr * (a * a.adj) := mul_assoc _ _ _
    _ = a.tr := by rw [h1, mul_one]

theorem IsRot.mul_tr {a : M3} (h : a.IsRot) : a * a.tr = 1 := by
  rw [← h.adj_eq]; exact mul_adj_of_det_one h.2

theorem IsRot.tr {a : M3} (h : a.IsRot) : a.tr.IsRot := by
  refine ⟨?_, ?_⟩
  · rw [tr_tr]; exact h.mul_tr
  · rw [det_tr]; exact h.2

theorem IsRot.mul {a b : M3} (ha : a.IsRot) (hb : b.IsRot) : (a * b).IsRot := by
  refine ⟨?_, ?_⟩
  · rw [tr_mul, mul_assoc, ← mul_assoc a.tr, ha.1, one_mul, hb.1]
  · rw [det_mul, ha.2, hb.2, _root_.one_mul]

theorem IsRot.one : (1 : M3).IsRot := by
  refine ⟨?_, det_one⟩
  rw [tr_one, one_mul]

/-- Columns of a rotation are orthonormal (component form). -/
theorem IsRot.cols {a : M3} (h : a.IsRot) :
    a.m00 * a.m00 + a.m10 * a.m10 + a.m20 * a.m20 = 1 ∧
    a.m01 * a.m01 + a.m11 * a.m11 + a.m21 * a.m21 = 1 ∧
    a.m02 * a.m02 + a.m12 * a.m12 + a.m22 * a.m22 = 1 ∧
    a.m00 * a.m01 + a.m10 * a.m11 + a.m20 * a.m21 = 0 ∧
    a.m00 * a.m02 + a.m10 * a.m12 + a.m20 * a.m22 = 0 ∧
    a.m01 * a.m02 + a.m11 * a.m12 + a.m21 * a.m22 = 0 := by
  have h1 := h.1
  rw [mul_def, one_def, M3.ext_iff] at h1
  simp only [M3.tr] at h1
  obtain ⟨a1, a2, a3, _, a5, a6, _, _, a9⟩ := h1
  exact ⟨a1, a5, a9, a2, a3, a6⟩

/-- Rows of a rotation are orthonormal (component form). -/
theorem IsRot.rows {a : M3} (h : a.IsRot) :
    a.m00 * a.m00 + a.m01 * a.m01 + a.m02 * a.m02 = 1 ∧
    a.m10 * a.m10 + a.m11 * a.m11 + a.m12 * a.m12 = 1 ∧
    a.m20 * a.m20 + a.m21 * a.m21 + a.m22 * a.m22 = 1 ∧
    a.m00 * a.m10 + a.m01 * a.m11 + a.m02 * a.m12 = 0 ∧
    a.m00 * a.m20 + a.m01 * a.m21 + a.m02 * a.m22 = 0 ∧
    a.m10 * a.m20 + a.m11 * a.m21 + a.m12 * a.m22 = 0 := h.tr.cols

/-- Cofactor identities of a rotation. -/
theorem IsRot.cof {a : M3} (h : a.IsRot) :
    a.m11 * a.m22 - a.m12 * a.m21 = a.m00 ∧ a.m02 * a.m21 - a.m01 * a.m22 = a.m10 ∧
    a.m01 * a.m12 - a.m02 * a.m11 = a.m20 ∧ a.m12 * a.m20 - a.m10 * a.m22 = a.m01 ∧
    a.m00 * a.m22 - a.m02 * a.m20 = a.m11 ∧ a.m02 * a.m10 - a.m00 * a.m12 = a.m21 ∧
    a.m10 * a.m21 - a.m11 * a.m20 = a.m02 ∧ a.m01 * a.m20 - a.m00 * a.m21 = a.m12 ∧
    a.m00 * a.m11 - a.m01 * a.m10 = a.m22 := by
  have h1 := h.adj_eq
  rw [M3.ext_iff] at h1
  simpa only [adj, M3.tr] using h1

theorem IsRot.of_cols {a : M3}
    (h1 : a.m00 * a.m00 + a.m10 * a.m10 + a.m20 * a.m20 = 1)
    (h2 : a.m01 * a.m01 + a.m11 * a.m11 + a.m21 * a.m21 = 1)
    (h3 : a.m02 * a.m02 + a.m12 * a.m12 + a.m22 * a.m22 = 1)
    (h4 : a.m00 * a.m01 + a.m10 * a.m11 + a.m20 * a.m21 = 0)
    (h5 : a.m00 * a.m02 + a.m10 * a.m12 + a.m20 * a.m22 = 0)
    (h6 : a.m01 * a.m02 + a.m11 * a.m12 + a.m21 * a.m22 = 0)
    (hd : a.det = 1) : a.IsRot := by
  refine ⟨?_, hd⟩
  rw [mul_def, one_def]
  ext <;> simp only [M3.tr] <;> linarith

/-- Rotations preserve the dot product. -/
theorem IsRot.dot {a : M3} (h : a.IsRot) (v w : V3) : (a.mulVec v).dot (a.mulVec w) = v.dot w := by
  obtain ⟨h1, h2, h3, h4, h5, h6⟩ := h.cols
  simp only [V3.dot, mulVec]
  linear_combination (v.x * w.x) * h1 + (v.y * w.y) * h2 + (v.z * w.z) * h3
    + (v.x * w.y + v.y * w.x) * h4 + (v.x * w.z + v.z * w.x) * h5 + (v.y * w.z + v.z * w.y) * h6

theorem IsRot.norm {a : M3} (h : a.IsRot) (v : V3) : (a.mulVec v).norm = v.norm := by
  unfold V3.norm V3.normSq; rw [h.dot]

theorem IsRot.cross {a : M3} (h : a.IsRot) (v w : V3) :
    (a.mulVec v).cross (a.mulVec w) = a.mulVec (v.cross w) := by
  obtain ⟨c1, c2, c3, c4, c5, c6, c7, c8, c9⟩ := h.cof
  simp only [V3.cross, mulVec]
  ext <;> simp only
  · rw [← c1, ← c4, ← c7]; ring
  · rw [← c2, ← c5, ← c8]; ring
  · rw [← c3, ← c6, ← c9]; ring

end M3

namespace Iso
theorem mul_assoc (a b c : Iso) : a * b * c = a * (b * c) := by
  ext1
  · simp [M3.mul_assoc]
  · simp only [mul_R, mul_t, M3.mulVec_add, M3.mulVec_mul]; ext <;> simp <;> ring
@[simp] theorem one_mul (a : Iso) : 1 * a = a := by
  ext1
  · simp [M3.one_mul]
  · simp [V3.add_zero]
@[simp] theorem mul_one (a : Iso) : a * 1 = a := by
  ext1
  · simp [M3.mul_one]
  · simp [V3.zero_add]
theorem apply_mul (a b : Iso) (p : V3) : (a * b).apply p = a.apply (b.apply p) := by
  simp only [apply, mul_R, mul_t, M3.mulVec_add, M3.mulVec_mul]; ext <;> simp <;> ring
@[simp] theorem apply_one (p : V3) : (1 : Iso).apply p = p := by simp [apply, V3.add_zero]
@[simp] theorem inv_one : (1 : Iso).inv = 1 := by
  ext1
  · simp [inv]
  · simp only [inv, one_R, M3.tr_one, one_t, M3.mulVec_zero]; ext <;> simp
theorem inv_inv {a : Iso} (h : a.IsRigid) : a.inv.inv = a := by
  ext1
  · rfl
  · simp only [inv, M3.tr_tr, M3.mulVec_neg, ← M3.mulVec_mul, M3.IsRot.mul_tr h]
    simp only [M3.one_mulVec]; ext <;> simp
theorem inv_mul {a : Iso} (h : a.IsRigid) : a.inv * a = 1 := by
  ext1
  · exact h.1
  · simp only [inv, mul_t, one_t]; ext <;> simp
theorem mul_inv {a : Iso} (h : a.IsRigid) : a * a.inv = 1 := by
  ext1
  · exact M3.IsRot.mul_tr h
  · simp only [inv, mul_t, one_t, M3.mulVec_neg, ← M3.mulVec_mul, M3.IsRot.mul_tr h, M3.one_mulVec]
    ext <;> simp
theorem mul_inv_rev {a : Iso} (h : a.IsRigid) (b : Iso) : (a * b).inv = b.inv * a.inv := by
  ext1
  · simp [inv, M3.tr_mul]
  · simp only [inv, mul_t, mul_R, M3.tr_mul, M3.mulVec_add, M3.mulVec_neg, M3.mulVec_mul]
    have : b.R.tr.mulVec (a.R.tr.mulVec (a.R.mulVec b.t)) = b.R.tr.mulVec b.t := by
      rw [← M3.mulVec_mul a.R.tr, h.1, M3.one_mulVec]
    rw [this]; ext <;> simp
theorem IsRigid.mul {a b : Iso} (ha : a.IsRigid) (hb : b.IsRigid) : (a * b).IsRigid := M3.IsRot.mul ha hb
theorem IsRigid.inv {a : Iso} (ha : a.IsRigid) : a.inv.IsRigid := M3.IsRot.tr ha
theorem IsRigid.one : (1 : Iso).IsRigid := M3.IsRot.one
theorem inv_mul_cancel_left {a : Iso} (h : a.IsRigid) (b : Iso) : a.inv * (a * b) = b := by
  rw [← mul_assoc, inv_mul h, one_mul]
theorem mul_inv_cancel_left {a : Iso} (h : a.IsRigid) (b : Iso) : a * (a.inv * b) = b := by
  rw [← mul_assoc, mul_inv h, one_mul]
theorem inv_apply_apply {a : Iso} (h : a.IsRigid) (p : V3) : a.inv.apply (a.apply p) = p := by
  rw [← apply_mul, inv_mul h, apply_one]
theorem apply_inv_apply {a : Iso} (h : a.IsRigid) (p : V3) : a.apply (a.inv.apply p) = p := by
  rw [← apply_mul, mul_inv h, apply_one]
/-- Rigid transforms preserve distances. -/
theorem IsRigid.dist {a : Iso} (h : a.IsRigid) (p q : V3) :
    (a.apply p - a.apply q).norm = (p - q).norm := by
  have : a.apply p - a.apply q = a.R.mulVec (p - q) := by
    rw [M3.mulVec_sub]; ext <;> simp [apply]
  rw [this, M3.IsRot.norm h]
end Iso

namespace Quat
theorem normSq_mul (a b : Quat) : (a * b).normSq = a.normSq * b.normSq := by
  simp only [mul_def, normSq]; ring
theorem mul_assoc (a b c : Quat) : a * b * c = a * (b * c) := by
  simp only [mul_def]; ext <;> simp only <;> ring
theorem one_mul (a : Quat) : one * a = a := by
  simp only [mul_def, one]; ext <;> simp
theorem mul_one (a : Quat) : a * one = a := by
  simp only [mul_def, one]; ext <;> simp
theorem mul_conj {a : Quat} (h : a.IsUnit) : a * a.conj = one := by
  simp only [IsUnit, normSq] at h
  simp only [mul_def, conj, one]
  ext <;> simp only <;> first | ring1 | linear_combination h
theorem conj_mul {a : Quat} (h : a.IsUnit) : a.conj * a = one := by
  simp only [IsUnit, normSq] at h
  simp only [mul_def, conj, one]
  ext <;> simp only <;> first | ring1 | linear_combination h
theorem IsUnit.conj {a : Quat} (h : a.IsUnit) : a.conj.IsUnit := by
  simp only [IsUnit, normSq, Quat.conj] at *; linarith
theorem IsUnit.mul {a b : Quat} (ha : a.IsUnit) (hb : b.IsUnit) : (a * b).IsUnit := by
  unfold IsUnit at *; rw [normSq_mul, ha, hb]; norm_num
theorem IsUnit.neg {a : Quat} (h : a.IsUnit) : (-a).IsUnit := by
  have : (-a).normSq = a.normSq := by
    show (-a.w) * (-a.w) + (-a.x) * (-a.x) + (-a.y) * (-a.y) + (-a.z) * (-a.z) = _
    unfold normSq; ring
  unfold IsUnit; rw [this]; exact h
/-- A unit quaternion gives a proper rotation. -/
theorem IsUnit.toMat_isRot {q : Quat} (h : q.IsUnit) : q.toMat.IsRot := by
  simp only [IsUnit, normSq] at h
  apply M3.IsRot.of_cols <;> simp only [toMat, M3.det]
  · linear_combination (4 * (q.y * q.y + q.z * q.z)) * h
  · linear_combination (4 * (q.x * q.x + q.z * q.z)) * h
  · linear_combination (4 * (q.x * q.x + q.y * q.y)) * h
  · linear_combination (-4 * (q.x * q.y)) * h
  · linear_combination (-4 * (q.x * q.z)) * h
  · linear_combination (-4 * (q.y * q.z)) * h
  · linear_combination (4 * (q.x * q.x + q.y * q.y + q.z * q.z)) * h

/-- The rotation of a product of unit quaternions is the product of the rotations. -/
theorem toMat_mul {a b : Quat} (ha : a.IsUnit) (hb : b.IsUnit) : (a * b).toMat = a.toMat * b.toMat := by
  simp only [IsUnit, normSq] at ha hb
  have ha' : a.w * a.w = 1 - a.x * a.x - a.y * a.y - a.z * a.z := by linarith
  have hb' : b.w * b.w = 1 - b.x * b.x - b.y * b.y - b.z * b.z := by linarith
  simp only [mul_def, toMat, M3.mul_def]
  ext <;> simp only <;> ring_nf <;> simp only [pow_two, ha', hb'] <;> ring_nf
end Quat
end RCT
