import Verif.Spec.Identify
import Verif.Lemmas.Frames
import Mathlib.Tactic.LinearCombination

namespace RCT
open Spec

theorem v3_basis (u v w : V3) (h1 : w.dot u = 0) (h2 : w.dot v = 0) (h3 : w.dot (u.cross v) = 0) (hn : u.cross v ≠ 0) :
    w = 0 := by
  have hpos := V3.normSq_pos hn
  simp only [V3.dot, V3.cross, V3.normSq] at h1 h2 h3 hpos
  have hne := hpos.ne'
  have key : ∀ t : ℝ, t * ((u.y * v.z - u.z * v.y) * (u.y * v.z - u.z * v.y) + (u.z * v.x - u.x * v.z) * (u.z * v.x - u.x * v.z) +
      (u.x * v.y - u.y * v.x) * (u.x * v.y - u.y * v.x)) = 0 → t = 0 := by
    intro t ht
    exact (mul_eq_zero.1 ht).resolve_right hne
  ext
  · apply key
    linear_combination (u.y * v.z - u.z * v.y) * h3 +
      (v.y * (u.x * v.y - u.y * v.x) - v.z * (u.z * v.x - u.x * v.z)) * h1 +
      ((u.z * v.x - u.x * v.z) * u.z - (u.x * v.y - u.y * v.x) * u.y) * h2
  · apply key
    linear_combination (u.z * v.x - u.x * v.z) * h3 +
      (v.z * (u.y * v.z - u.z * v.y) - v.x * (u.x * v.y - u.y * v.x)) * h1 +
      ((u.x * v.y - u.y * v.x) * u.x - (u.y * v.z - u.z * v.y) * u.z) * h2
  · apply key
    linear_combination (u.x * v.y - u.y * v.x) * h3 +
      (v.x * (u.z * v.x - u.x * v.z) - v.y * (u.y * v.z - u.z * v.y)) * h1 +
      ((u.y * v.z - u.z * v.y) * u.y - (u.z * v.x - u.x * v.z) * u.x) * h2

/-- Two rotations that agree on two independent vectors are equal. -/
theorem M3.IsRot.eq_of_two {A B : M3} (hA : A.IsRot) (hB : B.IsRot) {u v : V3} (hn : u.cross v ≠ 0)
    (h1 : A.mulVec u = B.mulVec u) (h2 : A.mulVec v = B.mulVec v) : A = B := by
  have h3 : A.mulVec (u.cross v) = B.mulVec (u.cross v) := by
    have e1 := hA.cross u v
    have e2 := hB.cross u v
    rw [h1, h2, e2] at e1
    exact e1.symm
  have c1x := congrArg V3.x h1
  have c1y := congrArg V3.y h1
  have c1z := congrArg V3.z h1
  have c2x := congrArg V3.x h2
  have c2y := congrArg V3.y h2
  have c2z := congrArg V3.z h2
  have c3x := congrArg V3.x h3
  have c3y := congrArg V3.y h3
  have c3z := congrArg V3.z h3
  simp only [M3.mulVec] at c1x c1y c1z c2x c2y c2z c3x c3y c3z
  have r0 := v3_basis u v ⟨A.m00 - B.m00, A.m01 - B.m01, A.m02 - B.m02⟩ (by simp only [V3.dot]; linarith) (by simp only [V3.dot]; linarith)
    (by simp only [V3.dot]; linarith) hn
  have r1 := v3_basis u v ⟨A.m10 - B.m10, A.m11 - B.m11, A.m12 - B.m12⟩ (by simp only [V3.dot]; linarith) (by simp only [V3.dot]; linarith)
    (by simp only [V3.dot]; linarith) hn
  have r2 := v3_basis u v ⟨A.m20 - B.m20, A.m21 - B.m21, A.m22 - B.m22⟩ (by simp only [V3.dot]; linarith) (by simp only [V3.dot]; linarith)
    (by simp only [V3.dot]; linarith) hn
  have p : ∀ {a b c : ℝ}, (⟨a, b, c⟩ : V3) = 0 → a = 0 ∧ b = 0 ∧ c = 0 := fun h =>
    ⟨congrArg V3.x h, congrArg V3.y h, congrArg V3.z h⟩
  obtain ⟨a0, a1, a2⟩ := p r0
  obtain ⟨b0, b1, b2⟩ := p r1
  obtain ⟨d0, d1, d2⟩ := p r2
  ext <;> linarith

theorem Triangle3.cross_ne {a b c : V3} (h : Triangle3 a b c) : (b - a).cross (c - a) ≠ 0 := by
  obtain ⟨hne, h⟩ := h
  intro h0
  have hx := congrArg V3.x h0
  have hy := congrArg V3.y h0
  have hz := congrArg V3.z h0
  simp [V3.cross] at hx hy hz
  have hpos : 0 < (b - a).normSq := V3.normSq_pos fun h' => hne (V3.sub_eq_zero.1 h').symm
  simp only [V3.normSq, V3.dot, V3.sub_x, V3.sub_y, V3.sub_z] at hpos
  obtain ⟨n, hn⟩ : ∃ n, n = (b.x - a.x) * (b.x - a.x) + (b.y - a.y) * (b.y - a.y) + (b.z - a.z) * (b.z - a.z) := ⟨_, rfl⟩
  rw [← hn] at hpos
  apply h (((b.x - a.x) * (c.x - a.x) + (b.y - a.y) * (c.y - a.y) + (b.z - a.z) * (c.z - a.z)) / n)
  have hne' := hpos.ne'
  ext <;> simp only <;> field_simp
  · linear_combination (b.z - a.z) * hy - (b.y - a.y) * hz + (c.x - a.x) * hn
  · linear_combination (b.x - a.x) * hz - (b.z - a.z) * hx + (c.y - a.y) * hn
  · linear_combination (b.y - a.y) * hx - (b.x - a.x) * hy + (c.z - a.z) * hn

theorem triangle3_iff {a b c : V3} : Triangle3 a b c ↔ (b - a).cross (c - a) ≠ 0 := by
  refine ⟨Triangle3.cross_ne, fun h => ⟨?_, ?_⟩⟩
  · rintro rfl
    apply h
    rw [V3.sub_self]; ext <;> simp [V3.cross]
  · rintro k rfl
    apply h
    ext <;> simp [V3.cross] <;> ring

/-- Two rigid motions that agree on a triangle are equal. -/
theorem Iso.IsRigid.eq_of_triangle {S T : Iso} (hS : S.IsRigid) (hT : T.IsRigid) {a b c : V3} (h : Triangle3 a b c)
    (ha : S.apply a = T.apply a) (hb : S.apply b = T.apply b) (hc : S.apply c = T.apply c) : S = T := by
  have hR : S.R = T.R := by
    apply M3.IsRot.eq_of_two hS hT (triangle3_iff.1 h)
    · rw [M3.mulVec_sub, M3.mulVec_sub]
      have hx := congrArg V3.x ha; have hy := congrArg V3.y ha; have hz := congrArg V3.z ha
      have kx := congrArg V3.x hb; have ky := congrArg V3.y hb; have kz := congrArg V3.z hb
      simp [Iso.apply] at hx hy hz kx ky kz
      ext <;> simp <;> linarith
    · rw [M3.mulVec_sub, M3.mulVec_sub]
      have hx := congrArg V3.x ha; have hy := congrArg V3.y ha; have hz := congrArg V3.z ha
      have kx := congrArg V3.x hc; have ky := congrArg V3.y hc; have kz := congrArg V3.z hc
      simp [Iso.apply] at hx hy hz kx ky kz
      ext <;> simp <;> linarith
  have hx := congrArg V3.x ha; have hy := congrArg V3.y ha; have hz := congrArg V3.z ha
  simp [Iso.apply, hR] at hx hy hz
  ext1
  · exact hR
  · ext <;> assumption

/-- A point of the target seen from the camera: the rotated vector from the camera centre. -/
theorem Iso.IsRigid.apply_eq {T : Iso} (h : T.IsRigid) (p : V3) : T.apply p = T.R.mulVec (p - T.inv.t) := by
  have h1 : T.R.mulVec T.inv.t = -T.t := by
    have := congrArg Iso.t (Iso.mul_inv h)
    simp only [Iso.mul_def, Iso.one_def] at this
    have hx := congrArg V3.x this; have hy := congrArg V3.y this; have hz := congrArg V3.z this
    simp at hx hy hz
    ext <;> simp <;> linarith
  rw [M3.mulVec_sub, h1]
  ext <;> simp [Iso.apply]

def V3.triple (a b c : V3) : ℝ := (a.cross b).dot c

theorem M3.IsRot.triple {R : M3} (h : R.IsRot) (a b c : V3) :
    (R.mulVec a).triple (R.mulVec b) (R.mulVec c) = a.triple b c := by
  unfold V3.triple
  rw [h.cross, h.dot]

/-- Linear independence by the triple product. -/
theorem v3_independent {a b c : V3} (h : a.triple b c ≠ 0) {x y z : ℝ}
    (h0 : V3.smul x a + V3.smul y b + V3.smul z c = 0) : x = 0 ∧ y = 0 ∧ z = 0 := by
  have hx := congrArg V3.x h0; have hy := congrArg V3.y h0; have hz := congrArg V3.z h0
  simp [V3.smul] at hx hy hz
  simp only [V3.triple, V3.cross, V3.dot] at h
  refine ⟨(mul_eq_zero.1 ?_).resolve_right h, (mul_eq_zero.1 ?_).resolve_right h, (mul_eq_zero.1 ?_).resolve_right h⟩
  · linear_combination (b.y * c.z - b.z * c.y) * hx + (b.z * c.x - b.x * c.z) * hy + (b.x * c.y - b.y * c.x) * hz
  · linear_combination (c.y * a.z - c.z * a.y) * hx + (c.z * a.x - c.x * a.z) * hy + (c.x * a.y - c.y * a.x) * hz
  · linear_combination (a.y * b.z - a.z * b.y) * hx + (a.z * b.x - a.x * b.z) * hy + (a.x * b.y - a.y * b.x) * hz

/-- Signed double area of a triangle in the plane `z = 0`. -/
def area2 (a b c : V3) : ℝ := (b.x - a.x) * (c.y - a.y) - (b.y - a.y) * (c.x - a.x)

theorem triangle3_area {a b c : V3} (h : Triangle3 a b c) (ha : a.z = 0) (hb : b.z = 0) (hc : c.z = 0) : area2 a b c ≠ 0 := by
  intro h0
  apply triangle3_iff.1 h
  unfold area2 at h0
  ext <;> simp [V3.cross, ha, hb, hc]
  linarith

theorem planar_unique_le {S T : Iso} (hS : S.IsRigid) (hT : T.IsRigid) {a b c d : V3} (hq : Quadrangle a b c d)
    (hcam : T.inv.t.z ≠ 0) {ka kb kc kd : ℝ} (hk : 0 ≤ ka) (ha : S.apply a = V3.smul ka (T.apply a)) (hb : S.apply b = V3.smul kb (T.apply b))
    (hc : S.apply c = V3.smul kc (T.apply c)) (hd : S.apply d = V3.smul kd (T.apply d)) : S = T := by
  have z1 := hq.za; have z2 := hq.zb; have z3 := hq.zc; have z4 := hq.zd
  have hA := triangle3_area hq.abc z1 z2 z3
  have hB := triangle3_area hq.abd z1 z2 z4
  have hC := triangle3_area hq.acd z1 z3 z4
  have hD := triangle3_area hq.bcd z2 z3 z4
  have htr : (T.apply a).triple (T.apply b) (T.apply c) ≠ 0 := by
    rw [hT.apply_eq, hT.apply_eq, hT.apply_eq, M3.IsRot.triple hT]
    have : (a - T.inv.t).triple (b - T.inv.t) (c - T.inv.t) = -(T.inv.t.z * area2 a b c) := by
      simp only [V3.triple, V3.cross, V3.dot, V3.sub_x, V3.sub_y, V3.sub_z, area2, z1, z2, z3]
      ring
    rw [this]
    exact neg_ne_zero.2 (mul_ne_zero hcam hA)
  -- barycentric coordinates of d, cleared of denominators
  have hbary : ∀ U : Iso, V3.smul (area2 a b c) (U.apply d) =
      V3.smul (area2 b c d) (U.apply a) + V3.smul (-area2 a c d) (U.apply b) + V3.smul (area2 a b d) (U.apply c) := by
    intro U
    ext <;> simp [V3.smul, Iso.apply, M3.mulVec, area2, z1, z2, z3, z4] <;> ring
  have hS' := hbary S
  have hT' := hbary T
  rw [ha, hb, hc, hd] at hS'
  have hlin : V3.smul (area2 b c d * (ka - kd)) (T.apply a) + V3.smul (-area2 a c d * (kb - kd)) (T.apply b) +
      V3.smul (area2 a b d * (kc - kd)) (T.apply c) = 0 := by
    have sx := congrArg V3.x hS'; have sy := congrArg V3.y hS'; have sz := congrArg V3.z hS'
    have tx := congrArg V3.x hT'; have ty := congrArg V3.y hT'; have tz := congrArg V3.z hT'
    simp [V3.smul] at sx sy sz tx ty tz
    ext <;> simp [V3.smul]
    · linear_combination -sx + kd * tx
    · linear_combination -sy + kd * ty
    · linear_combination -sz + kd * tz
  obtain ⟨e1, e2, e3⟩ := v3_independent htr hlin
  have f1 : ka = kd := by have := (mul_eq_zero.1 e1).resolve_left hD; linarith
  have f2 : kb = kd := by have := (mul_eq_zero.1 e2).resolve_left (neg_ne_zero.2 hC); linarith
  have f3 : kc = kd := by have := (mul_eq_zero.1 e3).resolve_left hB; linarith
  have hone : ka = 1 := by
    have hdS : S.R.mulVec (b - a) = V3.smul ka (T.R.mulVec (b - a)) := by
      have hx := congrArg V3.x ha; have hy := congrArg V3.y ha; have hz := congrArg V3.z ha
      have kx := congrArg V3.x hb; have ky := congrArg V3.y hb; have kz := congrArg V3.z hb
      rw [f2, ← f1] at kx ky kz
      simp [Iso.apply, M3.mulVec, V3.smul] at hx hy hz kx ky kz
      ext <;> simp [M3.mulVec, V3.smul] <;> linarith
    have hn := M3.IsRot.dot hS (b - a) (b - a)
    have hn' := M3.IsRot.dot hT (b - a) (b - a)
    rw [hdS] at hn
    have hpos : 0 < (b - a).dot (b - a) := V3.normSq_pos fun h' => hq.abc.1 (V3.sub_eq_zero.1 h').symm
    have : ka * ka * (b - a).dot (b - a) = (b - a).dot (b - a) := by
      calc _ = (V3.smul ka (T.R.mulVec (b - a))).dot (V3.smul ka (T.R.mulVec (b - a))) := by
            rw [← hn']; simp only [V3.dot, V3.smul]; ring
        _ = _ := hn
    have h1 : ka * ka = 1 := by
      have := mul_right_cancel₀ hpos.ne' (this.trans (one_mul _).symm)
      exact this
    exact (mul_self_eq_one_iff.1 h1).resolve_right (by linarith)
  have one : ∀ v : V3, V3.smul 1 v = v := fun v => by ext <;> simp [V3.smul]
  refine hS.eq_of_triangle hT hq.abc ?_ ?_ ?_
  · rw [ha, hone, one]
  · rw [hb, f2, ← f1, hone, one]
  · rw [hc, f3, ← f1, hone, one]

theorem planar_unique {S T : Iso} (hS : S.IsRigid) (hT : T.IsRigid) {a b c d : V3} (hq : Quadrangle a b c d)
    (hcam : T.inv.t.z ≠ 0) {ka kb kc kd : ℝ} (hk : 0 < ka) (ha : S.apply a = V3.smul ka (T.apply a)) (hb : S.apply b = V3.smul kb (T.apply b))
    (hc : S.apply c = V3.smul kc (T.apply c)) (hd : S.apply d = V3.smul kd (T.apply d)) : S = T :=
  planar_unique_le hS hT hq hcam hk.le ha hb hc hd

theorem turnVector_rotated {Z D : M3} (hZ : Z.IsRot) (h : Z * D = D * Z) : Z.mulVec (turnVector D) = turnVector D := by
  have h' : Z * D * Z.tr = D := by rw [h, M3.mul_assoc, hZ.mul_tr, M3.mul_one]
  obtain ⟨c1, c2, c3, c4, c5, c6, c7, c8, c9⟩ := hZ.cof
  have e : ∀ i : M3 → ℝ, i (Z * D * Z.tr) = i D := fun i => by rw [h']
  have e21 := e M3.m21; have e12 := e M3.m12; have e02 := e M3.m02; have e20 := e M3.m20
  have e10 := e M3.m10; have e01 := e M3.m01
  simp only [M3.mul_def, M3.tr] at e21 e12 e02 e20 e10 e01
  simp only [turnVector, M3.mulVec]
  ext <;> simp only
  · linear_combination e21 - e12 - (D.m21 - D.m12) * c1 - (D.m02 - D.m20) * c4 - (D.m10 - D.m01) * c7
  · linear_combination e02 - e20 - (D.m21 - D.m12) * c2 - (D.m02 - D.m20) * c5 - (D.m10 - D.m01) * c8
  · linear_combination e10 - e01 - (D.m21 - D.m12) * c3 - (D.m02 - D.m20) * c6 - (D.m10 - D.m01) * c9

/-- A rigid motion that commutes with two motions about different axes is the identity. -/
theorem commuting_trivial {Z D E : Iso} (hZ : Z.IsRigid) (hD : D.IsRigid) (hE : E.IsRigid) (hax : AxesDiffer D.R E.R)
    (h1 : Z * D = D * Z) (h2 : Z * E = E * Z) : Z = 1 := by
  have r1 : Z.R * D.R = D.R * Z.R := congrArg Iso.R h1
  have r2 : Z.R * E.R = E.R * Z.R := congrArg Iso.R h2
  have hR : Z.R = 1 := M3.IsRot.eq_of_two hZ M3.IsRot.one hax (by rw [turnVector_rotated hZ r1, M3.one_mulVec])
    (by rw [turnVector_rotated hZ r2, M3.one_mulVec])
  have ht : ∀ {F : Iso}, F.IsRigid → Z * F = F * Z → (turnVector F.R).cross Z.t = 0 := by
    intro F hF h
    have e := congrArg Iso.t h
    simp only [Iso.mul_def, hR, M3.one_mulVec] at e
    have e' : F.R.mulVec Z.t = Z.t := by
      have hx := congrArg V3.x e; have hy := congrArg V3.y e; have hz := congrArg V3.z e
      simp at hx hy hz
      ext <;> linarith
    have e'' : F.R.tr.mulVec Z.t = Z.t := by
      conv_lhs => rw [← e']
      rw [← M3.mulVec_mul, hF.1, M3.one_mulVec]
    have ax := congrArg V3.x e'; have ay := congrArg V3.y e'; have az := congrArg V3.z e'
    have bx := congrArg V3.x e''; have by' := congrArg V3.y e''; have bz := congrArg V3.z e''
    simp only [M3.mulVec, M3.tr] at ax ay az bx by' bz
    ext <;> simp only [turnVector, V3.cross, V3.zero_x, V3.zero_y, V3.zero_z] <;> linarith
  have t1 := ht hD h1
  have t2 := ht hE h2
  have hzero : Z.t = 0 := by
    obtain ⟨u, hu⟩ : ∃ u, u = turnVector D.R := ⟨_, rfl⟩
    obtain ⟨v, hv⟩ : ∃ v, v = turnVector E.R := ⟨_, rfl⟩
    unfold AxesDiffer at hax
    rw [← hu] at t1 hax
    rw [← hv] at t2 hax
    have ax := congrArg V3.x t1; have ay := congrArg V3.y t1; have az := congrArg V3.z t1
    have bx := congrArg V3.x t2; have by' := congrArg V3.y t2; have bz := congrArg V3.z t2
    simp only [V3.cross, V3.zero_x, V3.zero_y, V3.zero_z] at ax ay az bx by' bz
    have hpos := V3.normSq_pos hax
    simp only [V3.normSq, V3.dot, V3.cross] at hpos
    have key : ∀ t : ℝ, t * ((u.y * v.z - u.z * v.y) * (u.y * v.z - u.z * v.y) + (u.z * v.x - u.x * v.z) * (u.z * v.x - u.x * v.z) +
        (u.x * v.y - u.y * v.x) * (u.x * v.y - u.y * v.x)) = 0 → t = 0 := fun t ht => (mul_eq_zero.1 ht).resolve_right hpos.ne'
    ext <;> simp only [V3.zero_x, V3.zero_y, V3.zero_z] <;> apply key
    · linear_combination (u.y * v.z - u.z * v.y) * (v.x * ax + u.y * by' + u.z * bz) + (u.z * v.x - u.x * v.z) * (v.x * ay - u.x * by') +
        (u.x * v.y - u.y * v.x) * (v.x * az - u.x * bz)
    · linear_combination (u.z * v.x - u.x * v.z) * (v.y * ay + u.z * bz + u.x * bx) + (u.x * v.y - u.y * v.x) * (v.y * az - u.y * bz) +
        (u.y * v.z - u.z * v.y) * (v.y * ax - u.y * bx)
    · linear_combination (u.x * v.y - u.y * v.x) * (v.z * az + u.x * bx + u.y * by') + (u.y * v.z - u.z * v.y) * (v.z * ax - u.z * bx) +
        (u.z * v.x - u.x * v.z) * (v.z * ay - u.z * by')
  ext1
  · exact hR
  · exact hzero

end RCT
