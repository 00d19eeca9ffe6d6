import Verif.Lemmas.RoundedKinCost
import Verif.Lemmas.Kinematic
import Verif.Model.RoundedOrient

/-!
# Rounding errors of orientations
-/

namespace RCT

open Spec

/-- All entries of two quaternions are close. -/
structure QuatNear (e : ℝ) (p q : Quat) : Prop where
  w : |p.w - q.w| ≤ e
  x : |p.x - q.x| ≤ e
  y : |p.y - q.y| ≤ e
  z : |p.z - q.z| ≤ e

namespace Double

variable {D : Double}

theorem WF.sub_sum (hD : D.WF) {a a' b b' e f W : ℝ} (ha : |a' - a| ≤ e) (hb : |b' - b| ≤ f) (hW : |a - b| ≤ W) :
    |D.sub a' b' - (a - b)| ≤ e + f + dblUnit * (W + e + f) := by
  have := hD.sum_step (a := a) (a' := a') (b := -b) (b' := -b') (f := f) ha (by rw [show -b' - -b = -(b' - b) by ring, abs_neg]; exact hb)
    (by simpa [sub_eq_add_neg] using hW)
  simpa only [Double.add, Double.sub, ← sub_eq_add_neg] using this

theorem WF.prod_step (hD : D.WF) {a a' b b' e f A B : ℝ} (ha : |a' - a| ≤ e) (hb : |b' - b| ≤ f) (hA : |a| ≤ A) (hB : |b| ≤ B) :
    |D.mul a' b' - a * b| ≤ (A * f + B * e + e * f) + dblUnit * ((A + e) * (B + f)) := by
  have hu := dblUnit_pos
  have e0 : 0 ≤ e := (abs_nonneg _).trans ha
  have f0 : 0 ≤ f := (abs_nonneg _).trans hb
  have A0 : 0 ≤ A := (abs_nonneg _).trans hA
  have h := hD.rnd_err (a' * b')
  have a2 : |a'| ≤ A + e := by
    have := abs_add_le a (a' - a); rw [add_sub_cancel] at this; linarith
  have b2 : |b'| ≤ B + f := by
    have := abs_add_le b (b' - b); rw [add_sub_cancel] at this; linarith
  have c : |a' * b'| ≤ (A + e) * (B + f) := by
    rw [abs_mul]; exact mul_le_mul a2 b2 (abs_nonneg _) (by linarith)
  have d : |a' * b' - a * b| ≤ A * f + B * e + e * f := by
    have e1 : a' * b' - a * b = a * (b' - b) + (a' - a) * b + (a' - a) * (b' - b) := by ring
    rw [e1]
    have t1 := abs_add_le (a * (b' - b) + (a' - a) * b) ((a' - a) * (b' - b))
    have t2 := abs_add_le (a * (b' - b)) ((a' - a) * b)
    rw [abs_mul, abs_mul] at t2
    rw [abs_mul (a' - a) (b' - b)] at t1
    have m1 := mul_le_mul hA hb (abs_nonneg _) A0
    have m2 := mul_le_mul ha hB (abs_nonneg _) e0
    have m3 := mul_le_mul ha hb (abs_nonneg _) e0
    linarith
  have m := mul_le_mul_of_nonneg_left c hu.le
  have := abs_sub_le (D.rnd (a' * b')) (a' * b') (a * b)
  unfold Double.mul
  linarith

/-- The pivot of a conversion, not small, and the other three entries. -/
theorem WF.pivot_near (hD : D.WF) {δ a b c d s B C E : ℝ} (hδ : dblUnit ≤ δ) (hδ' : δ ≤ 1 / 10000) (ha : 45 / 100 ≤ a) (ha1 : a ≤ 1)
    (hb : |b| ≤ 1) (hc : |c| ≤ 1) (hd : |d| ≤ 1) (hab : |4 * (a * b)| ≤ 2) (hac : |4 * (a * c)| ≤ 2) (had : |4 * (a * d)| ≤ 2)
    (hs : |s - 4 * (a * a)| ≤ 15 * δ) (hB : |B - 4 * (a * b)| ≤ 5 * δ) (hC : |C - 4 * (a * c)| ≤ 5 * δ) (hE : |E - 4 * (a * d)| ≤ 5 * δ) :
    |(D.pivot s B C E).1 - a| ≤ 40 * δ ∧ |(D.pivot s B C E).2.1 - b| ≤ 40 * δ ∧ |(D.pivot s B C E).2.2.1 - c| ≤ 40 * δ ∧
      |(D.pivot s B C E).2.2.2 - d| ≤ 40 * δ := by
  have hu := dblUnit_pos
  have δ0 : 0 < δ := lt_of_lt_of_le hu hδ
  have hs' := abs_le.1 hs
  have a2 : 81 / 100 ≤ 4 * (a * a) := by nlinarith
  have s0 : 0 ≤ s := by linarith
  have r0 := Real.sqrt_nonneg s
  have rs := Real.mul_self_sqrt s0
  have hr := hD.sqrt_err s s0
  obtain ⟨r, hrr⟩ : ∃ r, r = Real.sqrt s := ⟨_, rfl⟩
  rw [← hrr] at r0 rs hr
  have t1 : |r - 2 * a| ≤ 17 * δ := by
    have e : (r - 2 * a) * (r + 2 * a) = s - 4 * (a * a) := by rw [← rs]; ring
    have e2 : |r - 2 * a| * (r + 2 * a) ≤ 15 * δ := by
      rw [← e, abs_mul, abs_of_pos (by linarith : 0 < r + 2 * a)] at hs
      exact hs
    have := abs_nonneg (r - 2 * a)
    nlinarith
  have t1' := abs_le.1 t1
  have t2 : |D.sqrt s - 2 * a| ≤ 20 * δ := by
    have h1 : dblUnit * r ≤ δ * (21 / 10) := mul_le_mul hδ (by linarith) r0 (by linarith)
    have := abs_sub_le (D.sqrt s) r (2 * a)
    linarith
  unfold Double.pivot
  simp only
  obtain ⟨t, ht⟩ : ∃ t, t = D.sqrt s := ⟨_, rfl⟩
  rw [← ht] at t2 ⊢
  have t2' := abs_le.1 t2
  have p1 : |D.mul (1 / 2) t - a| ≤ 40 * δ := by
    have h1 := hD.rnd_err (1 / 2 * t)
    have h2 : |1 / 2 * t| ≤ 11 / 10 := abs_le.2 ⟨by linarith, by linarith⟩
    have h3 : dblUnit * |1 / 2 * t| ≤ δ * (11 / 10) := mul_le_mul hδ h2 (abs_nonneg _) (by linarith)
    have h4 : |1 / 2 * t - a| ≤ 10 * δ := abs_le.2 ⟨by linarith, by linarith⟩
    have := abs_sub_le (D.rnd (1 / 2 * t)) (1 / 2 * t) a
    unfold Double.mul
    linarith
  have tp : 89 / 100 ≤ t := by linarith
  have k0 : |1 / (4 * a)| ≤ 56 / 100 := by
    rw [abs_of_pos (by positivity), div_le_iff₀ (by linarith)]; linarith
  have k1 : |D.div (1 / 2) t - 1 / (4 * a)| ≤ 14 * δ := by
    have h1 := hD.rnd_err (1 / 2 / t)
    have h2 : |1 / 2 / t| ≤ 57 / 100 := by
      rw [abs_of_pos (by positivity), div_le_iff₀ (by linarith)]; linarith
    have h3 : dblUnit * |1 / 2 / t| ≤ δ * (57 / 100) := mul_le_mul hδ h2 (abs_nonneg _) (by linarith)
    have h4 : |1 / 2 / t - 1 / (4 * a)| ≤ 13 * δ := by
      have e : 1 / 2 / t - 1 / (4 * a) = -(t - 2 * a) / (4 * (a * t)) := by
        have : a ≠ 0 := by linarith
        have : t ≠ 0 := by linarith
        field_simp; ring
      have at1 : 40 / 100 ≤ a * t := by nlinarith
      rw [e, abs_div, abs_neg, abs_of_pos (by linarith : 0 < 4 * (a * t)), div_le_iff₀ (by linarith)]
      nlinarith
    have := abs_sub_le (D.rnd (1 / 2 / t)) (1 / 2 / t) (1 / (4 * a))
    unfold Double.div
    linarith
  have key : ∀ {b B : ℝ}, |4 * (a * b)| ≤ 2 → |B - 4 * (a * b)| ≤ 5 * δ → |D.mul B (D.div (1 / 2) t) - b| ≤ 40 * δ := by
    intro b B h1 h2
    have h3 := hD.prod_step h2 k1 h1 k0
    have e : 4 * (a * b) * (1 / (4 * a)) = b := by
      have : a ≠ 0 := by linarith
      field_simp
    rw [e] at h3
    have h4 : dblUnit * ((2 + 5 * δ) * (56 / 100 + 14 * δ)) ≤ δ * 2 := by
      have g : (2 + 5 * δ) * (56 / 100 + 14 * δ) ≤ 21 / 10 * (6 / 10) := mul_le_mul (by linarith) (by linarith) (by positivity) (by norm_num)
      exact mul_le_mul hδ (by linarith) (by positivity) (by linarith)
    have h5 : 5 * δ * (14 * δ) ≤ δ := by
      have := mul_le_mul_of_nonneg_left hδ' δ0.le
      linarith
    linarith
  exact ⟨p1, key hab hB, key hac hC, key had hE⟩

theorem unit_bounds {q : Quat} (h : q.IsUnit) : |q.w| ≤ 1 ∧ |q.x| ≤ 1 ∧ |q.y| ≤ 1 ∧ |q.z| ≤ 1 := by
  unfold Quat.IsUnit Quat.normSq at h
  have k := fun a => mul_self_nonneg (a : ℝ)
  have := k q.w; have := k q.x; have := k q.y; have := k q.z
  refine ⟨?_, ?_, ?_, ?_⟩ <;> apply abs_le_one_iff_mul_self_le_one.2 <;> linarith

/-- The products of two entries of a unit quaternion. -/
theorem unit_products {a b c d : ℝ} (h : a * a + b * b + c * c + d * d = 1) : |4 * (a * b)| ≤ 2 := by
  apply abs_le.2
  constructor <;> nlinarith [mul_self_nonneg (a + b), mul_self_nonneg (a - b), mul_self_nonneg c, mul_self_nonneg d]

/-- One of two opposite quaternions has a positive entry there. -/
theorem choose_sign {A : M3} (hA : A.IsRot) (f : Quat → ℝ) (hf : ∀ q : Quat, f ⟨-q.w, -q.x, -q.y, -q.z⟩ = -f q) :
    ∃ q : Quat, q.IsUnit ∧ q.toMat = A ∧ 0 ≤ f q := by
  obtain ⟨hu, hm⟩ := hA.toQuat
  rcases le_total 0 (f A.toQuat) with h | h
  · exact ⟨_, hu, hm, h⟩
  · generalize A.toQuat = Q at *
    refine ⟨⟨-Q.w, -Q.x, -Q.y, -Q.z⟩, ?_, ?_, ?_⟩
    · unfold Quat.IsUnit Quat.normSq at hu ⊢
      simp only; linarith
    · subst hm; unfold Quat.toMat; ext <;> simp
    · rw [hf]; linarith

theorem lower {a : ℝ} (ha : 0 ≤ a) (h : 22 / 100 ≤ a * a) : 45 / 100 ≤ a := by nlinarith

/-- The conversion of a matrix close to a rotation: close to one of the two quaternions of the rotation. -/
theorem WF.toQuat_near (hD : D.WF) {δ : ℝ} {A' A : M3} (hA : A.IsRot) (hδ : dblUnit ≤ δ) (hδ' : δ ≤ 1 / 10000)
    (h00 : |A'.m00 - A.m00| ≤ δ) (h01 : |A'.m01 - A.m01| ≤ δ) (h02 : |A'.m02 - A.m02| ≤ δ)
    (h10 : |A'.m10 - A.m10| ≤ δ) (h11 : |A'.m11 - A.m11| ≤ δ) (h12 : |A'.m12 - A.m12| ≤ δ)
    (h20 : |A'.m20 - A.m20| ≤ δ) (h21 : |A'.m21 - A.m21| ≤ δ) (h22 : |A'.m22 - A.m22| ≤ δ) :
    ∃ q : Quat, q.IsUnit ∧ q.toMat = A ∧ QuatNear (40 * δ) (D.toQuat A') q := by
  have hu := dblUnit_pos
  have bd : |A.m00| ≤ 1 ∧ |A.m11| ≤ 1 ∧ |A.m22| ≤ 1 := by
    obtain ⟨n0, n1, n2⟩ := M3.IsRot.row_norm hA
    exact ⟨n0 ▸ V3.abs_x_le A.row0, n1 ▸ V3.abs_y_le A.row1, n2 ▸ V3.abs_z_le A.row2⟩
  obtain ⟨b0, b1, b2⟩ := bd
  have c0 := abs_le.1 b0
  have c1 := abs_le.1 b1
  have c2 := abs_le.1 b2
  have small : ∀ {W k : ℝ}, 0 ≤ W → W + k * δ ≤ 5 → dblUnit * (W + k * δ) ≤ 5 * δ := by
    intro W k hW hk
    have := mul_le_mul_of_nonneg_right hδ (by norm_num : (0 : ℝ) ≤ 5)
    have := mul_le_mul_of_nonneg_left hk hu.le
    linarith
  -- differences and sums of two entries
  have two_sub : ∀ {x x' y y' z : ℝ}, |x' - x| ≤ δ → |y' - y| ≤ δ → x - y = z → |z| ≤ 2 → |D.sub x' y' - z| ≤ 5 * δ := by
    intro x x' y y' z hx hy e hz
    subst e
    have := hD.sub_sum hx hy hz
    have h1 : dblUnit * (2 + δ + δ) ≤ δ * 3 := mul_le_mul hδ (by linarith) (by linarith) (by linarith)
    linarith
  have two_add : ∀ {x x' y y' z : ℝ}, |x' - x| ≤ δ → |y' - y| ≤ δ → x + y = z → |z| ≤ 2 → |D.add x' y' - z| ≤ 5 * δ := by
    intro x x' y y' z hx hy e hz
    subst e
    have := hD.sum_step hx hy hz
    have h1 : dblUnit * (2 + δ + δ) ≤ δ * 3 := mul_le_mul hδ (by linarith) (by linarith) (by linarith)
    linarith
  have htr : |D.add (D.add A'.m00 A'.m11) A'.m22 - (A.m00 + A.m11 + A.m22)| ≤ 10 * δ := by
    have h1 := two_add h00 h11 rfl (abs_le.2 ⟨by linarith, by linarith⟩)
    have h2 := hD.sum_step (W := 3) h1 h22 (abs_le.2 ⟨by linarith, by linarith⟩)
    have h3 : dblUnit * (3 + 5 * δ + δ) ≤ δ * 4 := mul_le_mul hδ (by linarith) (by linarith) (by linarith)
    linarith
  have plus_one : ∀ {x x' z : ℝ}, |x' - x| ≤ 10 * δ → |x| ≤ 3 → x + 1 = z → |D.add x' 1 - z| ≤ 15 * δ := by
    intro x x' z hx h3 e
    subst e
    have h3' := abs_le.1 h3
    have h2 := hD.sum_step (W := 4) (b := 1) (b' := 1) (f := 0) hx (by simp) (abs_le.2 ⟨by linarith, by linarith⟩)
    have h4 : dblUnit * (4 + 10 * δ + 0) ≤ δ * 5 := mul_le_mul hδ (by linarith) (by linarith) (by linarith)
    linarith
  have diag : ∀ {x x' y y' z z' : ℝ}, |x' - x| ≤ δ → |y' - y| ≤ δ → |z' - z| ≤ δ → |x| ≤ 1 → |y| ≤ 1 → |z| ≤ 1 →
      |D.sub (D.sub x' y') z' - (x - y - z)| ≤ 10 * δ ∧ |x - y - z| ≤ 3 := by
    intro x x' y y' z z' hx hy hz kx ky kz
    have kx := abs_le.1 kx
    have ky := abs_le.1 ky
    have kz := abs_le.1 kz
    have h1 := two_sub hx hy rfl (abs_le.2 ⟨by linarith, by linarith⟩)
    have h0 : |x - y - z| ≤ 3 := abs_le.2 ⟨by linarith, by linarith⟩
    have h2 := hD.sub_sum (W := 3) h1 hz h0
    have h3 : dblUnit * (3 + 5 * δ + δ) ≤ δ * 4 := mul_le_mul hδ (by linarith) (by linarith) (by linarith)
    exact ⟨by linarith, h0⟩
  have i00 := abs_le.1 h00
  have i11 := abs_le.1 h11
  have i22 := abs_le.1 h22
  have itr := abs_le.1 htr
  unfold Double.toQuat
  simp only
  split
  · rename_i h
    obtain ⟨q, qu, qm, q0⟩ := choose_sign hA Quat.w (fun _ => rfl)
    obtain ⟨k1, k2, k3, k4⟩ := unit_bounds qu
    refine ⟨q, qu, qm, ?_⟩
    unfold Quat.IsUnit Quat.normSq at qu
    have e := plus_one htr (abs_le.2 ⟨by linarith, by linarith⟩) rfl
    subst qm
    simp only [Quat.toMat] at *
    obtain ⟨f1, f2, f3, f4⟩ := hD.pivot_near (a := q.w) (b := q.x) (c := q.y) (d := q.z) hδ hδ' (lower q0 (by linarith)) (abs_le.1 k1).2 k2 k3 k4
      (unit_products qu) (unit_products (c := q.x) (d := q.z) (by linarith)) (unit_products (c := q.x) (d := q.y) (by linarith))
      (by convert e using 3; first | ring1 | linear_combination 4 * qu)
      (two_sub h21 h12 (by ring) (unit_products qu)) (two_sub h02 h20 (by ring) (unit_products (c := q.x) (d := q.z) (by linarith)))
      (two_sub h10 h01 (by ring) (unit_products (c := q.x) (d := q.y) (by linarith)))
    exact ⟨f1, f2, f3, f4⟩
  · rename_i h
    by_cases h2 : A'.m22 > if A'.m11 > A'.m00 then A'.m11 else A'.m00
    · rw [if_pos h2]
      obtain ⟨q, qu, qm, q0⟩ := choose_sign hA Quat.z (fun _ => rfl)
      obtain ⟨k1, k2, k3, k4⟩ := unit_bounds qu
      refine ⟨q, qu, qm, ?_⟩
      unfold Quat.IsUnit Quat.normSq at qu
      obtain ⟨e1, e2⟩ := diag h22 h00 h11 b2 b0 b1
      have e := plus_one e1 e2 rfl
      obtain ⟨g1, g2⟩ : A.m00 - 4 * δ ≤ A.m22 ∧ A.m11 - 4 * δ ≤ A.m22 := by
        by_cases c : A'.m11 > A'.m00
        · rw [if_pos c] at h2; constructor <;> linarith
        · rw [if_neg c] at h2; constructor <;> linarith
      subst qm
      simp only [Quat.toMat] at *
      have p1 := unit_products (a := q.z) (b := q.w) (c := q.x) (d := q.y) (by linarith)
      have p2 := unit_products (a := q.z) (b := q.x) (c := q.w) (d := q.y) (by linarith)
      have p3 := unit_products (a := q.z) (b := q.y) (c := q.x) (d := q.w) (by linarith)
      obtain ⟨f1, f2, f3, f4⟩ := hD.pivot_near (a := q.z) (b := q.w) (c := q.x) (d := q.y) hδ hδ' (lower q0 (by linarith)) (abs_le.1 k4).2 k1 k2 k3
        p1 p2 p3 (by convert e using 3; first | ring1 | linear_combination 4 * qu)
        (two_sub h10 h01 (by ring) p1) (two_add h02 h20 (by ring) p2) (two_add h12 h21 (by ring) p3)
      exact ⟨f2, f3, f4, f1⟩
    · rw [if_neg h2]
      by_cases h3 : A'.m11 > A'.m00
      · rw [if_pos h3]
        rw [if_pos h3] at h2
        obtain ⟨q, qu, qm, q0⟩ := choose_sign hA Quat.y (fun _ => rfl)
        obtain ⟨k1, k2, k3, k4⟩ := unit_bounds qu
        refine ⟨q, qu, qm, ?_⟩
        unfold Quat.IsUnit Quat.normSq at qu
        obtain ⟨e1, e2⟩ := diag h11 h22 h00 b1 b2 b0
        have e := plus_one e1 e2 rfl
        subst qm
        simp only [Quat.toMat] at *
        have p1 := unit_products (a := q.y) (b := q.w) (c := q.x) (d := q.z) (by linarith)
        have p2 := unit_products (a := q.y) (b := q.z) (c := q.w) (d := q.x) (by linarith)
        have p3 := unit_products (a := q.y) (b := q.x) (c := q.z) (d := q.w) (by linarith)
        obtain ⟨f1, f2, f3, f4⟩ := hD.pivot_near (a := q.y) (b := q.w) (c := q.z) (d := q.x) hδ hδ' (lower q0 (by linarith)) (abs_le.1 k3).2 k1 k4 k2
          p1 p2 p3 (by convert e using 3; first | ring1 | linear_combination 4 * qu)
          (two_sub h02 h20 (by ring) p1) (two_add h21 h12 (by ring) p2) (two_add h01 h10 (by ring) p3)
        exact ⟨f2, f4, f1, f3⟩
      · rw [if_neg h3]
        rw [if_neg h3] at h2
        obtain ⟨q, qu, qm, q0⟩ := choose_sign hA Quat.x (fun _ => rfl)
        obtain ⟨k1, k2, k3, k4⟩ := unit_bounds qu
        refine ⟨q, qu, qm, ?_⟩
        unfold Quat.IsUnit Quat.normSq at qu
        obtain ⟨e1, e2⟩ := diag h00 h11 h22 b0 b1 b2
        have e := plus_one e1 e2 rfl
        subst qm
        simp only [Quat.toMat] at *
        have p1 := unit_products (a := q.x) (b := q.w) (c := q.y) (d := q.z) (by linarith)
        have p2 := unit_products (a := q.x) (b := q.y) (c := q.w) (d := q.z) (by linarith)
        have p3 := unit_products (a := q.x) (b := q.z) (c := q.y) (d := q.w) (by linarith)
        obtain ⟨f1, f2, f3, f4⟩ := hD.pivot_near (a := q.x) (b := q.w) (c := q.y) (d := q.z) hδ hδ' (lower q0 (by linarith)) (abs_le.1 k2).2 k1 k3 k4
          p1 p2 p3 (by convert e using 3; first | ring1 | linear_combination 4 * qu)
          (two_sub h21 h12 (by ring) p1) (two_add h10 h01 (by ring) p2) (two_add h20 h02 (by ring) p3)
        exact ⟨f2, f1, f3, f4⟩

theorem WF.sum4_near (hD : D.WF) {ε a b c d a' b' c' d' : ℝ} (hε : 1000 * dblUnit ≤ ε) (hε' : ε ≤ 1 / 100) (ha : |a' - a| ≤ 21 / 10 * ε) (hb : |b' - b| ≤ 21 / 10 * ε)
    (hc : |c' - c| ≤ 21 / 10 * ε) (hd : |d' - d| ≤ 21 / 10 * ε) (ka : |a| ≤ 1) (kb : |b| ≤ 1) (kc : |c| ≤ 1) (kd : |d| ≤ 1) :
    |D.sum4 a' b' c' d' - (a + b + c + d)| ≤ 9 * ε := by
  have ka := abs_le.1 ka
  have kb := abs_le.1 kb
  have kc := abs_le.1 kc
  have kd := abs_le.1 kd
  have hu := dblUnit_pos
  have ε0 : 0 ≤ ε := by linarith
  have step : ∀ {x x' y y' e W : ℝ}, |x' - x| ≤ e → |y' - y| ≤ 21 / 10 * ε → |x + y| ≤ W → W + e + 21 / 10 * ε ≤ 5 → |D.add x' y' - (x + y)| ≤ e + 21 / 10 * ε + ε / 100 := by
    intro x x' y y' e W hx hy hW h5
    have h1 := hD.sum_step hx hy hW
    have h0 : 0 ≤ e := (abs_nonneg _).trans hx
    have h2 : 0 ≤ W := (abs_nonneg _).trans hW
    have h3 : dblUnit * (W + e + 21 / 10 * ε) ≤ dblUnit * 5 := mul_le_mul_of_nonneg_left h5 hu.le
    linarith
  have s1 := step ha hb (abs_le.2 ⟨by linarith, by linarith⟩ : |a + b| ≤ 2) (by linarith)
  have s2 := step s1 hc (abs_le.2 ⟨by linarith, by linarith⟩ : |a + b + c| ≤ 3) (by linarith)
  have s3 := step s2 hd (abs_le.2 ⟨by linarith, by linarith⟩ : |a + b + c + d| ≤ 4) (by linarith)
  unfold Double.sum4
  linarith

/-- The product of two quaternions close to unit quaternions. -/
theorem WF.mulQuat_near (hD : D.WF) {ε : ℝ} {p p' q q' : Quat} (hε : 1000 * dblUnit ≤ ε) (hε' : ε ≤ 1 / 100) (hp : p.IsUnit) (hq : q.IsUnit) (np : QuatNear ε p' p)
    (nq : QuatNear ε q' q) : QuatNear (9 * ε) (D.mulQuat p' q') (p * q) := by
  obtain ⟨p1, p2, p3, p4⟩ := unit_bounds hp
  obtain ⟨q1, q2, q3, q4⟩ := unit_bounds hq
  have hu := dblUnit_pos
  have ε0 : 0 ≤ ε := by linarith
  have m : ∀ {a a' b b' : ℝ}, |a' - a| ≤ ε → |b' - b| ≤ ε → |a| ≤ 1 → |b| ≤ 1 → |D.mul a' b' - a * b| ≤ 21 / 10 * ε := by
    intro a a' b b' ha hb ka kb
    have h := hD.prod_step ha hb ka kb
    have h1 : (1 + ε) * (1 + ε) ≤ 101 / 100 * (101 / 100) := mul_le_mul (by linarith) (by linarith) (by linarith) (by norm_num)
    have h2 := mul_le_mul_of_nonneg_left h1 hu.le
    have h3 := mul_le_mul_of_nonneg_left hε' ε0
    linarith
  have n : ∀ {a a' b b' : ℝ}, |a' - a| ≤ ε → |b' - b| ≤ ε → |a| ≤ 1 → |b| ≤ 1 → |-D.mul a' b' - -(a * b)| ≤ 21 / 10 * ε := by
    intro a a' b b' ha hb ka kb
    rw [show -D.mul a' b' - -(a * b) = -(D.mul a' b' - a * b) by ring, abs_neg]
    exact m ha hb ka kb
  have k : ∀ {a b : ℝ}, |a| ≤ 1 → |b| ≤ 1 → |a * b| ≤ 1 := by
    intro a b ka kb
    rw [abs_mul]
    exact mul_le_one₀ ka (abs_nonneg _) kb
  have k' : ∀ {a b : ℝ}, |a| ≤ 1 → |b| ≤ 1 → |-(a * b)| ≤ 1 := by
    intro a b ka kb
    rw [abs_neg]; exact k ka kb
  rw [Quat.mul_def]
  unfold Double.mulQuat
  refine ⟨?_, ?_, ?_, ?_⟩
  · have := hD.sum4_near hε hε' (m np.w nq.w p1 q1) (n np.x nq.x p2 q2) (n np.y nq.y p3 q3) (n np.z nq.z p4 q4) (k p1 q1) (k' p2 q2) (k' p3 q3) (k' p4 q4)
    simpa only [← sub_eq_add_neg] using this
  · have := hD.sum4_near hε hε' (m np.w nq.x p1 q2) (m np.x nq.w p2 q1) (m np.y nq.z p3 q4) (n np.z nq.y p4 q3) (k p1 q2) (k p2 q1) (k p3 q4) (k' p4 q3)
    simpa only [← sub_eq_add_neg] using this
  · have := hD.sum4_near hε hε' (m np.w nq.y p1 q3) (m np.y nq.w p3 q1) (m np.z nq.x p4 q2) (n np.x nq.z p2 q4) (k p1 q3) (k p3 q1) (k p4 q2) (k' p2 q4)
    simpa only [← sub_eq_add_neg] using this
  · have := hD.sum4_near hε hε' (m np.w nq.z p1 q4) (m np.z nq.w p4 q1) (m np.x nq.y p2 q3) (n np.y nq.x p3 q2) (k p1 q4) (k p4 q1) (k p2 q3) (k' p3 q2)
    simpa only [← sub_eq_add_neg] using this

/-- The length of a vector. -/
theorem WF.norm_near (hD : D.WF) {v v' : V3} {ε : ℝ} (hv : (v' - v).norm ≤ ε) (h1 : v.norm ≤ 1) (hε : 1000 * dblUnit ≤ ε) (hε' : ε ≤ 1) :
    |D.sqrt (D.dot v' v') - v.norm| ≤ 11 / 10 * ε ∧ 0 ≤ D.sqrt (D.dot v' v') := by
  have hu := dblUnit_pos
  have hu' := dblUnit_le
  have hn : v'.dot v' = v'.norm * v'.norm := (V3.norm_sq v').symm
  have key : |D.sqrt (D.dot v' v') - v'.norm| ≤ 8 * (dblUnit * v'.norm) := by
    rcases eq_or_lt_of_le (V3.norm_nonneg v') with h0 | h0
    · have h := hD.dot_self v'
      rw [hn, ← h0] at h
      have h2 : D.dot v' v' = 0 := by
        have : |D.dot v' v' - 0 * 0| ≤ 0 := by linarith
        have := abs_nonpos_iff.1 this
        linarith
      have h3 := hD.sqrt_err 0 le_rfl
      rw [← h0, h2]
      simp only [Real.sqrt_zero, mul_zero] at h3 ⊢
      exact h3
    · exact hD.angle h0 (by rw [← hn]; exact hD.dot_self v')
  have d1 : v'.norm ≤ v.norm + ε := by
    have := V3.norm_add_le v (v' - v)
    have e : v + (v' - v) = v' := by ext <;> simp
    rw [e] at this
    linarith
  have d2 : v.norm ≤ v'.norm + ε := by
    have := V3.norm_add_le v' (v - v')
    have e : v' + (v - v') = v := by ext <;> simp
    have e2 : (v - v').norm = (v' - v).norm := by
      unfold V3.norm V3.normSq V3.dot
      congr 1
      simp; ring
    rw [e, e2] at this
    linarith
  have k := abs_le.1 key
  have h0 := V3.norm_nonneg v'
  have b : dblUnit * v'.norm ≤ dblUnit * 2 := mul_le_mul_of_nonneg_left (by linarith) hu.le
  constructor
  · rw [abs_le]; constructor <;> linarith
  · have : dblUnit * v'.norm ≤ 1 / 10 ^ 15 * v'.norm := mul_le_mul_of_nonneg_right hu' h0
    linarith

/-- The angle of a point near the unit circle. -/
theorem atan2_near {x y x' y' η : ℝ} (hx : 0 ≤ x) (hy : 0 ≤ y) (h1 : x * x + y * y = 1) (hx' : 0 ≤ x') (hy' : 0 ≤ y') (ex : |x' - x| ≤ η)
    (ey : |y' - y| ≤ η) (hη : η ≤ 1 / 10) : |RCT.atan2 y' x' - RCT.atan2 y x| ≤ 3 * η := by
  have ex' := abs_le.1 ex
  have ey' := abs_le.1 ey
  have η0 : 0 ≤ η := (abs_nonneg _).trans ex
  have hs : x + y ≤ 3 / 2 := by nlinarith [mul_self_nonneg (x - y)]
  have range : ∀ {a b : ℝ}, 0 ≤ a → 0 ≤ b → 0 ≤ Complex.arg ⟨a, b⟩ ∧ Complex.arg ⟨a, b⟩ ≤ Real.pi / 2 := fun ha hb =>
    ⟨Complex.arg_nonneg_iff.2 hb, Complex.arg_le_pi_div_two_iff.2 (Or.inl ha)⟩
  have c1 := Complex.norm_mul_cos_arg ⟨x, y⟩
  have s1 := Complex.norm_mul_sin_arg ⟨x, y⟩
  have c2 := Complex.norm_mul_cos_arg ⟨x', y'⟩
  have s2 := Complex.norm_mul_sin_arg ⟨x', y'⟩
  have n1 : ‖(⟨x, y⟩ : ℂ)‖ = 1 := by
    have h := Complex.sq_norm ⟨x, y⟩
    rw [Complex.normSq_mk, h1] at h
    nlinarith [norm_nonneg (⟨x, y⟩ : ℂ)]
  have n2 : x' * x' + y' * y' = ‖(⟨x', y'⟩ : ℂ)‖ ^ 2 := by
    rw [Complex.sq_norm, Complex.normSq_mk]
  have r0 := norm_nonneg (⟨x', y'⟩ : ℂ)
  unfold RCT.atan2
  obtain ⟨a1, a2⟩ := range hx hy
  obtain ⟨b1, b2⟩ := range hx' hy'
  generalize ‖(⟨x', y'⟩ : ℂ)‖ = r at *
  rw [n1, one_mul] at c1 s1
  simp only at c1 s1 c2 s2
  generalize Complex.arg ⟨x, y⟩ = φ at *
  generalize Complex.arg ⟨x', y'⟩ = ψ at *
  have hr : 85 / 100 ≤ r := by
    have d : 85 / 100 ≤ x' * x + y' * y := by nlinarith
    have e : x' * x + y' * y ≤ r := by
      have : x' * x + y' * y = r * Real.cos (ψ - φ) := by rw [Real.cos_sub, c1, s1, ← c2, ← s2]; ring
      rw [this]
      nlinarith [Real.cos_le_one (ψ - φ)]
    linarith
  have hsin : r * |Real.sin (ψ - φ)| ≤ 3 / 2 * η := by
    have e : r * Real.sin (ψ - φ) = (y' - y) * x - (x' - x) * y := by
      rw [Real.sin_sub, c1, s1]
      linear_combination x * s2 - y * c2
    rw [← abs_of_nonneg r0, ← abs_mul, e]
    have t := abs_sub ((y' - y) * x) ((x' - x) * y)
    rw [abs_mul, abs_mul, abs_of_nonneg hx, abs_of_nonneg hy] at t
    have t1 := mul_le_mul_of_nonneg_right ey hx
    have t2 := mul_le_mul_of_nonneg_right ex hy
    have t3 := mul_le_mul_of_nonneg_left hs η0
    linarith
  have hj := Real.mul_abs_le_abs_sin (x := ψ - φ) (abs_le.2 ⟨by linarith, by linarith⟩)
  have hp := Real.pi_lt_d2
  have hp0 := Real.pi_pos
  have h0 := abs_nonneg (ψ - φ)
  have hq : 63 / 100 * |ψ - φ| ≤ |Real.sin (ψ - φ)| := by
    refine le_trans (mul_le_mul_of_nonneg_right ?_ h0) hj
    rw [le_div_iff₀ hp0]; linarith
  have := mul_le_mul_of_nonneg_right hr (abs_nonneg (Real.sin (ψ - φ)))
  linarith

end Double

theorem Quat.angularDistance_unit {p q : Quat} (hp : p.IsUnit) (hq : q.IsUnit) : p.angularDistance q = rotAngle (p.toMat * q.toMat.tr) := by
  have hu : (p * q.conj).IsUnit := hp.mul hq.conj
  have hm : (p * q.conj).toMat = p.toMat * q.toMat.tr := by rw [Quat.toMat_mul hp hq.conj, Quat.toMat_conj]
  unfold Quat.angularDistance
  rw [← hm]
  generalize p * q.conj = d at *
  obtain ⟨h1, h2, h3⟩ := hu.toAngleAxis
  have e := rotAngle_angleAxis (th := d.toAngleAxis.angle) (u := d.toAngleAxis.axis) h1 h2 (Quat.toAngleAxis_le_pi d)
  have e' : AngleAxis.toMat ⟨d.toAngleAxis.angle, d.toAngleAxis.axis⟩ = d.toMat := by rw [← h3]
  rw [e'] at e
  rw [e]
  unfold Quat.toAngleAxis
  by_cases hn : d.vec.norm ≠ 0
  · simp only [if_pos hn]
  · simp only [if_neg hn]
    rw [not_not.1 hn]
    simp only [atan2]
    have : (⟨|d.w|, 0⟩ : ℂ) = ((|d.w| : ℝ) : ℂ) := by apply Complex.ext <;> simp
    rw [this, Complex.arg_ofReal_of_nonneg (abs_nonneg _)]; simp

/-- The angle between two orientations that are known up to `δ`. -/
theorem Double.WF.angle_near {D : Double} (hD : D.WF) {at2 : ℝ → ℝ → ℝ} (ha : Double.Atan2WF at2) {δ : ℝ} {A A' B B' : M3} (hA : A.IsRot) (hB : B.IsRot)
    (hδ : 1000 * dblUnit ≤ δ) (hδ' : δ ≤ 1 / 10000)
    (na : ∃ p : Quat, p.IsUnit ∧ p.toMat = A ∧ QuatNear (40 * δ) (D.toQuat A') p)
    (nb : ∃ q : Quat, q.IsUnit ∧ q.toMat = B ∧ QuatNear (40 * δ) (D.toQuat B') q) :
    |D.angularDistance at2 (D.toQuat A') (D.toQuat B') - rotAngle (A * B.tr)| ≤ 5000 * δ := by
  obtain ⟨p, pu, pm, pn⟩ := na
  obtain ⟨q, qu, qm, qn⟩ := nb
  have hu := dblUnit_pos
  have qn' : QuatNear (40 * δ) (D.toQuat B').conj q.conj := by
    have neg : ∀ {a b : ℝ}, |a - b| ≤ 40 * δ → |-a - -b| ≤ 40 * δ := by
      intro a b h
      rwa [show -a - -b = -(a - b) by ring, abs_neg]
    exact ⟨qn.w, neg qn.x, neg qn.y, neg qn.z⟩
  have dn := hD.mulQuat_near (ε := 40 * δ) (by linarith) (by linarith) pu qu.conj pn qn'
  have du : (p * q.conj).IsUnit := pu.mul qu.conj
  rw [← pm, ← qm, ← Quat.angularDistance_unit pu qu]
  unfold Double.angularDistance Quat.angularDistance
  simp only
  generalize D.mulQuat (D.toQuat A') (D.toQuat B').conj = d' at *
  generalize p * q.conj = d at *
  have hv : (d'.vec - d.vec).norm ≤ 2 * (9 * (40 * δ)) := V3.norm_le_two dn.x dn.y dn.z
  have hsq : d.vec.norm * d.vec.norm = d.x * d.x + d.y * d.y + d.z * d.z := V3.norm_sq d.vec
  unfold Quat.IsUnit Quat.normSq at du
  have hn := V3.norm_nonneg d.vec
  have h1 : d.vec.norm ≤ 1 := by nlinarith [mul_self_nonneg d.w]
  obtain ⟨v1, v2⟩ := hD.norm_near hv h1 (by linarith) (by linarith)
  have w1 : |(|d'.w| - |d.w|)| ≤ 9 * (40 * δ) := (abs_abs_sub_abs_le _ _).trans dn.w
  have near := Double.atan2_near (η := 800 * δ) (abs_nonneg d.w) hn (by rw [abs_mul_abs_self]; linarith) (abs_nonneg d'.w) v2 (by linarith) (by linarith) (by linarith)
  have hat := ha _ _ v2 (abs_nonneg d'.w)
  have tot : |at2 (D.sqrt (D.dot d'.vec d'.vec)) (|d'.w|) - RCT.atan2 d.vec.norm (|d.w|)| ≤ 2401 * δ := by
    have := abs_sub_le (at2 (D.sqrt (D.dot d'.vec d'.vec)) |d'.w|) (RCT.atan2 (D.sqrt (D.dot d'.vec d'.vec)) |d'.w|) (RCT.atan2 d.vec.norm |d.w|)
    linarith
  have rg : |RCT.atan2 d.vec.norm (|d.w|)| ≤ 4 := by
    have := Complex.abs_arg_le_pi ⟨|d.w|, d.vec.norm⟩
    have := Real.pi_lt_d2
    unfold RCT.atan2
    linarith
  have fin := hD.prod_step (a := 2) (a' := 2) (e := 0) (A := 2) (by simp) tot (by simp) rg
  have : dblUnit * ((2 + 0) * (4 + 2401 * δ)) ≤ dblUnit * 10 := mul_le_mul_of_nonneg_left (by linarith) hu.le
  linarith

end RCT
