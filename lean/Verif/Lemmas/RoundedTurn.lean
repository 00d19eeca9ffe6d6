import Mathlib.Analysis.SpecialFunctions.Trigonometric.Bounds
import Verif.Lemmas.Rounded

/-!
# Rounding errors of rotations
-/

namespace RCT

open Spec

/-- Every coordinate within `e`. -/
def V3.Within (e : ℝ) (a b : V3) : Prop := |a.x - b.x| ≤ e ∧ |a.y - b.y| ≤ e ∧ |a.z - b.z| ≤ e

theorem V3.Within.mono {e e' : ℝ} {a b : V3} (h : V3.Within e a b) (he : e ≤ e') : V3.Within e' a b :=
  ⟨h.1.trans he, h.2.1.trans he, h.2.2.trans he⟩

theorem V3.Within.trans {e e' : ℝ} {a b c : V3} (h : V3.Within e a b) (k : V3.Within e' b c) : V3.Within (e + e') a c :=
  ⟨(abs_sub_le _ _ _).trans (add_le_add h.1 k.1), (abs_sub_le _ _ _).trans (add_le_add h.2.1 k.2.1),
    (abs_sub_le _ _ _).trans (add_le_add h.2.2 k.2.2)⟩

namespace Double

variable {D : Double}

/-- The cross product with a direction known up to rounding. -/
theorem WF.cross_step (hD : D.WF) {a w p : V3} {α S : ℝ} (ha : V3.Within (α * dblUnit) a w) (hw : w.norm ≤ 1) (hp : p.norm ≤ S)
    (hα : 0 ≤ α ∧ α ≤ 100) : V3.Within ((2 * α + 4) * (dblUnit * S)) (D.cross a p) (w.cross p) := by
  have hS : 0 ≤ S := (V3.norm_nonneg p).trans hp
  have hu := dblUnit_pos
  have hc : (w.cross p).norm ≤ 1 * S := (V3.cross_le w p).trans (mul_le_mul hw hp (V3.norm_nonneg _) (by norm_num))
  have m : ∀ {a x b : ℝ}, |a - x| ≤ α * dblUnit → |x| ≤ 1 → |b| ≤ S → |D.mul a b - x * b| ≤ (α + 101 / 100) * (dblUnit * S) := by
    intro a x b h1 h2 h3
    have := hD.mul_step (X := 1) (Y := 1) (β := 0) hS h1 h2 (exact_step b S) (by simpa using h3) ⟨hα.1, by linarith [hα.2]⟩ (by norm_num) (by norm_num) (by norm_num)
    exact this.trans (le_of_eq (by ring))
  have hwx := (V3.abs_x_le w).trans hw
  have hwy := (V3.abs_y_le w).trans hw
  have hwz := (V3.abs_z_le w).trans hw
  have hpx := (V3.abs_x_le p).trans hp
  have hpy := (V3.abs_y_le p).trans hp
  have hpz := (V3.abs_z_le p).trans hp
  have fin : (α + 101 / 100 + (α + 101 / 100) + 1 + 1 / 100) * (dblUnit * S) ≤ (2 * α + 4) * (dblUnit * S) :=
    mul_le_mul_of_nonneg_right (by linarith) (by positivity)
  have hb : α + 101 / 100 ≤ 1000000 := by linarith [hα.2]
  exact ⟨(hD.sub_step hS (m ha.2.1 hwy hpz) (m ha.2.2 hwz hpy) ((V3.abs_x_le _).trans hc) hb hb).trans fin,
    (hD.sub_step hS (m ha.2.2 hwz hpx) (m ha.1 hwx hpz) ((V3.abs_y_le _).trans hc) hb hb).trans fin,
    (hD.sub_step hS (m ha.1 hwx hpy) (m ha.2.1 hwy hpx) ((V3.abs_z_le _).trans hc) hb hb).trans fin⟩

theorem WF.dot_step (hD : D.WF) {a w p : V3} {S : ℝ} (ha : V3.Within (12 * dblUnit) a w) (hw : w.norm ≤ 1) (hp : p.norm ≤ S) :
    |D.dot a p - w.dot p| ≤ 43 * (dblUnit * S) := by
  have hS : 0 ≤ S := (V3.norm_nonneg p).trans hp
  have hu := dblUnit_pos
  have m : ∀ {a x b : ℝ}, |a - x| ≤ 12 * dblUnit → |x| ≤ 1 → |b| ≤ S → |D.mul a b - x * b| ≤ (1301 / 100) * (dblUnit * S) ∧ |x * b| ≤ S := by
    intro a x b h1 h2 h3
    have := hD.mul_step (X := 1) (Y := 1) (β := 0) hS h1 h2 (exact_step b S) (by simpa using h3) (by norm_num) (by norm_num) (by norm_num) (by norm_num)
    refine ⟨this.trans (le_of_eq (by ring)), ?_⟩
    rw [abs_mul]
    have := mul_le_mul h2 h3 (abs_nonneg _) (by norm_num : (0:ℝ) ≤ 1)
    linarith
  obtain ⟨x1, x2⟩ := m ha.1 ((V3.abs_x_le w).trans hw) ((V3.abs_x_le p).trans hp)
  obtain ⟨y1, y2⟩ := m ha.2.1 ((V3.abs_y_le w).trans hw) ((V3.abs_y_le p).trans hp)
  obtain ⟨z1, z2⟩ := m ha.2.2 ((V3.abs_z_le w).trans hw) ((V3.abs_z_le p).trans hp)
  have h1 := hD.add_step (Z := 2) hS x1 y1 ((abs_add_le _ _).trans (by linarith)) (by norm_num) (by norm_num)
  have h2 := hD.add_step (Z := 1) hS h1 z1 (by
    have := (V3.abs_dot_le w p).trans (mul_le_mul hw hp (V3.norm_nonneg _) (by norm_num))
    exact this) (by norm_num) (by norm_num)
  exact h2.trans (mul_le_mul_of_nonneg_right (by norm_num) (by positivity))

/-- The last line of the rotation, for one coordinate. -/
theorem WF.last_step (hD : D.WF) {S p c c' x x' s s' w w' t t' : ℝ} (hS : 0 ≤ S) (hp : |p| ≤ S) (hc : |c' - c| ≤ 58 * dblUnit)
    (hc1 : |c| ≤ 1) (hs : |s' - s| ≤ 58 * dblUnit) (hs1 : |s| ≤ 1) (hx : |x' - x| ≤ 28 * (dblUnit * S)) (hx1 : |x| ≤ S)
    (hw : |w' - w| ≤ 12 * dblUnit) (hw1 : |w| ≤ 1) (ht : |t' - t| ≤ 150 * (dblUnit * S)) (ht1 : |t| ≤ 2 * S) :
    |D.add (D.add (D.mul p c') (D.mul x' s')) (D.mul w' t') - (c * p + s * x + t * w)| ≤ 330 * (dblUnit * S) := by
  have hu := dblUnit_pos
  have h1 : |D.mul p c' - c * p| ≤ (5901 / 100) * (dblUnit * S) := by
    have := hD.mul_step (X := 1) (Y := 1) (β := 0) hS hc hc1 (exact_step p S) (by simpa using hp) (by norm_num) (by norm_num) (by norm_num) (by norm_num)
    unfold Double.mul at this ⊢
    rw [mul_comm p c']
    exact this.trans (le_of_eq (by ring))
  have h2 : |D.mul x' s' - s * x| ≤ (8701 / 100) * (dblUnit * S) := by
    have := hD.mul_step (X := 1) (Y := 1) hS hs hs1 hx (by simpa using hx1) (by norm_num) (by norm_num) (by norm_num) (by norm_num)
    unfold Double.mul at this ⊢
    rw [mul_comm x' s']
    exact this.trans (le_of_eq (by ring))
  have h3 : |D.mul w' t' - t * w| ≤ (17601 / 100) * (dblUnit * S) := by
    have := hD.mul_step (X := 1) (Y := 2) hS hw hw1 ht ht1 (by norm_num) (by norm_num) (by norm_num) (by norm_num)
    rw [mul_comm t w]
    exact this.trans (le_of_eq (by ring))
  have b1 : |c * p| ≤ S := by
    rw [abs_mul]; have := mul_le_mul hc1 hp (abs_nonneg _) (by norm_num : (0:ℝ) ≤ 1); linarith
  have b2 : |s * x| ≤ S := by
    rw [abs_mul]; have := mul_le_mul hs1 hx1 (abs_nonneg _) (by norm_num : (0:ℝ) ≤ 1); linarith
  have b3 : |t * w| ≤ 2 * S := by
    rw [abs_mul]; have := mul_le_mul ht1 hw1 (abs_nonneg _) (by positivity); linarith
  have h4 := hD.add_step (Z := 2) hS h1 h2 ((abs_add_le _ _).trans (by linarith)) (by norm_num) (by norm_num)
  have h5 := hD.add_step (Z := 4) hS h4 h3 ((abs_add_le _ _).trans (by
    have := abs_add_le (c * p) (s * x); linarith)) (by norm_num) (by norm_num)
  exact h5.trans (mul_le_mul_of_nonneg_right (by norm_num) (by positivity))

/-- The unit vector of a rotation is not longer than one. -/
theorem unit_norm (r : V3) : (V3.smul (1 / r.norm) r).norm ≤ 1 := by
  rw [V3.norm_smul, abs_of_nonneg (by have := V3.norm_nonneg r; positivity)]
  rcases eq_or_lt_of_le (V3.norm_nonneg r) with h | h
  · rw [← h]; simp
  · rw [div_mul_eq_mul_div, one_mul, div_self h.ne']

/-- Angles that are not small. -/
theorem WF.turn_big (hD : D.WF) {r p : V3} {S : ℝ} (hr : r.norm ≤ 7) (hr0 : 0 < r.norm) (hp : p.norm ≤ S) (hb : D.dot r r > dblEps) :
    V3.Within (330 * (dblUnit * S)) (D.angleAxisRotatePoint r p) (turnedBy r p) := by
  have hS : 0 ≤ S := (V3.norm_nonneg p).trans hp
  have hu := dblUnit_pos
  have hu' := dblUnit_le
  have hn : r.dot r = r.norm * r.norm := (V3.norm_sq r).symm
  have hθ := hD.angle hr0 (t := D.dot r r) (by rw [← hn]; exact hD.dot_self r)
  have hi := hD.inverse hr0 hθ
  obtain ⟨θ', hθ'⟩ : ∃ θ', θ' = D.sqrt (D.dot r r) := ⟨_, rfl⟩
  rw [← hθ'] at hθ hi
  have hlip : |θ' - r.norm| ≤ 56 * dblUnit := hθ.trans (by nlinarith)
  have hc : |D.cos θ' - Real.cos r.norm| ≤ 58 * dblUnit := by
    have h1 := hD.cos_err θ'
    have h2 := Real.abs_cos_sub_cos_le θ' r.norm
    have := abs_sub_le (D.cos θ') (Real.cos θ') (Real.cos r.norm)
    linarith
  have hs : |D.sin θ' - Real.sin r.norm| ≤ 58 * dblUnit := by
    have h1 := hD.sin_err θ'
    have h2 := Real.abs_sin_sub_sin_le θ' r.norm
    have := abs_sub_le (D.sin θ') (Real.sin θ') (Real.sin r.norm)
    linarith
  obtain ⟨w, hw⟩ : ∃ w, w = V3.smul (1 / r.norm) r := ⟨_, rfl⟩
  obtain ⟨w', hw'⟩ : ∃ w' : V3, w' = ⟨D.mul r.x (D.div 1 θ'), D.mul r.y (D.div 1 θ'), D.mul r.z (D.div 1 θ')⟩ := ⟨_, rfl⟩
  have hww : V3.Within (12 * dblUnit) w' w := by
    rw [hw, hw']
    exact ⟨hD.axis hr0 hi (V3.abs_x_le r), hD.axis hr0 hi (V3.abs_y_le r), hD.axis hr0 hi (V3.abs_z_le r)⟩
  have hw1 : w.norm ≤ 1 := by rw [hw]; exact unit_norm r
  have hx := hD.cross_step hww hw1 hp (by norm_num)
  have hd := hD.dot_step hww hw1 hp
  have hcb := Real.abs_cos_le_one r.norm
  have hsb := Real.abs_sin_le_one r.norm
  have h1c : |D.sub 1 (D.cos θ') - (1 - Real.cos r.norm)| ≤ (61 : ℝ) * dblUnit := by
    have := hD.sub_step (S := 1) (a := 1) (x := 1) (b := D.cos θ') (y := Real.cos r.norm) (α := 0) (β := 58) (Z := 2) (by norm_num)
      (by simp) (by simpa using hc) (by have := abs_le.1 hcb; rw [abs_le]; constructor <;> linarith) (by norm_num) (by norm_num)
    refine this.trans ?_
    nlinarith
  have hdb : |w.dot p| ≤ 1 * S := (V3.abs_dot_le w p).trans (mul_le_mul hw1 hp (V3.norm_nonneg _) (by norm_num))
  have h1b : |1 - Real.cos r.norm| ≤ 2 := by have := abs_le.1 hcb; rw [abs_le]; constructor <;> linarith
  have ht : |D.mul (D.dot w' p) (D.sub 1 (D.cos θ')) - w.dot p * (1 - Real.cos r.norm)| ≤ 150 * (dblUnit * S) := by
    have := hD.mul_step (X := 2) (Y := 1) hS h1c h1b hd hdb (by norm_num) (by norm_num) (by norm_num) (by norm_num)
    unfold Double.mul at this ⊢
    rw [mul_comm (D.dot w' p), mul_comm (w.dot p)]
    exact this.trans (mul_le_mul_of_nonneg_right (by norm_num) (by positivity))
  have htb : |w.dot p * (1 - Real.cos r.norm)| ≤ 2 * S := by
    rw [abs_mul]; have := mul_le_mul hdb h1b (abs_nonneg _) (by linarith); linarith
  have hxb : (w.cross p).norm ≤ S := by
    have := (V3.cross_le w p).trans (mul_le_mul hw1 hp (V3.norm_nonneg _) (by norm_num)); linarith
  have hx' : V3.Within (28 * (dblUnit * S)) (D.cross w' p) (w.cross p) := by
    have e : (2 * 12 + 4 : ℝ) = 28 := by norm_num
    rwa [e] at hx
  have e : D.angleAxisRotatePoint r p = ⟨D.add (D.add (D.mul p.x (D.cos θ')) (D.mul (D.cross w' p).x (D.sin θ'))) (D.mul w'.x (D.mul (D.dot w' p) (D.sub 1 (D.cos θ')))),
      D.add (D.add (D.mul p.y (D.cos θ')) (D.mul (D.cross w' p).y (D.sin θ'))) (D.mul w'.y (D.mul (D.dot w' p) (D.sub 1 (D.cos θ')))),
      D.add (D.add (D.mul p.z (D.cos θ')) (D.mul (D.cross w' p).z (D.sin θ'))) (D.mul w'.z (D.mul (D.dot w' p) (D.sub 1 (D.cos θ'))))⟩ := by
    unfold Double.angleAxisRotatePoint
    simp only [if_pos hb]
    rw [← hθ', hw']
  rw [e]
  unfold turnedBy
  rw [← hw]
  exact ⟨hD.last_step hS ((V3.abs_x_le p).trans hp) hc hcb hs hsb hx'.1 ((V3.abs_x_le _).trans hxb) hww.1 ((V3.abs_x_le _).trans hw1) ht htb,
    hD.last_step hS ((V3.abs_y_le p).trans hp) hc hcb hs hsb hx'.2.1 ((V3.abs_y_le _).trans hxb) hww.2.1 ((V3.abs_y_le _).trans hw1) ht htb,
    hD.last_step hS ((V3.abs_z_le p).trans hp) hc hcb hs hsb hx'.2.2 ((V3.abs_z_le _).trans hxb) hww.2.2 ((V3.abs_z_le _).trans hw1) ht htb⟩

/-- What is left out for small angles. -/
theorem turn_first_order {r p : V3} {S : ℝ} (hp : p.norm ≤ S) (hr : r.norm * r.norm ≤ 3 * dblUnit) :
    V3.Within (4 * (dblUnit * S)) (p + r.cross p) (turnedBy r p) := by
  have hS : 0 ≤ S := (V3.norm_nonneg p).trans hp
  have hu := dblUnit_pos
  have hu' := dblUnit_le
  obtain ⟨θ, hθ⟩ : ∃ θ, θ = r.norm := ⟨_, rfl⟩
  obtain ⟨w, hw⟩ : ∃ w, w = V3.smul (1 / r.norm) r := ⟨_, rfl⟩
  have hw1 : w.norm ≤ 1 := by rw [hw]; exact unit_norm r
  have hrw : r = V3.smul θ w := by
    rw [hw, hθ]
    rcases eq_or_lt_of_le (V3.norm_nonneg r) with h | h
    · rw [V3.norm_eq_zero.1 h.symm]; ext <;> simp [V3.smul]
    · ext <;> (simp only [V3.smul]; field_simp)
  have hθ0 : 0 ≤ θ := by rw [hθ]; exact V3.norm_nonneg r
  rw [← hθ] at hr
  have hθ1 : θ ≤ 1 / 1000 := by
    by_contra h
    push Not at h
    nlinarith
  have hc0 : 0 ≤ 1 - Real.cos θ := by linarith [Real.cos_le_one θ]
  have hc : 1 - Real.cos θ ≤ 3 / 2 * dblUnit := by
    have := Real.one_sub_sq_div_two_le_cos (x := θ)
    nlinarith
  have hs : |Real.sin θ - θ| ≤ dblUnit := by
    rcases eq_or_lt_of_le hθ0 with h | h
    · rw [← h]; simp [hu.le]
    · have h1 := Real.sin_gt_sub_cube h
      have h2 := Real.sin_le hθ0
      rw [abs_le]
      constructor <;> nlinarith [mul_nonneg hθ0 (mul_nonneg hθ0 hθ0)]
  have hdb : |w.dot p| ≤ 1 * S := (V3.abs_dot_le w p).trans (mul_le_mul hw1 hp (V3.norm_nonneg _) (by norm_num))
  have hxb : (w.cross p).norm ≤ S := by
    have := (V3.cross_le w p).trans (mul_le_mul hw1 hp (V3.norm_nonneg _) (by norm_num)); linarith
  have key : ∀ {a x v : ℝ}, |a| ≤ S → |x| ≤ S → |v| ≤ 1 →
      |a + θ * x - (Real.cos θ * a + Real.sin θ * x + w.dot p * (1 - Real.cos θ) * v)| ≤ 4 * (dblUnit * S) := by
    intro a x v ha hx hv
    have e : a + θ * x - (Real.cos θ * a + Real.sin θ * x + w.dot p * (1 - Real.cos θ) * v) =
        (1 - Real.cos θ) * a + (-(Real.sin θ - θ) * x + -(w.dot p * (1 - Real.cos θ) * v)) := by ring
    rw [e]
    have t1 : |(1 - Real.cos θ) * a| ≤ 3 / 2 * dblUnit * S := by
      rw [abs_mul, abs_of_nonneg hc0]; exact mul_le_mul hc ha (abs_nonneg _) (by positivity)
    have t2 : |-(Real.sin θ - θ) * x| ≤ dblUnit * S := by
      rw [abs_mul, abs_neg]; exact mul_le_mul hs hx (abs_nonneg _) hu.le
    have t3 : |-(w.dot p * (1 - Real.cos θ) * v)| ≤ S * (3 / 2 * dblUnit) * 1 := by
      rw [abs_neg, abs_mul, abs_mul, abs_of_nonneg hc0]
      exact mul_le_mul (mul_le_mul (by linarith) hc hc0 hS) hv (abs_nonneg _) (by positivity)
    have := (abs_add_le ((1 - Real.cos θ) * a) (-(Real.sin θ - θ) * x + -(w.dot p * (1 - Real.cos θ) * v))).trans
      (add_le_add_right (abs_add_le _ _) _)
    nlinarith
  have hcr : r.cross p = V3.smul θ (w.cross p) := by
    rw [hrw]; ext <;> (simp only [V3.cross, V3.smul]; ring)
  rw [hcr]
  unfold turnedBy
  rw [← hw, ← hθ]
  exact ⟨key ((V3.abs_x_le p).trans hp) ((V3.abs_x_le _).trans hxb) ((V3.abs_x_le w).trans hw1),
    key ((V3.abs_y_le p).trans hp) ((V3.abs_y_le _).trans hxb) ((V3.abs_y_le w).trans hw1),
    key ((V3.abs_z_le p).trans hp) ((V3.abs_z_le _).trans hxb) ((V3.abs_z_le w).trans hw1)⟩

/-- Small angles. -/
theorem WF.turn_small (hD : D.WF) {r p : V3} {S : ℝ} (hp : p.norm ≤ S) (hb : ¬ D.dot r r > dblEps) :
    V3.Within (330 * (dblUnit * S)) (D.angleAxisRotatePoint r p) (turnedBy r p) := by
  have hS : 0 ≤ S := (V3.norm_nonneg p).trans hp
  have hu := dblUnit_pos
  have hu' := dblUnit_le
  have hn : r.dot r = r.norm * r.norm := (V3.norm_sq r).symm
  have hd := abs_le.1 (hD.dot_self r)
  have he : dblEps = 2 * dblUnit := by unfold dblEps dblUnit; norm_num
  rw [hn] at hd
  have h0 : 0 ≤ r.norm * r.norm := mul_self_nonneg _
  have hr : r.norm * r.norm ≤ 3 * dblUnit := by
    push Not at hb
    rw [he] at hb
    by_contra h
    push Not at h
    nlinarith
  have hr1 : r.norm ≤ 1 := by
    by_contra h
    push Not at h
    nlinarith
  have hx := hD.cross_step (a := r) (w := r) (α := 0) (by simp [V3.Within]) hr1 hp (by norm_num)
  have hxb : (r.cross p).norm ≤ S := by
    have := (V3.cross_le r p).trans (mul_le_mul hr1 hp (V3.norm_nonneg _) (by norm_num)); linarith
  have add : ∀ {a x x' : ℝ}, |a| ≤ S → |x| ≤ S → |x' - x| ≤ (2 * 0 + 4) * (dblUnit * S) → |D.add a x' - (a + x)| ≤ 7 * (dblUnit * S) := by
    intro a x x' ha hx hxx
    have := hD.add_step (Z := 2) hS (exact_step a S) hxx ((abs_add_le _ _).trans (by linarith)) (by norm_num) (by norm_num)
    exact this.trans (mul_le_mul_of_nonneg_right (by norm_num) (by positivity))
  have e : D.angleAxisRotatePoint r p = ⟨D.add p.x (D.cross r p).x, D.add p.y (D.cross r p).y, D.add p.z (D.cross r p).z⟩ := by
    unfold Double.angleAxisRotatePoint
    simp only [if_neg hb]
  have h1 : V3.Within (7 * (dblUnit * S)) (D.angleAxisRotatePoint r p) (p + r.cross p) := by
    rw [e]
    exact ⟨add ((V3.abs_x_le p).trans hp) ((V3.abs_x_le _).trans hxb) hx.1, add ((V3.abs_y_le p).trans hp) ((V3.abs_y_le _).trans hxb) hx.2.1,
      add ((V3.abs_z_le p).trans hp) ((V3.abs_z_le _).trans hxb) hx.2.2⟩
  refine (h1.trans (turn_first_order hp hr)).mono ?_
  have : 0 ≤ dblUnit * S := by positivity
  linarith

theorem WF.turn (hD : D.WF) {r p : V3} {S : ℝ} (hr : r.norm ≤ 7) (hp : p.norm ≤ S) :
    V3.Within (330 * (dblUnit * S)) (D.angleAxisRotatePoint r p) (turnedBy r p) := by
  by_cases hb : D.dot r r > dblEps
  · refine hD.turn_big hr ?_ hp hb
    rcases eq_or_lt_of_le (V3.norm_nonneg r) with h | h
    · exfalso
      have hd := abs_le.1 (hD.dot_self r)
      have hn : r.dot r = r.norm * r.norm := (V3.norm_sq r).symm
      rw [hn, ← h] at hd
      have : (0:ℝ) < dblEps := by unfold dblEps; positivity
      linarith [hd.2]
    · exact h
  · exact hD.turn_small hp hb

end Double

end RCT
