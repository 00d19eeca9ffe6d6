import Verif.Model.Rounded
import Verif.Spec.Rounded
import Verif.Lemmas.Near
import Verif.Lemmas.Noise
import Verif.Lemmas.Stable

/-!
# Rounding errors
-/

namespace RCT

open Spec

/-- The point `p` turned about the direction of `r` by the length of `r`. -/
noncomputable def turnedBy (r p : V3) : V3 :=
  let w := V3.smul (1 / r.norm) r
  V3.smul (Real.cos r.norm) p + V3.smul (Real.sin r.norm) (w.cross p) + V3.smul (w.dot p * (1 - Real.cos r.norm)) w

theorem dblUnit_pos : 0 < dblUnit := by unfold dblUnit; positivity

theorem dblUnit_le : dblUnit ≤ 1 / 10 ^ 15 := by unfold dblUnit; norm_num

namespace Double

variable {D : Double}

theorem WF.mul_step (hD : D.WF) {a x b y α β X Y S : ℝ} (hS : 0 ≤ S) (ha : |a - x| ≤ α * dblUnit) (hx : |x| ≤ X)
    (hb : |b - y| ≤ β * (dblUnit * S)) (hy : |y| ≤ Y * S) (hα : 0 ≤ α ∧ α ≤ 1000000) (hβ : 0 ≤ β ∧ β ≤ 1000000) (hX : X ≤ 10)
    (hY : 0 ≤ Y ∧ Y ≤ 10) : |D.mul a b - x * y| ≤ (X * β + Y * α + X * Y + 1 / 100) * (dblUnit * S) := by
  have hu := dblUnit_pos
  have hu' := dblUnit_le
  have hX0 : 0 ≤ X := (abs_nonneg x).trans hx
  have h1 : |a * b - x * y| ≤ (X * β + Y * α + 1 / 1000) * (dblUnit * S) := by
    have e : a * b - x * y = x * (b - y) + (a - x) * y + (a - x) * (b - y) := by ring
    have t1 : |x * (b - y)| ≤ X * (β * (dblUnit * S)) := by
      rw [abs_mul]; exact mul_le_mul hx hb (abs_nonneg _) hX0
    have t2 : |(a - x) * y| ≤ (α * dblUnit) * (Y * S) := by
      rw [abs_mul]; exact mul_le_mul ha hy (abs_nonneg _) (by have := hα.1; positivity)
    have t3 : |(a - x) * (b - y)| ≤ (α * dblUnit) * (β * (dblUnit * S)) := by
      rw [abs_mul]; exact mul_le_mul ha hb (abs_nonneg _) (by have := hα.1; positivity)
    have t4 : (α * dblUnit) * (β * (dblUnit * S)) ≤ 1 / 1000 * (dblUnit * S) := by
      have : α * dblUnit * β ≤ 1 / 1000 := by
        have : α * β ≤ 1000000 * 1000000 := mul_le_mul hα.2 hβ.2 hβ.1 (by norm_num)
        nlinarith [mul_nonneg hα.1 hβ.1]
      calc (α * dblUnit) * (β * (dblUnit * S)) = (α * dblUnit * β) * (dblUnit * S) := by ring
        _ ≤ _ := mul_le_mul_of_nonneg_right this (by positivity)
    rw [e]
    have := (abs_add_le (x * (b - y) + (a - x) * y) ((a - x) * (b - y))).trans (add_le_add_left (abs_add_le _ _) _)
    nlinarith
  have h2 : |a * b| ≤ (X * Y + 1 / 200) * S := by
    have h3 : |x * y| ≤ X * (Y * S) := by rw [abs_mul]; exact mul_le_mul hx hy (abs_nonneg _) hX0
    have h4 : |a * b| ≤ |x * y| + |a * b - x * y| := by
      have := abs_add_le (x * y) (a * b - x * y); simpa using this
    have h5 : (X * β + Y * α + 1 / 1000) * dblUnit ≤ 1 / 200 := by
      have : X * β + Y * α + 1 / 1000 ≤ 10 * 1000000 + 10 * 1000000 + 1 := by
        have q1 : X * β ≤ 10 * 1000000 := mul_le_mul hX hβ.2 hβ.1 (by norm_num)
        have q2 : Y * α ≤ 10 * 1000000 := mul_le_mul hY.2 hα.2 hα.1 (by norm_num)
        linarith
      nlinarith
    have h6 : (X * β + Y * α + 1 / 1000) * (dblUnit * S) ≤ 1 / 200 * S := by
      calc (X * β + Y * α + 1 / 1000) * (dblUnit * S) = ((X * β + Y * α + 1 / 1000) * dblUnit) * S := by ring
        _ ≤ _ := mul_le_mul_of_nonneg_right h5 hS
    nlinarith
  have h3 := hD.rnd_err (a * b)
  have h4 : |D.mul a b - x * y| ≤ |D.rnd (a * b) - a * b| + |a * b - x * y| := abs_sub_le _ _ _
  have h5 : dblUnit * |a * b| ≤ dblUnit * ((X * Y + 1 / 200) * S) := mul_le_mul_of_nonneg_left h2 hu.le
  nlinarith [mul_nonneg hu.le hS]

theorem WF.add_step (hD : D.WF) {a x b y α β Z S : ℝ} (hS : 0 ≤ S) (ha : |a - x| ≤ α * (dblUnit * S)) (hb : |b - y| ≤ β * (dblUnit * S))
    (hz : |x + y| ≤ Z * S) (hα : α ≤ 1000000) (hβ : β ≤ 1000000) :
    |D.add a b - (x + y)| ≤ (α + β + Z + 1 / 100) * (dblUnit * S) := by
  have hu := dblUnit_pos
  have hu' := dblUnit_le
  have h1 : |a + b - (x + y)| ≤ (α + β) * (dblUnit * S) := by
    have e : a + b - (x + y) = (a - x) + (b - y) := by ring
    rw [e]
    exact (abs_add_le _ _).trans (by linarith)
  have h2 : |a + b| ≤ (Z + 1 / 100) * S := by
    have h4 : |a + b| ≤ |x + y| + |a + b - (x + y)| := by
      have := abs_add_le (x + y) (a + b - (x + y)); simpa using this
    have h5 : (α + β) * (dblUnit * S) ≤ 1 / 100 * S := by
      calc (α + β) * (dblUnit * S) = ((α + β) * dblUnit) * S := by ring
        _ ≤ _ := mul_le_mul_of_nonneg_right (by nlinarith) hS
    linarith
  have h3 := hD.rnd_err (a + b)
  have h4 : |D.add a b - (x + y)| ≤ |D.rnd (a + b) - (a + b)| + |a + b - (x + y)| := abs_sub_le _ _ _
  have h5 : dblUnit * |a + b| ≤ dblUnit * ((Z + 1 / 100) * S) := mul_le_mul_of_nonneg_left h2 hu.le
  nlinarith [mul_nonneg hu.le hS]

theorem WF.sub_step (hD : D.WF) {a x b y α β Z S : ℝ} (hS : 0 ≤ S) (ha : |a - x| ≤ α * (dblUnit * S)) (hb : |b - y| ≤ β * (dblUnit * S))
    (hz : |x - y| ≤ Z * S) (hα : α ≤ 1000000) (hβ : β ≤ 1000000) :
    |D.sub a b - (x - y)| ≤ (α + β + Z + 1 / 100) * (dblUnit * S) := by
  have := hD.add_step (a := a) (x := x) (b := -b) (y := -y) hS ha (by rw [← abs_neg]; simpa [neg_sub, add_comm, sub_eq_add_neg] using hb)
    (by simpa [sub_eq_add_neg] using hz) hα hβ
  simpa only [Double.add, Double.sub, ← sub_eq_add_neg] using this

/-- A value that is given exactly. -/
theorem exact_step (x S : ℝ) : |x - x| ≤ 0 * (dblUnit * S) := by simp

/-! ## The angle and the axis -/

theorem WF.dot_self (hD : D.WF) (r : V3) : |D.dot r r - r.dot r| ≤ 6 * (dblUnit * r.dot r) := by
  have hS : 0 ≤ r.dot r := by unfold V3.dot; nlinarith [mul_self_nonneg r.x, mul_self_nonneg r.y, mul_self_nonneg r.z]
  have hu := dblUnit_pos
  have key : ∀ a : ℝ, a * a ≤ r.dot r → |D.mul a a - a * a| ≤ 1 * (dblUnit * r.dot r) := by
    intro a ha
    refine (hD.rnd_err (a * a)).trans ?_
    rw [abs_of_nonneg (mul_self_nonneg a)]
    nlinarith
  have hx : r.x * r.x ≤ r.dot r := by unfold V3.dot; nlinarith [mul_self_nonneg r.y, mul_self_nonneg r.z]
  have hy : r.y * r.y ≤ r.dot r := by unfold V3.dot; nlinarith [mul_self_nonneg r.x, mul_self_nonneg r.z]
  have hz : r.z * r.z ≤ r.dot r := by unfold V3.dot; nlinarith [mul_self_nonneg r.x, mul_self_nonneg r.y]
  have h1 := hD.add_step (Z := 1) hS (key _ hx) (key _ hy)
    (by rw [abs_of_nonneg (by nlinarith [mul_self_nonneg r.x, mul_self_nonneg r.y])]; unfold V3.dot; nlinarith [mul_self_nonneg r.z]) (by norm_num) (by norm_num)
  have h2 := hD.add_step (Z := 1) hS h1 (key _ hz) (by
    rw [one_mul]; exact (abs_of_nonneg hS).le) (by norm_num) (by norm_num)
  refine le_trans h2 (mul_le_mul_of_nonneg_right (by norm_num) (by positivity))

theorem WF.angle (hD : D.WF) {t θ : ℝ} (hθ : 0 < θ) (ht : |t - θ * θ| ≤ 6 * (dblUnit * (θ * θ))) : |D.sqrt t - θ| ≤ 8 * (dblUnit * θ) := by
  have hu := dblUnit_pos
  have hu' := dblUnit_le
  have hθ2 : 0 < θ * θ := by positivity
  have ht' := abs_le.1 ht
  have ht0 : 0 ≤ t := by nlinarith
  have h1 : |Real.sqrt t - θ| ≤ 6 * (dblUnit * θ) := by
    have e : (Real.sqrt t - θ) * (Real.sqrt t + θ) = t - θ * θ := by
      have := Real.mul_self_sqrt ht0; linear_combination this
    have hs : θ ≤ Real.sqrt t + θ := by have := Real.sqrt_nonneg t; linarith
    have h2 : |Real.sqrt t - θ| * (Real.sqrt t + θ) ≤ 6 * (dblUnit * (θ * θ)) := by
      rw [← abs_of_nonneg (hθ.le.trans hs), ← abs_mul, e]; exact ht
    have h3 : |Real.sqrt t - θ| * θ ≤ (6 * (dblUnit * θ)) * θ := by
      have := mul_le_mul_of_nonneg_left hs (abs_nonneg (Real.sqrt t - θ))
      nlinarith
    exact le_of_mul_le_mul_right h3 hθ
  have h2 := hD.sqrt_err t ht0
  have h3 : Real.sqrt t ≤ 2 * θ := by have := (abs_le.1 h1).2; nlinarith
  have h4 : |D.sqrt t - θ| ≤ |D.sqrt t - Real.sqrt t| + |Real.sqrt t - θ| := abs_sub_le _ _ _
  nlinarith

theorem WF.inverse (hD : D.WF) {t θ : ℝ} (hθ : 0 < θ) (ht : |t - θ| ≤ 8 * (dblUnit * θ)) : |D.div 1 t - 1 / θ| ≤ 10 * (dblUnit * (1 / θ)) := by
  have hu := dblUnit_pos
  have hu' := dblUnit_le
  have ht' := abs_le.1 ht
  have h1 : 99 / 100 * θ ≤ t := by nlinarith
  have ht0 : 0 < t := by linarith
  have hi : 0 < 1 / θ := by positivity
  have hit : 1 / t ≤ 101 / 99 * (1 / θ) := by
    rw [div_le_iff₀ ht0]
    have : 1 = (1 / θ) * θ := by field_simp
    nlinarith
  have h2 : |1 / t - 1 / θ| ≤ 8 * (dblUnit * (1 / t)) := by
    have e : 1 / t - 1 / θ = (θ - t) * ((1 / t) * (1 / θ)) := by field_simp
    rw [e, abs_mul, abs_sub_comm, abs_of_nonneg (by positivity : (0:ℝ) ≤ 1 / t * (1 / θ))]
    have := mul_le_mul_of_nonneg_right ht (by positivity : (0:ℝ) ≤ 1 / t * (1 / θ))
    refine this.trans (le_of_eq ?_)
    field_simp
  have h3 := hD.rnd_err (1 / t)
  rw [abs_of_nonneg (by positivity : (0:ℝ) ≤ 1 / t)] at h3
  have h4 : |D.div 1 t - 1 / θ| ≤ |D.rnd (1 / t) - 1 / t| + |1 / t - 1 / θ| := abs_sub_le _ _ _
  have h5 : dblUnit * (1 / t) ≤ dblUnit * (101 / 99 * (1 / θ)) := mul_le_mul_of_nonneg_left hit hu.le
  have : 0 ≤ dblUnit * (1 / θ) := by positivity
  nlinarith

theorem WF.axis (hD : D.WF) {i θ a : ℝ} (hθ : 0 < θ) (hi : |i - 1 / θ| ≤ 10 * (dblUnit * (1 / θ))) (ha : |a| ≤ θ) :
    |D.mul a i - 1 / θ * a| ≤ 12 * dblUnit := by
  have hu := dblUnit_pos
  have hu' := dblUnit_le
  have h1 : |a * i - 1 / θ * a| ≤ 10 * dblUnit := by
    have e : a * i - 1 / θ * a = a * (i - 1 / θ) := by ring
    rw [e, abs_mul]
    have := mul_le_mul ha hi (abs_nonneg _) hθ.le
    refine this.trans (le_of_eq ?_)
    field_simp
  have h2 : |1 / θ * a| ≤ 1 := by
    rw [abs_mul, abs_of_pos (by positivity : (0:ℝ) < 1 / θ), div_mul_eq_mul_div, one_mul, div_le_one hθ]; exact ha
  have h3 : |a * i| ≤ 1 + 10 * dblUnit := by
    have := abs_add_le (1 / θ * a) (a * i - 1 / θ * a)
    rw [add_sub_cancel] at this
    linarith
  have h4 := hD.rnd_err (a * i)
  have h5 : |D.mul a i - 1 / θ * a| ≤ |D.rnd (a * i) - a * i| + |a * i - 1 / θ * a| := abs_sub_le _ _ _
  nlinarith

end Double

end RCT
