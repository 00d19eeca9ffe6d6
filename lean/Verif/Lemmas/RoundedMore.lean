import Verif.Model.RoundedMore
import Verif.Spec.Distortion
import Verif.Props.Rounded

/-!
# Rounding errors of PnP and of intrinsic calibration
-/

namespace RCT

open Spec

/-- `a` is `x` up to `α` units of rounding of size `S`, and `x` is at most `X` times `S`. -/
structure Near (S α X a x : ℝ) : Prop where
  err : |a - x| ≤ α * (dblUnit * S)
  size : |x| ≤ X * S

namespace Near

variable {D : Double} {S α β X Y a b x y : ℝ}

theorem of (hS : 0 ≤ S) (h : Near S α X a x) (hα : α ≤ β) (hX : X ≤ Y) : Near S β Y a x :=
  ⟨h.err.trans (mul_le_mul_of_nonneg_right hα (mul_nonneg dblUnit_pos.le hS)), h.size.trans (mul_le_mul_of_nonneg_right hX hS)⟩

theorem exact (h : |x| ≤ X * S) : Near S 0 X x x := ⟨by simp, h⟩

theorem mul (hD : D.WF) (hS : 0 ≤ S) (h : Near 1 α X a x) (k : Near S β Y b y) (hα : 0 ≤ α ∧ α ≤ 10 ^ 8) (hβ : 0 ≤ β ∧ β ≤ 10 ^ 8)
    (hαβ : α * β ≤ 10 ^ 15) (hX : 0 ≤ X ∧ X ≤ 100) (hY : 0 ≤ Y ∧ Y ≤ 100) :
    Near S (X * β + Y * α + X * Y + 1) (X * Y) (D.mul a b) (x * y) := by
  have hu := dblUnit_pos
  have hu' := dblUnit_le
  have ha : |a - x| ≤ α * dblUnit := by simpa using h.err
  have hx : |x| ≤ X := by simpa using h.size
  have hxy : |x * y| ≤ X * Y * S := by
    rw [abs_mul, mul_assoc]; exact mul_le_mul hx k.size (abs_nonneg _) hX.1
  refine ⟨?_, hxy⟩
  have h1 : |a * b - x * y| ≤ (X * β + Y * α + 1 / 2) * (dblUnit * S) := by
    have e : a * b - x * y = x * (b - y) + (a - x) * y + (a - x) * (b - y) := by ring
    have t1 : |x * (b - y)| ≤ X * (β * (dblUnit * S)) := by
      rw [abs_mul]; exact mul_le_mul hx k.err (abs_nonneg _) hX.1
    have t2 : |(a - x) * y| ≤ (α * dblUnit) * (Y * S) := by
      rw [abs_mul]; exact mul_le_mul ha k.size (abs_nonneg _) (by have := hα.1; positivity)
    have t3 : |(a - x) * (b - y)| ≤ (α * dblUnit) * (β * (dblUnit * S)) := by
      rw [abs_mul]; exact mul_le_mul ha k.err (abs_nonneg _) (by have := hα.1; positivity)
    have t4 : (α * dblUnit) * (β * (dblUnit * S)) ≤ 1 / 2 * (dblUnit * S) := by
      have : α * dblUnit * β ≤ 1 / 2 := by
        have hu2 : dblUnit ≤ 1 / (2 * 10 ^ 15) := by unfold dblUnit; norm_num
        have : α * β * dblUnit ≤ 10 ^ 15 * (1 / (2 * 10 ^ 15)) := mul_le_mul hαβ hu2 hu.le (by norm_num)
        calc α * dblUnit * β = α * β * dblUnit := by ring
          _ ≤ _ := this
          _ = _ := by norm_num
      calc (α * dblUnit) * (β * (dblUnit * S)) = (α * dblUnit * β) * (dblUnit * S) := by ring
        _ ≤ _ := mul_le_mul_of_nonneg_right this (by positivity)
    rw [e]
    have := (abs_add_le (x * (b - y) + (a - x) * y) ((a - x) * (b - y))).trans (add_le_add_left (abs_add_le _ _) _)
    nlinarith
  have h2 : |a * b| ≤ (X * Y + 1 / 2) * S := by
    have h4 : |a * b| ≤ |x * y| + |a * b - x * y| := by
      have := abs_add_le (x * y) (a * b - x * y); simpa using this
    have h5 : (X * β + Y * α + 1 / 2) * dblUnit ≤ 1 / 2 := by
      have q1 : X * β ≤ 100 * 10 ^ 8 := mul_le_mul hX.2 hβ.2 hβ.1 (by norm_num)
      have q2 : Y * α ≤ 100 * 10 ^ 8 := mul_le_mul hY.2 hα.2 hα.1 (by norm_num)
      nlinarith
    have h6 : (X * β + Y * α + 1 / 2) * (dblUnit * S) ≤ 1 / 2 * S := by
      calc (X * β + Y * α + 1 / 2) * (dblUnit * S) = ((X * β + Y * α + 1 / 2) * dblUnit) * S := by ring
        _ ≤ _ := mul_le_mul_of_nonneg_right h5 hS
    linarith
  have h3 := hD.rnd_err (a * b)
  have h4 : |D.mul a b - x * y| ≤ |D.rnd (a * b) - a * b| + |a * b - x * y| := abs_sub_le _ _ _
  have h5 : dblUnit * |a * b| ≤ dblUnit * ((X * Y + 1 / 2) * S) := mul_le_mul_of_nonneg_left h2 hu.le
  have e : (X * β + Y * α + X * Y + 1) * (dblUnit * S) = dblUnit * ((X * Y + 1 / 2) * S) + (X * β + Y * α + 1 / 2) * (dblUnit * S) := by ring
  rw [e]
  linarith

theorem add (hD : D.WF) (hS : 0 ≤ S) (h : Near S α X a x) (k : Near S β Y b y) (hα : α ≤ 10 ^ 8) (hβ : β ≤ 10 ^ 8) :
    Near S (α + β + X + Y + 1) (X + Y) (D.add a b) (x + y) := by
  have hu := dblUnit_pos
  have hu' := dblUnit_le
  have hz : |x + y| ≤ (X + Y) * S := by have := abs_add_le x y; have := h.size; have := k.size; linarith
  refine ⟨?_, hz⟩
  have h1 : |a + b - (x + y)| ≤ (α + β) * (dblUnit * S) := by
    have e : a + b - (x + y) = (a - x) + (b - y) := by ring
    rw [e]
    have := h.err; have := k.err
    exact (abs_add_le _ _).trans (by linarith)
  have h2 : |a + b| ≤ (X + Y + 1) * S := by
    have h4 : |a + b| ≤ |x + y| + |a + b - (x + y)| := by
      have := abs_add_le (x + y) (a + b - (x + y)); simpa using this
    have h5 : (α + β) * (dblUnit * S) ≤ 1 * S := by
      calc (α + β) * (dblUnit * S) = ((α + β) * dblUnit) * S := by ring
        _ ≤ _ := mul_le_mul_of_nonneg_right (by nlinarith) hS
    linarith
  have h3 := hD.rnd_err (a + b)
  have h4 : |D.add a b - (x + y)| ≤ |D.rnd (a + b) - (a + b)| + |a + b - (x + y)| := abs_sub_le _ _ _
  have h5 : dblUnit * |a + b| ≤ dblUnit * ((X + Y + 1) * S) := mul_le_mul_of_nonneg_left h2 hu.le
  have e : (α + β + X + Y + 1) * (dblUnit * S) = dblUnit * ((X + Y + 1) * S) + (α + β) * (dblUnit * S) := by ring
  rw [e]
  linarith

theorem neg (h : Near S α X a x) : Near S α X (-a) (-x) :=
  ⟨by have := h.err; rwa [← abs_neg, show -(-a - -x) = a - x by ring], by rw [abs_neg]; exact h.size⟩

theorem sub (hD : D.WF) (hS : 0 ≤ S) (h : Near S α X a x) (k : Near S β Y b y) (hα : α ≤ 10 ^ 8) (hβ : β ≤ 10 ^ 8) :
    Near S (α + β + X + Y + 1) (X + Y) (D.sub a b) (x - y) := by
  have := add hD hS h k.neg hα hβ
  simpa only [Double.add, Double.sub, ← sub_eq_add_neg] using this

end Near

theorem Double.mul_comm (D : Double) (a b : ℝ) : D.mul a b = D.mul b a := by unfold Double.mul; rw [_root_.mul_comm]

namespace Double

variable {D : Double}

/-- A quotient of coordinates. -/
theorem WF.quotient (hD : D.WF) {x x' z z' S : ℝ} (hz : z ≠ 0) (hxz : |x| ≤ |z|) (hS : S ≤ 100 * |z|) (hS0 : 0 ≤ S)
    (hx : |x' - x| ≤ 4000 * (dblUnit * S)) (hz' : |z' - z| ≤ 4000 * (dblUnit * S)) :
    99 / 100 * |z| ≤ |z'| ∧ Near 1 810000 1 (D.div x' z') (x / z) := by
  have hu := dblUnit_pos
  have hu' := dblUnit_le
  have hz0 : 0 < |z| := abs_pos.2 hz
  have hE : 4000 * (dblUnit * S) ≤ 400000 * (dblUnit * |z|) := by nlinarith
  have hzz : 99 / 100 * |z| ≤ |z'| := by
    have : |z| ≤ |z'| + |z' - z| := by
      have := abs_sub_abs_le_abs_sub z z'; rw [abs_sub_comm] at this; linarith
    nlinarith
  have hz'0 : 0 < |z'| := by linarith
  have hne : z' ≠ 0 := abs_pos.1 hz'0
  have hq1 : |x / z| ≤ 1 := by rw [abs_div, div_le_one hz0]; exact hxz
  refine ⟨hzz, ?_, by simpa using hq1⟩
  have hq : |x' / z' - x / z| ≤ 809000 * dblUnit := by
    have e : x' / z' - x / z = ((x' - x) - x / z * (z' - z)) / z' := by field_simp; ring
    rw [e, abs_div, div_le_iff₀ hz'0]
    have t1 : |x / z * (z' - z)| ≤ 1 * (4000 * (dblUnit * S)) := by
      rw [abs_mul]; exact mul_le_mul hq1 hz' (abs_nonneg _) (by norm_num)
    have t2 : |(x' - x) - x / z * (z' - z)| ≤ |x' - x| + |x / z * (z' - z)| := abs_sub _ _
    have : 0 < dblUnit * |z| := by positivity
    have t3 : dblUnit * (99 / 100 * |z|) ≤ dblUnit * |z'| := mul_le_mul_of_nonneg_left hzz hu.le
    nlinarith
  have h1 := hD.rnd_err (x' / z')
  have h2 : |x' / z'| ≤ 2 := by
    have := abs_add_le (x / z) (x' / z' - x / z)
    rw [add_sub_cancel] at this
    nlinarith
  have h3 : |D.div x' z' - x / z| ≤ |D.rnd (x' / z') - x' / z'| + |x' / z' - x / z| := abs_sub_le _ _ _
  nlinarith

/-! ## Lens distortion -/

/-- One distorted coordinate: `v` is the coordinate, `o` and `l` are both, `q` and `p` the coefficients of the tangential terms. -/
theorem WF.distort (hD : D.WF) {v v' o o' l l' r2 r2' k1 k2 k3 q p : ℝ} (hv : Near 1 810000 1 v' v) (ho : Near 1 810000 1 o' o)
    (hl : Near 1 810000 1 l' l)
    (hr : Near 1 3240007 2 r2' r2) (h1 : |k1| ≤ 1) (h2 : |k2| ≤ 1) (h3 : |k3| ≤ 1) (hq : |q| ≤ 1) (hp : |p| ≤ 1) :
    Near 1 78000000 21
      (D.add (D.add (D.add (D.add (D.add v' (D.mul (D.mul k1 r2') v')) (D.mul (D.mul k2 (D.mul r2' r2')) v'))
        (D.mul (D.mul k3 (D.mul r2' (D.mul r2' r2'))) v')) (D.mul q (D.add r2' (D.mul 2 (D.mul v' v'))))) (D.mul (D.mul (D.mul p o') l') 2))
      (v + k1 * r2 * v + k2 * (r2 * r2) * v + k3 * (r2 * (r2 * r2)) * v + q * (r2 + 2 * (v * v)) + p * o * l * 2) := by
  have z : (0 : ℝ) ≤ 1 := zero_le_one
  have c : ∀ {k : ℝ}, |k| ≤ 1 → Near 1 0 1 k k := fun h => .exact (by simpa using h)
  have two : Near 1 0 2 2 2 := .exact (by norm_num)
  have r4 : Near 1 12960040 4 (D.mul r2' r2') (r2 * r2) := (Near.mul hD z hr hr (by norm_num) (by norm_num) (by norm_num) (by norm_num) (by norm_num)).of z (by norm_num) (by norm_num)
  have r6 : Near 1 38880200 8 (D.mul r2' (D.mul r2' r2')) (r2 * (r2 * r2)) :=
    (Near.mul hD z hr r4 (by norm_num) (by norm_num) (by norm_num) (by norm_num) (by norm_num)).of z (by norm_num) (by norm_num)
  have vv : Near 1 1620002 1 (D.mul v' v') (v * v) := (Near.mul hD z hv hv (by norm_num) (by norm_num) (by norm_num) (by norm_num) (by norm_num)).of z (by norm_num) (by norm_num)
  have a1 : Near 1 3240010 2 (D.mul k1 r2') (k1 * r2) := (Near.mul hD z (c h1) hr (by norm_num) (by norm_num) (by norm_num) (by norm_num) (by norm_num)).of z (by norm_num) (by norm_num)
  have a2 : Near 1 12960045 4 (D.mul k2 (D.mul r2' r2')) (k2 * (r2 * r2)) :=
    (Near.mul hD z (c h2) r4 (by norm_num) (by norm_num) (by norm_num) (by norm_num) (by norm_num)).of z (by norm_num) (by norm_num)
  have a3 : Near 1 38880209 8 (D.mul k3 (D.mul r2' (D.mul r2' r2'))) (k3 * (r2 * (r2 * r2))) :=
    (Near.mul hD z (c h3) r6 (by norm_num) (by norm_num) (by norm_num) (by norm_num) (by norm_num)).of z (by norm_num) (by norm_num)
  have b1 : Near 1 4860013 2 (D.mul (D.mul k1 r2') v') (k1 * r2 * v) := (Near.mul hD z a1 hv (by norm_num) (by norm_num) (by norm_num) (by norm_num) (by norm_num)).of z (by norm_num) (by norm_num)
  have b2 : Near 1 16200050 4 (D.mul (D.mul k2 (D.mul r2' r2')) v') (k2 * (r2 * r2) * v) :=
    (Near.mul hD z a2 hv (by norm_num) (by norm_num) (by norm_num) (by norm_num) (by norm_num)).of z (by norm_num) (by norm_num)
  have b3 : Near 1 45360218 8 (D.mul (D.mul k3 (D.mul r2' (D.mul r2' r2'))) v') (k3 * (r2 * (r2 * r2)) * v) :=
    (Near.mul hD z a3 hv (by norm_num) (by norm_num) (by norm_num) (by norm_num) (by norm_num)).of z (by norm_num) (by norm_num)
  have d1 : Near 1 3240007 2 (D.mul 2 (D.mul v' v')) (2 * (v * v)) := (Near.mul hD z two vv (by norm_num) (by norm_num) (by norm_num) (by norm_num) (by norm_num)).of z (by norm_num) (by norm_num)
  have d2 : Near 1 6480019 4 (D.add r2' (D.mul 2 (D.mul v' v'))) (r2 + 2 * (v * v)) := (Near.add hD z hr d1 (by norm_num) (by norm_num)).of z (by norm_num) (by norm_num)
  have d3 : Near 1 6480024 4 (D.mul q (D.add r2' (D.mul 2 (D.mul v' v')))) (q * (r2 + 2 * (v * v))) :=
    (Near.mul hD z (c hq) d2 (by norm_num) (by norm_num) (by norm_num) (by norm_num) (by norm_num)).of z (by norm_num) (by norm_num)
  have e1 : Near 1 810002 1 (D.mul p o') (p * o) := (Near.mul hD z (c hp) ho (by norm_num) (by norm_num) (by norm_num) (by norm_num) (by norm_num)).of z (by norm_num) (by norm_num)
  have e2 : Near 1 1620004 1 (D.mul (D.mul p o') l') (p * o * l) := (Near.mul hD z e1 hl (by norm_num) (by norm_num) (by norm_num) (by norm_num) (by norm_num)).of z (by norm_num) (by norm_num)
  have e3 : Near 1 3240011 2 (D.mul (D.mul (D.mul p o') l') 2) (p * o * l * 2) :=
    (Near.mul hD z e2 two (by norm_num) (by norm_num) (by norm_num) (by norm_num) (by norm_num)).of z (by norm_num) (by norm_num)
  have f1 := Near.add hD z hv b1 (by norm_num) (by norm_num)
  have f2 := Near.add hD z f1 b2 (by norm_num) (by norm_num)
  have f3 := Near.add hD z f2 b3 (by norm_num) (by norm_num)
  have f4 := Near.add hD z f3 d3 (by norm_num) (by norm_num)
  have f5 := Near.add hD z f4 e3 (by norm_num) (by norm_num)
  exact f5.of z (by norm_num) (by norm_num)

/-! ## The rotation matrix -/

theorem WF.unit_axis (hD : D.WF) {t θ a : ℝ} (hθ : 0 < θ) (ht : |t - θ| ≤ 8 * (dblUnit * θ)) (ha : |a| ≤ θ) : Near 1 12 1 (D.div a t) (1 / θ * a) := by
  have hu := dblUnit_pos
  have hu' := dblUnit_le
  have ht' := abs_le.1 ht
  have h1 : 99 / 100 * θ ≤ t := by nlinarith
  have ht0 : 0 < t := by linarith
  have hq1 : |1 / θ * a| ≤ 1 := by
    rw [abs_mul, abs_of_pos (by positivity : (0:ℝ) < 1 / θ), div_mul_eq_mul_div, one_mul, div_le_one hθ]; exact ha
  refine ⟨?_, by simpa using hq1⟩
  have h2 : |a / t - 1 / θ * a| ≤ 9 * dblUnit := by
    have e : a / t - 1 / θ * a = (1 / θ * a) * (θ - t) / t := by field_simp
    rw [e, abs_div, abs_of_pos ht0, div_le_iff₀ ht0, abs_mul, abs_sub_comm]
    have := mul_le_mul hq1 ht (abs_nonneg _) (by norm_num)
    nlinarith
  have h3 := hD.rnd_err (a / t)
  have h4 : |a / t| ≤ 2 := by
    have := abs_add_le (1 / θ * a) (a / t - 1 / θ * a)
    rw [add_sub_cancel] at this
    nlinarith
  have h5 : |D.div a t - 1 / θ * a| ≤ |D.rnd (a / t) - a / t| + |a / t - 1 / θ * a| := abs_sub_le _ _ _
  nlinarith

theorem WF.entry (hD : D.WF) {c c' s s' u u' v v' w w' : ℝ} (hc : Near 1 58 1 c' c) (hs : Near 1 58 1 s' s) (hu : Near 1 12 1 u' u)
    (hv : Near 1 12 1 v' v) (hw : Near 1 12 1 w' w) :
    Near 1 195 3 (D.add (D.mul (D.mul (D.sub 1 c') u') v') c') ((1 - c) * u * v + c) ∧
      Near 1 195 3 (D.add (D.mul (D.mul (D.sub 1 c') u') v') (D.mul s' w')) ((1 - c) * u * v + s * w) ∧
      Near 1 195 3 (D.sub (D.mul (D.mul (D.sub 1 c') u') v') (D.mul s' w')) ((1 - c) * u * v - s * w) := by
  have z : (0 : ℝ) ≤ 1 := zero_le_one
  have one : Near 1 0 1 1 1 := .exact (by norm_num)
  have a := (Near.sub hD z one hc (by norm_num) (by norm_num)).of z (show _ ≤ (61 : ℝ) by norm_num) (show _ ≤ (2 : ℝ) by norm_num)
  have b := (Near.mul hD z a hu (by norm_num) (by norm_num) (by norm_num) (by norm_num) (by norm_num)).of z (show _ ≤ (88 : ℝ) by norm_num) (show _ ≤ (2 : ℝ) by norm_num)
  have d := (Near.mul hD z b hv (by norm_num) (by norm_num) (by norm_num) (by norm_num) (by norm_num)).of z (show _ ≤ (115 : ℝ) by norm_num) (show _ ≤ (2 : ℝ) by norm_num)
  have e := (Near.mul hD z hs hw (by norm_num) (by norm_num) (by norm_num) (by norm_num) (by norm_num)).of z (show _ ≤ (72 : ℝ) by norm_num) (show _ ≤ (1 : ℝ) by norm_num)
  exact ⟨(Near.add hD z d hc (by norm_num) (by norm_num)).of z (by norm_num) (by norm_num),
    (Near.add hD z d e (by norm_num) (by norm_num)).of z (by norm_num) (by norm_num),
    (Near.sub hD z d e (by norm_num) (by norm_num)).of z (by norm_num) (by norm_num)⟩

/-- A row of a rotation matrix times a point. -/
theorem WF.row (hD : D.WF) {a b c a' b' c' t S : ℝ} {p : V3} (hS : 0 ≤ S) (ha : Near 1 195 3 a' a) (hb : Near 1 195 3 b' b) (hc : Near 1 195 3 c' c)
    (hp : p.norm ≤ S) (ht : |t| ≤ 2 * S) :
    Near S 660 11 (D.add (D.dot ⟨a', b', c'⟩ p) t) (a * p.x + b * p.y + c * p.z + t) := by
  have x : Near S 0 1 p.x p.x := .exact (by simpa using (V3.abs_x_le p).trans hp)
  have y : Near S 0 1 p.y p.y := .exact (by simpa using (V3.abs_y_le p).trans hp)
  have z : Near S 0 1 p.z p.z := .exact (by simpa using (V3.abs_z_le p).trans hp)
  have a1 := Near.mul hD hS ha x (by norm_num) (by norm_num) (by norm_num) (by norm_num) (by norm_num)
  have b1 := Near.mul hD hS hb y (by norm_num) (by norm_num) (by norm_num) (by norm_num) (by norm_num)
  have c1 := Near.mul hD hS hc z (by norm_num) (by norm_num) (by norm_num) (by norm_num) (by norm_num)
  have d := Near.add hD hS (Near.add hD hS a1 b1 (by norm_num) (by norm_num)) c1 (by norm_num) (by norm_num)
  exact (Near.add hD hS d (.exact ht) (by norm_num) (by norm_num)).of hS (by norm_num) (by norm_num)

end Double

end RCT
