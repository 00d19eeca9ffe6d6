import Verif.Lemmas.RoundedKinCost
import Verif.Model.RoundedOrient

/-!
# C237 The residuals of circle fitting and of priors in double arithmetic
-/

namespace RCT

namespace Double

variable {D : Double}

/-- A square of a rounded value. -/
theorem WF.square (hD : D.WF) {a a' : ℝ} (h : |a' - a| ≤ dblUnit * |a|) : |D.mul a' a' - a * a| ≤ (31 / 10 * dblUnit) * (a * a) := by
  have hu := dblUnit_pos
  have hu' := dblUnit_le
  have h1 := hD.rnd_err (a' * a')
  have a0 := abs_nonneg a
  have b : |a'| ≤ |a| + dblUnit * |a| := by
    have := abs_add_le a (a' - a); rw [add_sub_cancel] at this; linarith
  have c : |a' * a' - a * a| ≤ dblUnit * |a| * (2 * |a| + dblUnit * |a|) := by
    rw [show a' * a' - a * a = (a' - a) * (a' + a) by ring, abs_mul]
    have := abs_add_le a' a
    exact mul_le_mul h (by linarith) (abs_nonneg _) (by positivity)
  have d : |a' * a'| ≤ (|a| + dblUnit * |a|) * (|a| + dblUnit * |a|) := by
    rw [abs_mul]; exact mul_le_mul b b (abs_nonneg _) (by positivity)
  have e := mul_le_mul_of_nonneg_left d hu.le
  have s : |a| * |a| = a * a := abs_mul_abs_self a
  have t := abs_sub_le (D.rnd (a' * a')) (a' * a') (a * a)
  unfold Double.mul
  have k : 0 ≤ a * a := mul_self_nonneg a
  obtain ⟨S, hS⟩ : ∃ S, S = a * a := ⟨_, rfl⟩
  have q1 : dblUnit * |a| * (2 * |a| + dblUnit * |a|) = (2 + dblUnit) * dblUnit * S := by rw [hS, ← s]; ring
  have q2 : dblUnit * ((|a| + dblUnit * |a|) * (|a| + dblUnit * |a|)) = dblUnit * ((1 + dblUnit) * (1 + dblUnit)) * S := by rw [hS, ← s]; ring
  have q3 : (2 + dblUnit) * dblUnit * S + dblUnit * ((1 + dblUnit) * (1 + dblUnit)) * S ≤ (31 / 10 * dblUnit) * S := by
    rw [← add_mul]
    apply mul_le_mul_of_nonneg_right _ (hS ▸ k)
    have g1 : dblUnit * dblUnit ≤ 1 / 100 * dblUnit := mul_le_mul_of_nonneg_right (by linarith) hu.le
    have g2 : dblUnit * dblUnit * dblUnit ≤ 1 / 100 * dblUnit := by
      have := mul_le_mul_of_nonneg_right g1 hu.le
      linarith
    nlinarith
  rw [← hS] at t c ⊢
  linarith

end Double

/-- Circles: the residual is the square of the radius less that of the distance from the centre, up to a small part of these squares. -/
theorem C237_circle {D : Double} (hD : D.WF) (obs : V2) (x y rSqrt : ℝ) {r d : ℝ} (hr : r = rSqrt * rSqrt) (hd : d = (obs - ⟨x, y⟩ : V2).norm) :
    |D.circleCost obs x y rSqrt - (r ^ 2 - d ^ 2)| ≤ (r ^ 2 + d ^ 2) / 10 ^ 15 := by
  obtain ⟨u1, u2⟩ := Double.dblUnit_bounds
  have hu := dblUnit_pos
  have hd2 : d ^ 2 = (obs.x - x) * (obs.x - x) + (obs.y - y) * (obs.y - y) := by
    rw [hd, V2.norm, Real.sq_sqrt]
    · simp [V2.normSq]
    · exact add_nonneg (mul_self_nonneg _) (mul_self_nonneg _)
  have sr := hD.square (hD.rnd_err (rSqrt * rSqrt))
  rw [← hr] at sr
  have sx := hD.square (hD.rnd_err (obs.x - x))
  have sy := hD.square (hD.rnd_err (obs.y - y))
  rw [hd2, show r ^ 2 = r * r by ring]
  unfold Double.circleCost
  simp only
  have er : D.mul rSqrt rSqrt = D.rnd r := by rw [hr]; rfl
  rw [er]
  unfold Double.sub at *
  have a0 : 0 ≤ r * r := mul_self_nonneg r
  have b0 := mul_self_nonneg (obs.x - x)
  have c0 := mul_self_nonneg (obs.y - y)
  generalize D.mul (D.rnd r) (D.rnd r) = A' at *
  generalize D.mul (D.rnd (obs.x - x)) (D.rnd (obs.x - x)) = B' at *
  generalize D.mul (D.rnd (obs.y - y)) (D.rnd (obs.y - y)) = C' at *
  generalize r * r = A at *
  generalize (obs.x - x) * (obs.x - x) = B at *
  generalize (obs.y - y) * (obs.y - y) = C at *
  have h1 := hD.rnd_err (A' - B')
  have h2 := hD.rnd_err (D.rnd (A' - B') - C')
  have t1 := abs_le.1 sr
  have t2 := abs_le.1 sx
  have t3 := abs_le.1 sy
  have uS : ∀ {s : ℝ}, 0 ≤ s → 31 / 10 * dblUnit * s ≤ s / 100 ∧ 31 / 10 * dblUnit * s ≤ 4 / 10 ^ 16 * s := by
    intro s hs
    constructor
    · have := mul_le_mul_of_nonneg_right (show 31 / 10 * dblUnit ≤ 1 / 100 by linarith) hs; linarith
    · exact mul_le_mul_of_nonneg_right (by linarith) hs
  obtain ⟨p1, p2⟩ := uS a0
  obtain ⟨p3, p4⟩ := uS b0
  obtain ⟨p5, p6⟩ := uS c0
  have m1 : |A' - B'| ≤ 101 / 100 * (A + B) := abs_le.2 ⟨by linarith, by linarith⟩
  have m2 : dblUnit * |A' - B'| ≤ 12 / 10 ^ 17 * (101 / 100 * (A + B)) := mul_le_mul u1 m1 (abs_nonneg _) (by norm_num)
  have t4 := abs_le.1 h1
  have m3 : |D.rnd (A' - B') - C'| ≤ 102 / 100 * (A + B + C) := abs_le.2 ⟨by linarith, by linarith⟩
  have m4 : dblUnit * |D.rnd (A' - B') - C'| ≤ 12 / 10 ^ 17 * (102 / 100 * (A + B + C)) := mul_le_mul u1 m3 (abs_nonneg _) (by norm_num)
  have t5 := abs_le.1 h2
  rw [abs_le]
  constructor <;> linarith

/-- The sign tells inside from outside for all points but those very close to the circle. -/
theorem C237_side {D : Double} (hD : D.WF) (obs : V2) (x y rSqrt : ℝ) {r d : ℝ} (hr : r = rSqrt * rSqrt) (hd : d = (obs - ⟨x, y⟩ : V2).norm) :
    (d + (r + d) / 10 ^ 15 < r → 0 < D.circleCost obs x y rSqrt) ∧ (r + (r + d) / 10 ^ 15 < d → D.circleCost obs x y rSqrt < 0) := by
  have h := abs_le.1 (C237_circle hD obs x y rSqrt hr hd)
  have r0 : 0 ≤ r := by rw [hr]; exact mul_self_nonneg _
  have d0 : 0 ≤ d := by rw [hd]; exact Real.sqrt_nonneg _
  have rd : 0 ≤ r * d := mul_nonneg r0 d0
  constructor
  · intro hlt
    have hp : 0 < r + d := by
      by_contra hn
      have : r = 0 := by linarith
      have : d = 0 := by linarith
      subst_vars
      simp_all
    have := mul_lt_mul_of_pos_right hlt hp
    nlinarith
  · intro hlt
    have hp : 0 < r + d := by
      by_contra hn
      have : r = 0 := by linarith
      have : d = 0 := by linarith
      subst_vars
      simp_all
    have := mul_lt_mul_of_pos_right hlt hp
    nlinarith

/-- Priors: the residual is the deviation from the mean in standard deviations, up to a small part of itself. -/
theorem C237_prior {D : Double} (hD : D.WF) (param mean : ℝ) {stdev : ℝ} (_hs : 0 < stdev) :
    |D.priorCost param mean stdev - (param - mean) / stdev| ≤ |(param - mean) / stdev| / 10 ^ 15 := by
  obtain ⟨u1, u2⟩ := Double.dblUnit_bounds
  have hu := dblUnit_pos
  unfold Double.priorCost Double.div Double.sub
  have h1 := hD.rnd_err (param - mean)
  have h2 := hD.rnd_err (D.rnd (param - mean) / stdev)
  have h3 : |D.rnd (param - mean) / stdev - (param - mean) / stdev| ≤ dblUnit * |(param - mean) / stdev| := by
    rw [← sub_div, abs_div, abs_div, ← mul_div_assoc]
    exact div_le_div_of_nonneg_right h1 (abs_nonneg _)
  generalize D.rnd (param - mean) / stdev = q' at *
  generalize (param - mean) / stdev = q at *
  have q0 := abs_nonneg q
  have b := mul_le_mul_of_nonneg_right u1 q0
  have h4 : |q'| ≤ 2 * |q| := by
    have := abs_add_le q (q' - q); rw [add_sub_cancel] at this; linarith
  have h5 : dblUnit * |q'| ≤ 12 / 10 ^ 17 * (2 * |q|) := mul_le_mul u1 h4 (abs_nonneg _) (by norm_num)
  have := abs_sub_le (D.rnd q') q' q
  linarith

/-- A prior does not pull where its parameter is at the mean, and only there. -/
theorem C237_mean {D : Double} (hD : D.WF) {param mean stdev : ℝ} (hs : 0 < stdev) : D.priorCost param mean stdev = 0 ↔ param = mean := by
  have h := C237_prior hD param mean hs
  constructor
  · intro h0
    rw [h0, zero_sub, abs_neg] at h
    have h1 : |(param - mean) / stdev| = 0 := by
      have := abs_nonneg ((param - mean) / stdev)
      linarith
    have := (div_eq_zero_iff.1 (abs_eq_zero.1 h1)).resolve_right hs.ne'
    linarith
  · rintro rfl
    simpa using h

/-- Without rounding these are the residuals of the optimisations. -/
theorem C237_same (obs : V2) (sample : Mem) (xs ys rs : Mem) (m : MaxLik) (param : Mem) (h : m.mean.rows = m.stdev.rows) (h' : m.mean.cols = m.stdev.cols) :
    RCT.circleCost obs sample = [Double.exact.circleCost obs (sample 0) (sample 1) (sample 2)] ∧
    RCT.circleCost3 obs xs ys rs = [Double.exact.circleCost obs (xs 0) (ys 0) (rs 0)] ∧
    m.eval param = .ok fun o => Double.exact.priorCost (param o) (m.mean.val (o % m.mean.rows) (o / m.mean.rows)) (m.stdev.val (o % m.mean.rows) (o / m.mean.rows)) := by
  refine ⟨rfl, rfl, ?_⟩
  unfold MaxLik.eval
  rw [if_pos ⟨h, h'⟩]
  rfl

/-! ## Examples -/

/-- A point two units outside a circle of radius 3. -/
example (D : Double) (hD : D.WF) : D.circleCost ⟨6, 8⟩ 3 4 (Real.sqrt 3) < 0 ∧ |D.circleCost ⟨6, 8⟩ 3 4 (Real.sqrt 3) - -16| ≤ 1 / 10 ^ 13 := by
  have e : (5 : ℝ) = ((⟨6, 8⟩ : V2) - ⟨3, 4⟩ : V2).norm := by
    unfold V2.norm V2.normSq
    simp
    rw [show ((6 - 3) * (6 - 3) + (8 - 4) * (8 - 4) : ℝ) = 5 ^ 2 by norm_num, Real.sqrt_sq (by norm_num)]
  have r : (3 : ℝ) = Real.sqrt 3 * Real.sqrt 3 := (Real.mul_self_sqrt (by norm_num)).symm
  have h := C237_circle hD ⟨6, 8⟩ 3 4 (Real.sqrt 3) r e
  refine ⟨(C237_side hD ⟨6, 8⟩ 3 4 (Real.sqrt 3) r e).2 (by norm_num), ?_⟩
  norm_num at h ⊢
  linarith

/-- A parameter three standard deviations above its mean. -/
example (D : Double) (hD : D.WF) : |D.priorCost (7 / 10) (1 / 10) (2 / 10) - 3| ≤ 1 / 10 ^ 14 ∧ D.priorCost (7 / 10) (1 / 10) (2 / 10) ≠ 0 := by
  have h := C237_prior hD (7 / 10) (1 / 10) (stdev := 2 / 10) (by norm_num)
  refine ⟨?_, fun h0 => ?_⟩
  · norm_num at h ⊢; linarith
  · have := (C237_mean hD (by norm_num)).1 h0
    norm_num at this

end RCT
