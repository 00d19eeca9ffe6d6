import Verif.Props.Identify
import Verif.Lemmas.Noise

/-!
# C212: the printed cost bounds the error of a circle fitted to noisy points
-/

namespace RCT
namespace Spec

/-- Distance of two points of the plane. -/
noncomputable def planeDist (a b : V2) : ℝ := Real.sqrt ((a.x - b.x) ^ 2 + (a.y - b.y) ^ 2)

/-- Every measured point is within `noise` of some point of the circle. -/
def CircleNoise (noise x y r : ℝ) (l : List V2) : Prop := ∀ o ∈ l, ∃ t : V2, planeDist t ⟨x, y⟩ = r ∧ planeDist o t ≤ noise

/-- Squared radius minus squared distance from the centre, of each point. -/
def circleErrors (x y r : ℝ) (l : List V2) : List ℝ := l.map fun o => r ^ 2 - ((o.x - x) ^ 2 + (o.y - y) ^ 2)

/-- Three points whose coordinates differ by at most `size` and that span a parallelogram with at least the given area. -/
structure WideTriangle2 (size area : ℝ) (a b c : V2) : Prop where
  bx : |b.x - a.x| ≤ size
  «by» : |b.y - a.y| ≤ size
  cx : |c.x - a.x| ≤ size
  cy : |c.y - a.y| ≤ size
  wide : area ≤ |(b.x - a.x) * (c.y - a.y) - (b.y - a.y) * (c.x - a.x)|

end Spec

open Spec

theorem planeDist_nonneg (a b : V2) : 0 ≤ planeDist a b := Real.sqrt_nonneg _

theorem planeDist_sq (a b : V2) : planeDist a b ^ 2 = (a.x - b.x) ^ 2 + (a.y - b.y) ^ 2 := Real.sq_sqrt (by positivity)

theorem planeDist_eq (a b : V2) : planeDist a b = ((⟨a.x, a.y, 0⟩ : V3) - ⟨b.x, b.y, 0⟩).norm := by
  unfold planeDist V3.norm
  congr 1
  simp [V3.normSq, V3.dot]
  ring

theorem planeDist_triangle (a b c : V2) : planeDist a c ≤ planeDist a b + planeDist b c := by
  simp only [planeDist_eq]
  exact V3.norm_sub_le _ _ _

theorem planeDist_comm (a b : V2) : planeDist a b = planeDist b a := by
  unfold planeDist; congr 1; ring

theorem planeDist_le_abs (a b : V2) : planeDist a b ≤ |a.x - b.x| + |a.y - b.y| := by
  refine abs_le_of_sq_le_sq' ?_ (by positivity) |>.2
  rw [planeDist_sq, add_sq, sq_abs, sq_abs]
  have := mul_nonneg (abs_nonneg (a.x - b.x)) (abs_nonneg (a.y - b.y))
  linarith

/-- A measured point is about as far from the centre as the radius. -/
theorem near_circle {noise x y r : ℝ} {l : List V2} (h : CircleNoise noise x y r l) {o : V2} (ho : o ∈ l) :
    |planeDist o ⟨x, y⟩ - r| ≤ noise ∧ |(o.x - x) ^ 2 + (o.y - y) ^ 2 - r ^ 2| ≤ noise * (2 * r + noise) := by
  obtain ⟨t, rfl, ht⟩ := h o ho
  have h1 := planeDist_triangle o t ⟨x, y⟩
  have h2 := planeDist_triangle t o ⟨x, y⟩
  rw [planeDist_comm t o] at h2
  have h3 : |planeDist o ⟨x, y⟩ - planeDist t ⟨x, y⟩| ≤ noise := by rw [abs_le]; constructor <;> linarith
  refine ⟨h3, ?_⟩
  have e := planeDist_sq o ⟨x, y⟩
  simp only at e
  rw [← e]
  have h0 := planeDist_nonneg o ⟨x, y⟩
  have h0' := planeDist_nonneg t ⟨x, y⟩
  rw [show planeDist o ⟨x, y⟩ ^ 2 - planeDist t ⟨x, y⟩ ^ 2 =
    (planeDist o ⟨x, y⟩ - planeDist t ⟨x, y⟩) * (planeDist o ⟨x, y⟩ + planeDist t ⟨x, y⟩) by ring, abs_mul,
    abs_of_nonneg (add_nonneg h0 h0')]
  refine mul_le_mul h3 ?_ (by positivity) ((abs_nonneg _).trans h3)
  linarith

/-- Geometry: two circles that both nearly pass through three points of a wide triangle have centres close to each other. -/
theorem centres_close {size area m x y r x' y' r' : ℝ} {a b c : V2} (hA : 0 < area) (hw : WideTriangle2 size area a b c)
    (ha : |(r' ^ 2 - ((a.x - x') ^ 2 + (a.y - y') ^ 2)) - (r ^ 2 - ((a.x - x) ^ 2 + (a.y - y) ^ 2))| ≤ m)
    (hb : |(r' ^ 2 - ((b.x - x') ^ 2 + (b.y - y') ^ 2)) - (r ^ 2 - ((b.x - x) ^ 2 + (b.y - y) ^ 2))| ≤ m)
    (hc : |(r' ^ 2 - ((c.x - x') ^ 2 + (c.y - y') ^ 2)) - (r ^ 2 - ((c.x - x) ^ 2 + (c.y - y) ^ 2))| ≤ m) :
    |x' - x| ≤ 2 * size * m / area ∧ |y' - y| ≤ 2 * size * m / area := by
  obtain ⟨w1, w2, w3, w4, w5⟩ := hw
  have hm : 0 ≤ m := (abs_nonneg _).trans ha
  have hs : 0 ≤ size := (abs_nonneg _).trans w1
  -- the products of the shift with the sides
  have k1 : |(x' - x) * (b.x - a.x) + (y' - y) * (b.y - a.y)| ≤ m := by
    rw [abs_le] at ha hb ⊢
    constructor <;> linarith
  have k2 : |(x' - x) * (c.x - a.x) + (y' - y) * (c.y - a.y)| ≤ m := by
    rw [abs_le] at ha hc ⊢
    constructor <;> linarith
  have two : ∀ u v p q : ℝ, |u| ≤ m → |v| ≤ m → |p| ≤ size → |q| ≤ size → |u * p - v * q| ≤ 2 * size * m := by
    intro u v p q h1 h2 h3 h4
    have h5 : |u * p| ≤ m * size := by rw [abs_mul]; exact mul_le_mul h1 h3 (abs_nonneg _) hm
    have h6 : |v * q| ≤ m * size := by rw [abs_mul]; exact mul_le_mul h2 h4 (abs_nonneg _) hm
    have := abs_sub (u * p) (v * q)
    linarith
  constructor
  · rw [le_div_iff₀ hA]
    refine (mul_le_mul_of_nonneg_left w5 (abs_nonneg _)).trans ?_
    rw [← abs_mul]
    rw [show (x' - x) * ((b.x - a.x) * (c.y - a.y) - (b.y - a.y) * (c.x - a.x)) =
      ((x' - x) * (b.x - a.x) + (y' - y) * (b.y - a.y)) * (c.y - a.y) -
        ((x' - x) * (c.x - a.x) + (y' - y) * (c.y - a.y)) * (b.y - a.y) by ring]
    exact two _ _ _ _ k1 k2 w4 w2
  · rw [le_div_iff₀ hA]
    refine (mul_le_mul_of_nonneg_left w5 (abs_nonneg _)).trans ?_
    rw [← abs_mul]
    rw [show (y' - y) * ((b.x - a.x) * (c.y - a.y) - (b.y - a.y) * (c.x - a.x)) =
      ((x' - x) * (c.x - a.x) + (y' - y) * (c.y - a.y)) * (b.x - a.x) -
        ((x' - x) * (b.x - a.x) + (y' - y) * (b.y - a.y)) * (c.x - a.x) by ring]
    exact two _ _ _ _ k2 k1 w1 w3

theorem sub_le_sqrt {p q : ℝ} (hp : 0 ≤ p) (hq : 0 ≤ q) : |p - q| ≤ Real.sqrt |p ^ 2 - q ^ 2| := by
  apply Real.le_sqrt_of_sq_le
  have e : |p ^ 2 - q ^ 2| = |p - q| * (p + q) := by
    rw [show p ^ 2 - q ^ 2 = (p - q) * (p + q) by ring, abs_mul, abs_of_nonneg (add_nonneg hp hq)]
  rw [e, sq]
  refine mul_le_mul_of_nonneg_left ?_ (abs_nonneg _)
  rw [abs_le]; constructor <;> linarith

/-- The residual of a point is bounded by the cost. -/
theorem circle_residual_le {l : List V2} {x y r F : ℝ} (hF : meanCost (circleErrors x y r l) = some F) {o : V2} (ho : o ∈ l) :
    |r ^ 2 - ((o.x - x) ^ 2 + (o.y - y) ^ 2)| ≤ Real.sqrt (2 * l.length * F) := by
  have h1 := meanCost_sumSq hF
  have h2 := sumSq_flatMap_mem (fun o : V2 => [r ^ 2 - ((o.x - x) ^ 2 + (o.y - y) ^ 2)]) ho
  rw [← List.map_eq_flatMap] at h2
  rw [show (List.map (fun o : V2 => r ^ 2 - ((o.x - x) ^ 2 + (o.y - y) ^ 2)) l) = circleErrors x y r l from rfl, h1] at h2
  apply Real.le_sqrt_of_sq_le
  rw [sq_abs]
  have e : (circleErrors x y r l).length = l.length := by simp [circleErrors]
  rw [e] at h2
  simpa [Spec.sumSq] using h2

theorem circle_cost {s : Ceres Mem} {p : CircleFitProblem} {res : CircleFitResult} (h : circleFit s p = .ok res) :
    res.finalCost = meanCost (circleErrors res.xCenter res.yCenter res.radius p.observations) := by
  rw [(circleFit_ok h).2.2.2, costPerObs_eq_meanCost, C49_residuals s p res h]
  rfl

theorem circle_bound {l : List V2} {x y r x' y' r' noise d size area : ℝ} (hr : 0 ≤ r')
    (hn : CircleNoise noise x y r l) (hd : ∀ o ∈ l, |r' ^ 2 - ((o.x - x') ^ 2 + (o.y - y') ^ 2)| ≤ d) (hA : 0 < area) {a b c : V2}
    (ha : a ∈ l) (hb : b ∈ l) (hc : c ∈ l) (hw : WideTriangle2 size area a b c) :
    |x' - x| ≤ 2 * size * (d + noise * (2 * r + noise)) / area ∧ |y' - y| ≤ 2 * size * (d + noise * (2 * r + noise)) / area ∧
      |r' - r| ≤ 4 * size * (d + noise * (2 * r + noise)) / area + noise + Real.sqrt d := by
  have key : ∀ o ∈ l, |(r' ^ 2 - ((o.x - x') ^ 2 + (o.y - y') ^ 2)) - (r ^ 2 - ((o.x - x) ^ 2 + (o.y - y) ^ 2))| ≤
      d + noise * (2 * r + noise) := by
    intro o ho
    have h1 := hd o ho
    have h2 := (near_circle hn ho).2
    rw [abs_le] at h1 h2 ⊢
    constructor <;> linarith
  obtain ⟨h1, h2⟩ := centres_close hA hw (key a ha) (key b hb) (key c hc)
  refine ⟨h1, h2, ?_⟩
  have h3 := (near_circle hn ha).1
  have h4 : |r' - planeDist a ⟨x', y'⟩| ≤ Real.sqrt d := by
    refine (sub_le_sqrt hr (planeDist_nonneg _ _)).trans (Real.sqrt_le_sqrt ?_)
    rw [planeDist_sq]
    exact hd a ha
  have h5 : |planeDist a ⟨x', y'⟩ - planeDist a ⟨x, y⟩| ≤ |x' - x| + |y' - y| := by
    have t1 := planeDist_triangle a ⟨x, y⟩ ⟨x', y'⟩
    have t2 := planeDist_triangle a ⟨x', y'⟩ ⟨x, y⟩
    have t3 := planeDist_le_abs ⟨x', y'⟩ ⟨x, y⟩
    rw [planeDist_comm ⟨x, y⟩] at t1
    rw [abs_le]; constructor <;> linarith
  have e : 4 * size * (d + noise * (2 * r + noise)) / area = 2 * (2 * size * (d + noise * (2 * r + noise)) / area) := by ring
  rw [e]
  rw [abs_le] at h3 h4 h5 ⊢
  constructor <;> linarith

/-- The printed final cost `F` and the noise bound the errors of centre and radius, if three of the points form a wide triangle. -/
theorem C212_bound (s : Ceres Mem) (p : CircleFitProblem) (res : CircleFitResult) (h : circleFit s p = .ok res) (x y r noise F : ℝ)
    (hn : CircleNoise noise x y r p.observations) (hF : res.finalCost = some F) (size area : ℝ) (hA : 0 < area) (a b c : V2)
    (ha : a ∈ p.observations) (hb : b ∈ p.observations) (hc : c ∈ p.observations) (hw : WideTriangle2 size area a b c) (d : ℝ)
    (hd : d = Real.sqrt (2 * p.observations.length * F)) :
    |res.xCenter - x| ≤ 2 * size * (d + noise * (2 * r + noise)) / area ∧
      |res.yCenter - y| ≤ 2 * size * (d + noise * (2 * r + noise)) / area ∧
      |res.radius - r| ≤ 4 * size * (d + noise * (2 * r + noise)) / area + noise + Real.sqrt d := by
  rw [circle_cost h] at hF
  exact circle_bound (C49_radius s p res h) hn (fun o ho => by rw [hd]; exact circle_residual_le hF ho) hA ha hb hc hw

/-- If the result fits the points at least as well as the true circle does, the errors are bounded by the noise alone. -/
theorem C212_best (s : Ceres Mem) (p : CircleFitProblem) (res : CircleFitResult) (h : circleFit s p = .ok res) (x y r noise : ℝ)
    (hn : CircleNoise noise x y r p.observations)
    (hbest : Spec.sumSq (circleErrors res.xCenter res.yCenter res.radius p.observations) ≤ Spec.sumSq (circleErrors x y r p.observations))
    (size area : ℝ) (hA : 0 < area) (a b c : V2) (ha : a ∈ p.observations) (hb : b ∈ p.observations) (hc : c ∈ p.observations)
    (hw : WideTriangle2 size area a b c) (d : ℝ) (hd : d = Real.sqrt p.observations.length * (noise * (2 * r + noise))) :
    |res.xCenter - x| ≤ 2 * size * (d + noise * (2 * r + noise)) / area ∧
      |res.yCenter - y| ≤ 2 * size * (d + noise * (2 * r + noise)) / area ∧
      |res.radius - r| ≤ 4 * size * (d + noise * (2 * r + noise)) / area + noise + Real.sqrt d := by
  have hm : 0 ≤ noise * (2 * r + noise) := (abs_nonneg _).trans (near_circle hn ha).2
  refine circle_bound (C49_radius s p res h) hn (fun o ho => ?_) hA ha hb hc hw
  have h1 := sumSq_flatMap_mem (fun o : V2 => [res.radius ^ 2 - ((o.x - res.xCenter) ^ 2 + (o.y - res.yCenter) ^ 2)]) ho
  have h2 := sumSq_flatMap_le p.observations (fun o : V2 => [r ^ 2 - ((o.x - x) ^ 2 + (o.y - y) ^ 2)]) ((noise * (2 * r + noise)) ^ 2)
    (fun o ho => by
      have := (near_circle hn ho).2
      simp only [Spec.sumSq, List.map_cons, List.map_nil, List.sum_cons, List.sum_nil, add_zero]
      rw [← sq_abs, abs_sub_comm]
      exact pow_le_pow_left₀ (abs_nonneg _) this 2)
  rw [← List.map_eq_flatMap] at h1 h2
  have h3 := (h1.trans hbest).trans h2
  rw [hd]
  refine abs_le_of_sq_le_sq ?_ (by positivity)
  rw [mul_pow, Real.sq_sqrt (Nat.cast_nonneg _)]
  simpa [Spec.sumSq] using h3

/-- A solver that does not increase the cost, started at the true circle, stays within this bound. -/
theorem C212_from_truth (s : Ceres Mem) (hs : s.WF) (p : CircleFitProblem) (res : CircleFitResult) (h : circleFit s p = .ok res)
    (noise : ℝ) (hr : 0 ≤ p.radiusInitial) (hn : CircleNoise noise p.xInitial p.yInitial p.radiusInitial p.observations)
    (size area : ℝ) (hA : 0 < area) (a b c : V2) (ha : a ∈ p.observations) (hb : b ∈ p.observations) (hc : c ∈ p.observations)
    (hw : WideTriangle2 size area a b c) (d : ℝ)
    (hd : d = Real.sqrt p.observations.length * (noise * (2 * p.radiusInitial + noise))) :
    |res.xCenter - p.xInitial| ≤ 2 * size * (d + noise * (2 * p.radiusInitial + noise)) / area ∧
      |res.yCenter - p.yInitial| ≤ 2 * size * (d + noise * (2 * p.radiusInitial + noise)) / area ∧
      |res.radius - p.radiusInitial| ≤
        4 * size * (d + noise * (2 * p.radiusInitial + noise)) / area + noise + Real.sqrt d := by
  refine C212_best s p res h _ _ _ noise hn ?_ size area hA a b c ha hb hc hw d hd
  have hdesc := hs.descent (circleBuild p) (circleInit p)
  rw [cost_eq_sumSq, cost_eq_sumSq, C49_residuals s p res h] at hdesc
  have e : residuals (circleBuild p) (circleInit p) = circleErrors p.xInitial p.yInitial p.radiusInitial p.observations := by
    rw [circleBuild, residuals_map, circleErrors, List.map_eq_flatMap]
    apply flatMap_congr'
    intro o _
    simp only [ResBlock.residual, List.map_cons, List.map_nil, evalMem1, circleCost, List.cons.injEq, and_true, circleInit, if_true,
      Real.mul_self_sqrt hr]
    ring
  rw [e] at hdesc
  have : Spec.sumSq (circleErrors res.xCenter res.yCenter res.radius p.observations) = _ := rfl
  unfold circleErrors at *
  linarith

/-- Points of the unit circle, one measured a tenth too far out; the reported circle is the true one. -/
example : ∃ (p : CircleFitProblem) (res : CircleFitResult) (a b c : V2) (F : ℝ), (idCeres Mem).WF ∧ circleFit (idCeres Mem) p = .ok res ∧
    CircleNoise (1 / 10) p.xInitial p.yInitial p.radiusInitial p.observations ∧ ¬ CircleNoise 0 0 0 1 p.observations ∧
    res.finalCost = some F ∧ 0 ≤ p.radiusInitial ∧ a ∈ p.observations ∧ b ∈ p.observations ∧ c ∈ p.observations ∧
    WideTriangle2 2 2 a b c ∧
    Spec.sumSq (circleErrors res.xCenter res.yCenter res.radius p.observations) ≤ Spec.sumSq (circleErrors 0 0 1 p.observations) := by
  obtain ⟨p, hp⟩ : ∃ p : CircleFitProblem, p = ⟨[⟨1, 0⟩, ⟨0, 1⟩, ⟨-1, 0⟩, ⟨0, -11 / 10⟩], 0, 0, 1⟩ := ⟨_, rfl⟩
  obtain ⟨res, h⟩ := circle_id_returns p (by rw [hp]; simp)
  obtain ⟨h1, h2, h3⟩ := C49_guess (idCeres Mem) p res h (fun _ _ => rfl) (by rw [hp]; norm_num)
  have e1 : p.xInitial = 0 := by rw [hp]
  have e2 : p.yInitial = 0 := by rw [hp]
  have e3 : p.radiusInitial = 1 := by rw [hp]
  have eo : p.observations = [⟨1, 0⟩, ⟨0, 1⟩, ⟨-1, 0⟩, ⟨0, -11 / 10⟩] := by rw [hp]
  rw [e1] at h1
  rw [e2] at h2
  rw [e3] at h3
  obtain ⟨F, hF⟩ : ∃ F, res.finalCost = some F := by
    rw [circle_cost h, meanCost, if_neg (by rw [eo]; simp [circleErrors])]
    exact ⟨_, rfl⟩
  refine ⟨p, res, ⟨1, 0⟩, ⟨0, 1⟩, ⟨-1, 0⟩, F, idCeres_wf _, h, ?_, ?_, hF, by rw [e3]; norm_num, by rw [eo]; simp, by rw [eo]; simp,
    by rw [eo]; simp, ?_, by rw [h1, h2, h3]⟩
  · rw [e1, e2, e3, eo]
    intro o ho
    simp only [List.mem_cons, List.not_mem_nil, or_false] at ho
    rcases ho with rfl | rfl | rfl | rfl
    · exact ⟨⟨1, 0⟩, by norm_num [planeDist], by norm_num [planeDist]⟩
    · exact ⟨⟨0, 1⟩, by norm_num [planeDist], by norm_num [planeDist]⟩
    · exact ⟨⟨-1, 0⟩, by norm_num [planeDist], by norm_num [planeDist]⟩
    · refine ⟨⟨0, -1⟩, by norm_num [planeDist], ?_⟩
      refine (planeDist_le_abs _ _).trans ?_
      norm_num [abs_of_neg]
  · intro h0
    have := (near_circle h0 (o := ⟨0, -11 / 10⟩) (by rw [eo]; simp)).2
    norm_num [abs_of_pos] at this
  · constructor <;> norm_num

end RCT
