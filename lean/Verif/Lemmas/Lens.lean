import Verif.Lemmas.Zhang
import Verif.Spec.Distortion
import Mathlib.Algebra.Polynomial.Roots
import Mathlib.Tactic.ComputeDegree
import Mathlib.Topology.Instances.Real.Lemmas
import Mathlib.Topology.Algebra.Field

/-!
Images of the lens model as polynomials in homogeneous coordinates of the plane of the target.
-/

namespace RCT
open Spec

/-- The first coordinate of the distorted point, times `z ^ 7`. -/
def lensX (k1 k2 p1 p2 k3 x y z : ℝ) : ℝ :=
  x * (z ^ 6 + k1 * (x ^ 2 + y ^ 2) * z ^ 4 + k2 * (x ^ 2 + y ^ 2) ^ 2 * z ^ 2 + k3 * (x ^ 2 + y ^ 2) ^ 3) +
    (2 * p1 * x * y + p2 * (3 * x ^ 2 + y ^ 2)) * z ^ 5

/-- The second coordinate of the distorted point, times `z ^ 7`. -/
def lensY (k1 k2 p1 p2 k3 x y z : ℝ) : ℝ :=
  y * (z ^ 6 + k1 * (x ^ 2 + y ^ 2) * z ^ 4 + k2 * (x ^ 2 + y ^ 2) ^ 2 * z ^ 2 + k3 * (x ^ 2 + y ^ 2) ^ 3) +
    (p1 * (x ^ 2 + 3 * y ^ 2) + 2 * p2 * x * y) * z ^ 5

theorem brown_lens (i : Intr) (k1 k2 p1 p2 k3 : ℝ) {x y z : ℝ} (hz : z ≠ 0) :
    (brown i k1 k2 p1 p2 k3 (x / z) (y / z)).x * z ^ 7 = i.fx * lensX k1 k2 p1 p2 k3 x y z + i.cx * z ^ 7 ∧
    (brown i k1 k2 p1 p2 k3 (x / z) (y / z)).y * z ^ 7 = i.fy * lensY k1 k2 p1 p2 k3 x y z + i.cy * z ^ 7 := by
  have e : Real.sqrt ((x / z) ^ 2 + (y / z) ^ 2) ^ 2 = (x / z) ^ 2 + (y / z) ^ 2 := Real.sq_sqrt (by positivity)
  have e4 : Real.sqrt ((x / z) ^ 2 + (y / z) ^ 2) ^ 4 = ((x / z) ^ 2 + (y / z) ^ 2) ^ 2 := by
    linear_combination (Real.sqrt ((x / z) ^ 2 + (y / z) ^ 2) ^ 2 + ((x / z) ^ 2 + (y / z) ^ 2)) * e
  have e6 : Real.sqrt ((x / z) ^ 2 + (y / z) ^ 2) ^ 6 = ((x / z) ^ 2 + (y / z) ^ 2) ^ 3 := by
    linear_combination Real.sqrt ((x / z) ^ 2 + (y / z) ^ 2) ^ 2 * e4 + ((x / z) ^ 2 + (y / z) ^ 2) ^ 2 * e
  constructor
  · simp only [brown, e, e4, e6, lensX]
    field_simp
    ring
  · simp only [brown, e, e4, e6, lensY]
    field_simp
    ring

theorem at_zero {h : ℝ → ℝ} (hc : Continuous h) (h0 : ∀ t, t ≠ 0 → h t = 0) : h 0 = 0 := by
  have : h = fun _ => 0 := Continuous.ext_on (dense_compl_singleton 0) hc continuous_const fun t ht => h0 t ht
  rw [this]

/-- If the image of a path that crosses the plane of depth zero away from the camera stays in bounds, up to a factor that does not vanish, there is no
distortion. -/
theorem peel {k1 k2 p1 p2 k3 f g cx cy ζ : ℝ} {x y z c P Q : ℝ → ℝ} (hx : Continuous x) (hy : Continuous y) (hcc : Continuous c)
    (hP : Continuous P) (hQ : Continuous Q) (hz : ∀ t, z t = ζ * t) (hζ : ζ ≠ 0) (h0 : x 0 ≠ 0 ∨ y 0 ≠ 0) (hc : c 0 ≠ 0)
    (hf : f ≠ 0) (hg : g ≠ 0)
    (h1 : ∀ t, (f * lensX k1 k2 p1 p2 k3 (x t) (y t) (z t) + cx * z t ^ 7) * c t = P t * t ^ 6)
    (h2 : ∀ t, (g * lensY k1 k2 p1 p2 k3 (x t) (y t) (z t) + cy * z t ^ 7) * c t = Q t * t ^ 6) :
    k1 = 0 ∧ k2 = 0 ∧ p1 = 0 ∧ p2 = 0 ∧ k3 = 0 := by
  obtain rfl : z = fun t => ζ * t := funext hz
  have hR : x 0 ^ 2 + y 0 ^ 2 ≠ 0 := by
    rcases h0 with h | h
    · have := sq_nonneg (y 0); have := sq_pos_of_ne_zero h; positivity
    · have := sq_nonneg (x 0); have := sq_pos_of_ne_zero h; positivity
  -- a coefficient that annihilates both coordinates is zero
  have kill : ∀ k : ℝ, ∀ n : ℕ, f * (x 0 * (k * (x 0 ^ 2 + y 0 ^ 2) ^ n)) * c 0 = 0 →
      g * (y 0 * (k * (x 0 ^ 2 + y 0 ^ 2) ^ n)) * c 0 = 0 → k = 0 := by
    intro k n e1 e2
    have e1' := (mul_eq_zero.1 ((mul_eq_zero.1 e1).resolve_right hc)).resolve_left hf
    have e2' := (mul_eq_zero.1 ((mul_eq_zero.1 e2).resolve_right hc)).resolve_left hg
    have : k * (x 0 ^ 2 + y 0 ^ 2) ^ n = 0 := by
      rcases h0 with h | h
      · exact (mul_eq_zero.1 e1').resolve_left h
      · exact (mul_eq_zero.1 e2').resolve_left h
    exact (mul_eq_zero.1 this).resolve_right (pow_ne_zero _ hR)
  have hk3 : k3 = 0 := by
    refine kill k3 3 ?_ ?_
    · have := h1 0
      simp only [lensX, mul_zero] at this
      linear_combination this
    · have := h2 0
      simp only [lensY, mul_zero] at this
      linear_combination this
  subst hk3
  have hk2 : k2 = 0 := by
    refine kill k2 2 ?_ ?_
    · have := at_zero (h := fun t => (f * (x t * ((ζ * t) ^ 4 + k1 * (x t ^ 2 + y t ^ 2) * (ζ * t) ^ 2 + k2 * (x t ^ 2 + y t ^ 2) ^ 2) +
        (2 * p1 * x t * y t + p2 * (3 * x t ^ 2 + y t ^ 2)) * (ζ * t) ^ 3) + cx * (ζ * t) ^ 5) * c t * ζ ^ 2 - P t * t ^ 4)
        (by fun_prop) (fun t ht => by
          have := h1 t
          simp only [lensX] at this
          have h2 : t ^ 2 ≠ 0 := pow_ne_zero _ ht
          apply mul_left_cancel₀ h2
          linear_combination this)
      have hζ2 : ζ ^ 2 ≠ 0 := pow_ne_zero _ hζ
      apply mul_right_cancel₀ hζ2
      simp only [mul_zero] at this
      linear_combination this
    · have := at_zero (h := fun t => (g * (y t * ((ζ * t) ^ 4 + k1 * (x t ^ 2 + y t ^ 2) * (ζ * t) ^ 2 + k2 * (x t ^ 2 + y t ^ 2) ^ 2) +
        (p1 * (x t ^ 2 + 3 * y t ^ 2) + 2 * p2 * x t * y t) * (ζ * t) ^ 3) + cy * (ζ * t) ^ 5) * c t * ζ ^ 2 - Q t * t ^ 4)
        (by fun_prop) (fun t ht => by
          have := h2 t
          simp only [lensY] at this
          have h2 : t ^ 2 ≠ 0 := pow_ne_zero _ ht
          apply mul_left_cancel₀ h2
          linear_combination this)
      have hζ2 : ζ ^ 2 ≠ 0 := pow_ne_zero _ hζ
      apply mul_right_cancel₀ hζ2
      simp only [mul_zero] at this
      linear_combination this
  subst hk2
  have hk1 : k1 = 0 := by
    refine kill k1 1 ?_ ?_
    · have := at_zero (h := fun t => (f * (x t * ((ζ * t) ^ 2 + k1 * (x t ^ 2 + y t ^ 2)) +
        (2 * p1 * x t * y t + p2 * (3 * x t ^ 2 + y t ^ 2)) * (ζ * t)) + cx * (ζ * t) ^ 3) * c t * ζ ^ 4 - P t * t ^ 2)
        (by fun_prop) (fun t ht => by
          have := h1 t
          simp only [lensX] at this
          have h2 : t ^ 4 ≠ 0 := pow_ne_zero _ ht
          apply mul_left_cancel₀ h2
          linear_combination this)
      have hζ2 : ζ ^ 4 ≠ 0 := pow_ne_zero _ hζ
      apply mul_right_cancel₀ hζ2
      simp only [mul_zero] at this
      linear_combination this
    · have := at_zero (h := fun t => (g * (y t * ((ζ * t) ^ 2 + k1 * (x t ^ 2 + y t ^ 2)) +
        (p1 * (x t ^ 2 + 3 * y t ^ 2) + 2 * p2 * x t * y t) * (ζ * t)) + cy * (ζ * t) ^ 3) * c t * ζ ^ 4 - Q t * t ^ 2)
        (by fun_prop) (fun t ht => by
          have := h2 t
          simp only [lensY] at this
          have h2 : t ^ 4 ≠ 0 := pow_ne_zero _ ht
          apply mul_left_cancel₀ h2
          linear_combination this)
      have hζ2 : ζ ^ 4 ≠ 0 := pow_ne_zero _ hζ
      apply mul_right_cancel₀ hζ2
      simp only [mul_zero] at this
      linear_combination this
  subst hk1
  have hζ5 : ζ ^ 5 ≠ 0 := pow_ne_zero _ hζ
  have hA : 2 * p1 * x 0 * y 0 + p2 * (3 * x 0 ^ 2 + y 0 ^ 2) = 0 := by
    have := at_zero (h := fun t => (f * (x t * (ζ * t) + (2 * p1 * x t * y t + p2 * (3 * x t ^ 2 + y t ^ 2))) + cx * (ζ * t) ^ 2) *
        c t * ζ ^ 5 - P t * t)
      (by fun_prop) (fun t ht => by
        have := h1 t
        simp only [lensX] at this
        have h2 : t ^ 5 ≠ 0 := pow_ne_zero _ ht
        apply mul_left_cancel₀ h2
        linear_combination this)
    have hne : f * c 0 * ζ ^ 5 ≠ 0 := mul_ne_zero (mul_ne_zero hf hc) hζ5
    apply mul_left_cancel₀ hne
    simp only [mul_zero] at this
    linear_combination this
  have hB : p1 * (x 0 ^ 2 + 3 * y 0 ^ 2) + 2 * p2 * x 0 * y 0 = 0 := by
    have := at_zero (h := fun t => (g * (y t * (ζ * t) + (p1 * (x t ^ 2 + 3 * y t ^ 2) + 2 * p2 * x t * y t)) + cy * (ζ * t) ^ 2) *
        c t * ζ ^ 5 - Q t * t)
      (by fun_prop) (fun t ht => by
        have := h2 t
        simp only [lensY] at this
        have h2 : t ^ 5 ≠ 0 := pow_ne_zero _ ht
        apply mul_left_cancel₀ h2
        linear_combination this)
    have hne : g * c 0 * ζ ^ 5 ≠ 0 := mul_ne_zero (mul_ne_zero hg hc) hζ5
    apply mul_left_cancel₀ hne
    simp only [mul_zero] at this
    linear_combination this
  have hs : p2 * x 0 + p1 * y 0 = 0 := by
    have : (x 0 ^ 2 + y 0 ^ 2) * (p2 * x 0 + p1 * y 0) = 0 := by linear_combination (1 / 3) * (x 0 * hA + y 0 * hB)
    exact (mul_eq_zero.1 this).resolve_left hR
  have hp2 : p2 = 0 := by
    have : p2 * (x 0 ^ 2 + y 0 ^ 2) = 0 := by linear_combination hA - 2 * x 0 * hs
    exact (mul_eq_zero.1 this).resolve_right hR
  have hp1 : p1 = 0 := by
    have : p1 * (x 0 ^ 2 + y 0 ^ 2) = 0 := by linear_combination hB - 2 * y 0 * hs
    exact (mul_eq_zero.1 this).resolve_right hR
  exact ⟨rfl, rfl, hp1, hp2, rfl⟩

/-! ### Linear forms on the plane of the target -/

/-- The three coordinates in the camera of the point `(a, b, 0)` of the target, as linear forms in `(a, b, 1)`. -/
def formX (T : Iso) : V3 := ⟨T.R.m00, T.R.m01, T.t.x⟩
def formY (T : Iso) : V3 := ⟨T.R.m10, T.R.m11, T.t.y⟩
def formZ (T : Iso) : V3 := ⟨T.R.m20, T.R.m21, T.t.z⟩

theorem form_apply (T : Iso) (a b : ℝ) : T.apply ⟨a, b, 0⟩ =
    ⟨(formX T).dot ⟨a, b, 1⟩, (formY T).dot ⟨a, b, 1⟩, (formZ T).dot ⟨a, b, 1⟩⟩ := by
  ext <;> simp [Iso.apply, M3.mulVec, formX, formY, formZ, V3.dot]

theorem form_independent {T : Iso} (hT : T.IsRigid) (hz : formZ T ≠ 0) :
    ∃ v, (formZ T).dot v = 0 ∧ ((formX T).dot v ≠ 0 ∨ (formY T).dot v ≠ 0) := by
  by_contra hno
  push Not at hno
  obtain ⟨c1, c2, c3, c4, c5, c6⟩ := M3.IsRot.cols hT
  have hx : (formX T).cross (formZ T) = 0 ∧ (formY T).cross (formZ T) = 0 := by
    have k : ∀ e : V3, (formX T).dot ((formZ T).cross e) = 0 ∧ (formY T).dot ((formZ T).cross e) = 0 := fun e => hno _ (by
      simp only [V3.dot, V3.cross]; ring)
    have k1 := k ⟨1, 0, 0⟩
    have k2 := k ⟨0, 1, 0⟩
    have k3 := k ⟨0, 0, 1⟩
    simp only [V3.dot, V3.cross] at k1 k2 k3
    constructor
    · ext <;> simp only [V3.cross, V3.zero_x, V3.zero_y, V3.zero_z]
      · linear_combination k1.1
      · linear_combination k2.1
      · linear_combination k3.1
    · ext <;> simp only [V3.cross, V3.zero_x, V3.zero_y, V3.zero_z]
      · linear_combination k1.2
      · linear_combination k2.2
      · linear_combination k3.2
  -- the first two columns of the rotation would be parallel
  have par : (formX T).cross (formY T) = 0 := by
    obtain ⟨h1, h2⟩ := hx
    have x1 := congrArg V3.x h1; have x2 := congrArg V3.y h1; have x3 := congrArg V3.z h1
    have y1 := congrArg V3.x h2; have y2 := congrArg V3.y h2; have y3 := congrArg V3.z h2
    simp only [V3.cross, V3.zero_x, V3.zero_y, V3.zero_z] at x1 x2 x3 y1 y2 y3
    have hn : (formZ T).x ≠ 0 ∨ (formZ T).y ≠ 0 ∨ (formZ T).z ≠ 0 := by
      by_contra hall
      push Not at hall
      exact hz (V3.ext hall.1 hall.2.1 hall.2.2)
    ext <;> simp only [V3.cross, V3.zero_x, V3.zero_y, V3.zero_z]
    all_goals
      rcases hn with h | h | h
      all_goals
        apply mul_left_cancel₀ h
        grind
  have m1 := congrArg V3.z hx.1
  have m2 := congrArg V3.z hx.2
  have m3 := congrArg V3.z par
  simp only [V3.cross, V3.zero_z, formX, formY, formZ] at m1 m2 m3
  have : (1 : ℝ) = 0 := by
    calc (1 : ℝ) = (T.R.m00 * T.R.m00 + T.R.m10 * T.R.m10 + T.R.m20 * T.R.m20) * (T.R.m01 * T.R.m01 + T.R.m11 * T.R.m11 + T.R.m21 * T.R.m21) -
          (T.R.m00 * T.R.m01 + T.R.m10 * T.R.m11 + T.R.m20 * T.R.m21) ^ 2 := by rw [c1, c2, c4]; ring
      _ = (T.R.m00 * T.R.m11 - T.R.m01 * T.R.m10) ^ 2 + (T.R.m00 * T.R.m21 - T.R.m01 * T.R.m20) ^ 2 +
          (T.R.m10 * T.R.m21 - T.R.m11 * T.R.m20) ^ 2 := by ring
      _ = 0 := by rw [m1, m2, m3]; ring
  exact one_ne_zero this

theorem form_dichotomy {T : Iso} (hT : T.IsRigid) (hz : formZ T ≠ 0) (W : V3) :
    (∃ v, (formZ T).dot v = 0 ∧ ((formX T).dot v ≠ 0 ∨ (formY T).dot v ≠ 0) ∧ W.dot v ≠ 0) ∨ ∃ w, W = V3.smul w (formZ T) := by
  by_cases h : ∃ v, (formZ T).dot v = 0 ∧ ((formX T).dot v ≠ 0 ∨ (formY T).dot v ≠ 0) ∧ W.dot v ≠ 0
  · exact .inl h
  right
  push Not at h
  obtain ⟨v0, z0, g0⟩ := form_independent hT hz
  have add : ∀ a b c : V3, a.dot (b + c) = a.dot b + a.dot c := fun a b c => by simp only [V3.dot, V3.add_x, V3.add_y, V3.add_z]; ring
  have all : ∀ v, (formZ T).dot v = 0 → W.dot v = 0 := by
    intro v hv
    by_cases hg : (formX T).dot v ≠ 0 ∨ (formY T).dot v ≠ 0
    · exact h v hv hg
    · push Not at hg
      have := h (v + v0) (by rw [add, hv, z0, add_zero]) (by rw [add, add, hg.1, hg.2, zero_add, zero_add]; exact g0)
      rw [add, h v0 z0 g0, add_zero] at this
      exact this
  have hn : (formZ T).dot (formZ T) ≠ 0 := fun h0 => hz (V3.normSq_eq_zero.1 h0)
  refine ⟨W.dot (formZ T) / (formZ T).dot (formZ T), ?_⟩
  have key : ∀ e : V3, W.dot e * (formZ T).dot (formZ T) = W.dot (formZ T) * (formZ T).dot e := by
    intro e
    have := all (V3.smul ((formZ T).dot (formZ T)) e - V3.smul ((formZ T).dot e) (formZ T)) (by
      simp only [V3.dot, V3.smul, V3.sub_x, V3.sub_y, V3.sub_z]; ring)
    simp only [V3.dot, V3.smul, V3.sub_x, V3.sub_y, V3.sub_z] at this ⊢
    linear_combination this
  have k1 := key ⟨1, 0, 0⟩
  have k2 := key ⟨0, 1, 0⟩
  have k3 := key ⟨0, 0, 1⟩
  ext <;> simp only [V3.smul] <;> rw [div_mul_eq_mul_div, eq_div_iff hn]
  · simpa [V3.dot] using k1
  · simpa [V3.dot] using k2
  · simpa [V3.dot] using k3

/-! ### Polynomials that vanish on a grid -/

/-- `f` is a polynomial function of degree at most `n`. -/
def PolyLe (n : ℕ) (f : ℝ → ℝ) : Prop := ∃ p : Polynomial ℝ, p.natDegree ≤ n ∧ ∀ t, f t = p.eval t

theorem PolyLe.mul {m n : ℕ} {f g : ℝ → ℝ} (hf : PolyLe m f) (hg : PolyLe n g) : PolyLe (m + n) fun t => f t * g t := by
  obtain ⟨p, hp, ep⟩ := hf
  obtain ⟨q, hq, eq⟩ := hg
  exact ⟨p * q, Polynomial.natDegree_mul_le.trans (add_le_add hp hq), fun t => by simp only [Polynomial.eval_mul, ep, eq]⟩

theorem PolyLe.add {n : ℕ} {f g : ℝ → ℝ} (hf : PolyLe n f) (hg : PolyLe n g) : PolyLe n fun t => f t + g t := by
  obtain ⟨p, hp, ep⟩ := hf
  obtain ⟨q, hq, eq⟩ := hg
  exact ⟨p + q, (Polynomial.natDegree_add_le _ _).trans (max_le hp hq), fun t => by simp only [Polynomial.eval_add, ep, eq]⟩

theorem PolyLe.sub {n : ℕ} {f g : ℝ → ℝ} (hf : PolyLe n f) (hg : PolyLe n g) : PolyLe n fun t => f t - g t := by
  obtain ⟨p, hp, ep⟩ := hf
  obtain ⟨q, hq, eq⟩ := hg
  exact ⟨p - q, (Polynomial.natDegree_sub_le _ _).trans (max_le hp hq), fun t => by simp only [Polynomial.eval_sub, ep, eq]⟩

theorem PolyLe.const (a : ℝ) : PolyLe 0 fun _ => a := ⟨Polynomial.C a, by simp, by simp⟩

theorem PolyLe.affine (a b : ℝ) : PolyLe 1 fun t => a * t + b :=
  ⟨Polynomial.C a * Polynomial.X + Polynomial.C b, by compute_degree, by simp⟩

theorem PolyLe.smul {n : ℕ} {f : ℝ → ℝ} (a : ℝ) (hf : PolyLe n f) : PolyLe n fun t => a * f t := by
  have := (PolyLe.const a).mul hf
  rwa [zero_add] at this

theorem PolyLe.pow {n : ℕ} {f : ℝ → ℝ} (hf : PolyLe n f) (k : ℕ) : PolyLe (k * n) fun t => f t ^ k := by
  obtain ⟨p, hp, ep⟩ := hf
  exact ⟨p ^ k, Polynomial.natDegree_pow_le.trans (Nat.mul_le_mul_left _ hp), fun t => by simp only [Polynomial.eval_pow, ep]⟩

theorem PolyLe.zero {n : ℕ} {f : ℝ → ℝ} (hf : PolyLe n f) {S : Finset ℝ} (hS : n < S.card) (h : ∀ t ∈ S, f t = 0) (t : ℝ) : f t = 0 := by
  obtain ⟨p, hp, ep⟩ := hf
  have : p = 0 := Polynomial.eq_zero_of_natDegree_lt_card_of_eval_eq_zero' p S (fun i hi => by rw [← ep]; exact h i hi) (by omega)
  rw [ep, this, Polynomial.eval_zero]

theorem PolyLe.lens {x y z : ℝ → ℝ} (hx : PolyLe 1 x) (hy : PolyLe 1 y) (hz : PolyLe 1 z) (k1 k2 p1 p2 k3 : ℝ) :
    PolyLe 7 (fun t => lensX k1 k2 p1 p2 k3 (x t) (y t) (z t)) ∧ PolyLe 7 (fun t => lensY k1 k2 p1 p2 k3 (x t) (y t) (z t)) := by
  have hR : PolyLe 2 fun t => x t ^ 2 + y t ^ 2 := (hx.pow 2).add (hy.pow 2)
  have hrad : PolyLe 6 fun t => z t ^ 6 + k1 * (x t ^ 2 + y t ^ 2) * z t ^ 4 + k2 * (x t ^ 2 + y t ^ 2) ^ 2 * z t ^ 2 + k3 * (x t ^ 2 + y t ^ 2) ^ 3 :=
    (((hz.pow 6).add ((hR.smul k1).mul (hz.pow 4))).add (((hR.pow 2).smul k2).mul (hz.pow 2))).add ((hR.pow 3).smul k3)
  refine ⟨(hx.mul hrad).add (PolyLe.mul (m := 2) (n := 5) ?_ (hz.pow 5)), (hy.mul hrad).add (PolyLe.mul (m := 2) (n := 5) ?_ (hz.pow 5))⟩
  · exact PolyLe.add ((hx.smul (2 * p1)).mul hy) ((((hx.pow 2).smul 3).add (hy.pow 2)).smul p2)
  · exact PolyLe.add (((hx.pow 2).add ((hy.pow 2).smul 3)).smul p1) ((hx.smul (2 * p2)).mul hy)

theorem grid_zero {G : ℝ → ℝ → ℝ} {n : ℕ} (ha : ∀ b, PolyLe n fun a => G a b) (hb : ∀ a, PolyLe n (G a)) {as bs : Finset ℝ}
    (hca : n < as.card) (hcb : n < bs.card) (h : ∀ a ∈ as, ∀ b ∈ bs, G a b = 0) (a b : ℝ) : G a b = 0 :=
  (hb a).zero hcb (fun b' hb' => (ha b').zero hca (fun a' ha' => h a' ha' b' hb') a) b

theorem hom_zero {H : V3 → ℝ} {n : ℕ} (hc : ∀ a b, Continuous fun c => H ⟨a, b, c⟩)
    (hh : ∀ c v, H (V3.smul c v) = c ^ n * H v) (h1 : ∀ a b, H ⟨a, b, 1⟩ = 0) (v : V3) : H v = 0 := by
  have hne : ∀ a b c : ℝ, c ≠ 0 → H ⟨a, b, c⟩ = 0 := by
    intro a b c h
    have := hh c ⟨a / c, b / c, 1⟩
    rw [h1, mul_zero] at this
    rw [← this]
    congr 1
    ext <;> simp only [V3.smul] <;> field_simp
  by_cases hv : v.z = 0
  · have := at_zero (hc v.x v.y) fun t ht => hne _ _ t ht
    have e : v = ⟨v.x, v.y, 0⟩ := V3.ext rfl rfl hv
    rw [e]
    exact this
  · exact hne v.x v.y v.z hv

theorem dot_a (F : V3) (b : ℝ) : PolyLe 1 fun a => F.dot ⟨a, b, 1⟩ := by
  have := PolyLe.affine F.x (F.y * b + F.z)
  convert this using 2
  simp only [V3.dot]; ring

theorem dot_b (F : V3) (a : ℝ) : PolyLe 1 fun b => F.dot ⟨a, b, 1⟩ := by
  have := PolyLe.affine F.y (F.x * a + F.z)
  convert this using 2
  simp only [V3.dot]; ring

theorem dot_cont (F : V3) (a b : ℝ) : Continuous fun c => F.dot ⟨a, b, c⟩ := by
  simp only [V3.dot]; fun_prop

theorem dot_smul' (F v : V3) (c : ℝ) : F.dot (V3.smul c v) = c * F.dot v := by
  simp only [V3.dot, V3.smul]; ring

theorem dot_line (F v e : V3) (t : ℝ) : F.dot (v + V3.smul t e) = F.dot v + t * F.dot e := by
  simp only [V3.dot, V3.smul, V3.add_x, V3.add_y, V3.add_z]; ring

/-- What two pinholes with and without distortion see on a grid of nine by nine points, they see everywhere. -/
theorem grid_nine {k1 k2 p1 p2 k3 f g cx cy : ℝ} {X Y Z W L M : V3} {as bs : Finset ℝ} (ha : 8 < as.card) (hb : 8 < bs.card)
    (h : ∀ a ∈ as, ∀ b ∈ bs,
      (f * lensX k1 k2 p1 p2 k3 (X.dot ⟨a, b, 1⟩) (Y.dot ⟨a, b, 1⟩) (Z.dot ⟨a, b, 1⟩) + cx * Z.dot ⟨a, b, 1⟩ ^ 7) * W.dot ⟨a, b, 1⟩ =
        L.dot ⟨a, b, 1⟩ * Z.dot ⟨a, b, 1⟩ ^ 7 ∧
      (g * lensY k1 k2 p1 p2 k3 (X.dot ⟨a, b, 1⟩) (Y.dot ⟨a, b, 1⟩) (Z.dot ⟨a, b, 1⟩) + cy * Z.dot ⟨a, b, 1⟩ ^ 7) * W.dot ⟨a, b, 1⟩ =
        M.dot ⟨a, b, 1⟩ * Z.dot ⟨a, b, 1⟩ ^ 7) (v : V3) :
    (f * lensX k1 k2 p1 p2 k3 (X.dot v) (Y.dot v) (Z.dot v) + cx * Z.dot v ^ 7) * W.dot v = L.dot v * Z.dot v ^ 7 ∧
    (g * lensY k1 k2 p1 p2 k3 (X.dot v) (Y.dot v) (Z.dot v) + cy * Z.dot v ^ 7) * W.dot v = M.dot v * Z.dot v ^ 7 := by
  constructor
  · refine sub_eq_zero.1 (hom_zero (n := 8) (H := fun v => (f * lensX k1 k2 p1 p2 k3 (X.dot v) (Y.dot v) (Z.dot v) + cx * Z.dot v ^ 7) *
      W.dot v - L.dot v * Z.dot v ^ 7) ?_ ?_ ?_ v)
    · intro a b
      have hX := dot_cont X a b; have hY := dot_cont Y a b; have hZ := dot_cont Z a b; have hW := dot_cont W a b; have hL := dot_cont L a b
      simp only [lensX]
      fun_prop
    · intro c v
      simp only [dot_smul', lensX]; ring
    · refine grid_zero (n := 8) ?_ ?_ ha hb fun a ha' b hb' => sub_eq_zero.2 (h a ha' b hb').1
      · intro b
        exact (((((dot_a X b).lens (dot_a Y b) (dot_a Z b) k1 k2 p1 p2 k3).1.smul f).add (((dot_a Z b).pow 7).smul cx)).mul (dot_a W b)).sub
          ((dot_a L b).mul ((dot_a Z b).pow 7))
      · intro a
        exact (((((dot_b X a).lens (dot_b Y a) (dot_b Z a) k1 k2 p1 p2 k3).1.smul f).add (((dot_b Z a).pow 7).smul cx)).mul (dot_b W a)).sub
          ((dot_b L a).mul ((dot_b Z a).pow 7))
  · refine sub_eq_zero.1 (hom_zero (n := 8) (H := fun v => (g * lensY k1 k2 p1 p2 k3 (X.dot v) (Y.dot v) (Z.dot v) + cy * Z.dot v ^ 7) *
      W.dot v - M.dot v * Z.dot v ^ 7) ?_ ?_ ?_ v)
    · intro a b
      have hX := dot_cont X a b; have hY := dot_cont Y a b; have hZ := dot_cont Z a b; have hW := dot_cont W a b; have hL := dot_cont M a b
      simp only [lensY]
      fun_prop
    · intro c v
      simp only [dot_smul', lensY]; ring
    · refine grid_zero (n := 8) ?_ ?_ ha hb fun a ha' b hb' => sub_eq_zero.2 (h a ha' b hb').2
      · intro b
        exact (((((dot_a X b).lens (dot_a Y b) (dot_a Z b) k1 k2 p1 p2 k3).2.smul g).add (((dot_a Z b).pow 7).smul cy)).mul (dot_a W b)).sub
          ((dot_a M b).mul ((dot_a Z b).pow 7))
      · intro a
        exact (((((dot_b X a).lens (dot_b Y a) (dot_b Z a) k1 k2 p1 p2 k3).2.smul g).add (((dot_b Z a).pow 7).smul cy)).mul (dot_b W a)).sub
          ((dot_b M a).mul ((dot_b Z a).pow 7))

/-- A linear form that vanishes off a plane is zero. -/
theorem form_zero {F Z : V3} (hZ : Z ≠ 0) (h : ∀ v, Z.dot v ≠ 0 → F.dot v = 0) : F = 0 := by
  have hn : Z.dot Z ≠ 0 := fun h0 => hZ (V3.normSq_eq_zero.1 h0)
  have all : ∀ v, F.dot v = 0 := by
    intro v
    by_cases hv : Z.dot v = 0
    · have h1 := h (v + V3.smul 1 Z) (by rw [dot_line, hv]; simpa using hn)
      rw [dot_line, h Z hn] at h1
      simpa using h1
    · exact h v hv
  have h1 := all ⟨1, 0, 0⟩
  have h2 := all ⟨0, 1, 0⟩
  have h3 := all ⟨0, 0, 1⟩
  simp only [V3.dot, mul_one, mul_zero, add_zero, zero_add] at h1 h2 h3
  exact V3.ext h1 h2 h3

/-- The plane of the target does not go through the camera: its three coordinates are independent. -/
theorem forms_independent {T : Iso} (hT : T.IsRigid) (hc : T.inv.t.z ≠ 0) {a b c : ℝ}
    (h : V3.smul a (formX T) + V3.smul b (formY T) + V3.smul c (formZ T) = 0) : a = 0 ∧ b = 0 ∧ c = 0 := by
  obtain ⟨c1, c2, c3, c4, c5, c6⟩ := M3.IsRot.cols hT
  have h1 := congrArg V3.x h
  have h2 := congrArg V3.y h
  have h3 := congrArg V3.z h
  simp only [formX, formY, formZ, V3.smul, V3.add_x, V3.add_y, V3.add_z, V3.zero_x, V3.zero_y, V3.zero_z] at h1 h2 h3
  have hrow := hT.1
  -- `n` is the vector `(a, b, c)`; it is a multiple of the third column
  obtain ⟨s, hs⟩ : ∃ s, s = a * T.R.m02 + b * T.R.m12 + c * T.R.m22 := ⟨_, rfl⟩
  have rows : T.R * T.R.tr = 1 := M3.IsRot.mul_tr hT
  have r00 := congrArg M3.m00 rows; have r01 := congrArg M3.m01 rows; have r02 := congrArg M3.m02 rows
  have r11 := congrArg M3.m11 rows; have r12 := congrArg M3.m12 rows; have r22 := congrArg M3.m22 rows
  simp [M3.mul_def, M3.tr, M3.one_def] at r00 r01 r02 r11 r12 r22
  have ea : a = s * T.R.m02 := by
    rw [hs]; linear_combination T.R.m00 * h1 + T.R.m01 * h2 - a * r00 - b * r01 - c * r02
  have eb : b = s * T.R.m12 := by
    rw [hs]; linear_combination T.R.m10 * h1 + T.R.m11 * h2 - a * r01 - b * r11 - c * r12
  have ec : c = s * T.R.m22 := by
    rw [hs]; linear_combination T.R.m20 * h1 + T.R.m21 * h2 - a * r02 - b * r12 - c * r22
  have hs0 : s = 0 := by
    have : s * (T.R.m02 * T.t.x + T.R.m12 * T.t.y + T.R.m22 * T.t.z) = 0 := by
      linear_combination h3 - T.t.x * ea - T.t.y * eb - T.t.z * ec
    refine (mul_eq_zero.1 this).resolve_right fun h0 => hc ?_
    simp only [Iso.inv, M3.mulVec, M3.tr, V3.neg_z]
    linear_combination (-1) * h0
  rw [ea, eb, ec, hs0]
  simp

/-- A camera without distortion and one with distortion that see a grid of nine by nine points of the target at the same pixels. -/
theorem no_distortion {i i' : Intr} {k1 k2 p1 p2 k3 : ℝ} {T T' : Iso} (hT : T.IsRigid) (hT' : T'.IsRigid) (hx : i.fx ≠ 0) (hy : i.fy ≠ 0)
    (hc : T.inv.t.z ≠ 0) {as bs : Finset ℝ} (ha : 9 ≤ as.card) (hb : 9 ≤ bs.card)
    (h : ∀ a ∈ as, ∀ b ∈ bs, (T.apply ⟨a, b, 0⟩).z ≠ 0 ∧ (T'.apply ⟨a, b, 0⟩).z ≠ 0 ∧
      brown i' k1 k2 p1 p2 k3 ((T'.apply ⟨a, b, 0⟩).x / (T'.apply ⟨a, b, 0⟩).z) ((T'.apply ⟨a, b, 0⟩).y / (T'.apply ⟨a, b, 0⟩).z) =
        pinhole i (T.apply ⟨a, b, 0⟩)) :
    k1 = 0 ∧ k2 = 0 ∧ p1 = 0 ∧ p2 = 0 ∧ k3 = 0 := by
  have hgrid := grid_nine (k1 := k1) (k2 := k2) (p1 := p1) (p2 := p2) (k3 := k3) (f := i'.fx) (g := i'.fy) (cx := i'.cx) (cy := i'.cy)
    (X := formX T') (Y := formY T') (Z := formZ T') (W := formZ T) (L := V3.smul i.fx (formX T) + V3.smul i.cx (formZ T))
    (M := V3.smul i.fy (formY T) + V3.smul i.cy (formZ T)) (as := as) (bs := bs) (by omega) (by omega) (by
      intro a ha' b hb'
      obtain ⟨z1, z2, e⟩ := h a ha' b hb'
      rw [form_apply] at z1
      rw [form_apply T'] at z2 e
      rw [form_apply T] at e
      simp only at z1 z2 e
      obtain ⟨l1, l2⟩ := brown_lens i' k1 k2 p1 p2 k3 (x := (formX T').dot ⟨a, b, 1⟩) (y := (formY T').dot ⟨a, b, 1⟩) z2
      rw [e] at l1 l2
      simp only [pinhole] at l1 l2
      rw [← l1, ← l2]
      have dd : ∀ (s t : ℝ) (F G : V3), (V3.smul s F + V3.smul t G).dot ⟨a, b, 1⟩ = s * F.dot ⟨a, b, 1⟩ + t * G.dot ⟨a, b, 1⟩ := by
        intro s t F G; simp only [V3.dot, V3.smul, V3.add_x, V3.add_y, V3.add_z]; ring
      rw [dd, dd]
      constructor <;> field_simp)
  obtain ⟨a0, ha0⟩ := Finset.card_pos.1 (by omega : 0 < as.card)
  obtain ⟨b0, hb0⟩ := Finset.card_pos.1 (by omega : 0 < bs.card)
  have hZ : formZ T' ≠ 0 := by
    intro h0
    have := (h a0 ha0 b0 hb0).2.1
    rw [form_apply, h0] at this
    simp [V3.dot] at this
  have hW : formZ T ≠ 0 := by
    intro h0
    have := (h a0 ha0 b0 hb0).1
    rw [form_apply, h0] at this
    simp [V3.dot] at this
  have foc : ∀ (F : V3) (s c u : ℝ), (∀ v, (u * 0 + c * (formZ T').dot v ^ 7) * (formZ T).dot v =
      (V3.smul s F + V3.smul u (formZ T)).dot v * (formZ T').dot v ^ 7) → V3.smul s F + V3.smul (u - c) (formZ T) = 0 := by
    intro F s c u hv
    refine form_zero hZ fun v hne => ?_
    have := hv v
    have h7 : (formZ T').dot v ^ 7 ≠ 0 := pow_ne_zero _ hne
    apply mul_right_cancel₀ h7
    simp only [V3.dot, V3.smul, V3.add_x, V3.add_y, V3.add_z] at this ⊢
    linear_combination (-1) * this
  have hf : i'.fx ≠ 0 := by
    intro h0
    have := foc (formX T) i.fx i'.cx i.cx fun v => by
      have := (hgrid v).1
      rw [h0, zero_mul] at this
      rw [mul_zero]; exact this
    refine hx (forms_independent hT hc (a := i.fx) (b := 0) (c := i.cx - i'.cx) ?_).1
    rw [← this]
    ext <;> simp [V3.smul]
  have hg : i'.fy ≠ 0 := by
    intro h0
    have := foc (formY T) i.fy i'.cy i.cy fun v => by
      have := (hgrid v).2
      rw [h0, zero_mul] at this
      rw [mul_zero]; exact this
    refine hy (forms_independent hT hc (a := 0) (b := i.fy) (c := i.cy - i'.cy) ?_).2.1
    rw [← this]
    ext <;> simp [V3.smul]
  have hn : (formZ T').dot (formZ T') ≠ 0 := fun h0 => hZ (V3.normSq_eq_zero.1 h0)
  have lc : ∀ F v e : V3, Continuous fun t : ℝ => F.dot (v + V3.smul t e) := fun F v e => by
    simp only [dot_line]; fun_prop
  rcases form_dichotomy hT' hZ (formZ T) with ⟨v0, z0, g0, w0⟩ | ⟨w, hw⟩
  · have at0 : ∀ F : V3, F.dot (v0 + V3.smul 0 (formZ T')) = F.dot v0 := fun F => by rw [dot_line]; ring
    refine peel (f := i'.fx) (g := i'.fy) (cx := i'.cx) (cy := i'.cy) (ζ := (formZ T').dot (formZ T'))
      (x := fun t => (formX T').dot (v0 + V3.smul t (formZ T'))) (y := fun t => (formY T').dot (v0 + V3.smul t (formZ T')))
      (z := fun t => (formZ T').dot (v0 + V3.smul t (formZ T'))) (c := fun t => (formZ T).dot (v0 + V3.smul t (formZ T')))
      (P := fun t => (V3.smul i.fx (formX T) + V3.smul i.cx (formZ T)).dot (v0 + V3.smul t (formZ T')) * (formZ T').dot (formZ T') ^ 7 * t)
      (Q := fun t => (V3.smul i.fy (formY T) + V3.smul i.cy (formZ T)).dot (v0 + V3.smul t (formZ T')) * (formZ T').dot (formZ T') ^ 7 * t)
      (lc _ _ _) (lc _ _ _) (lc _ _ _) ?_ ?_ ?_ hn ?_ ?_ hf hg ?_ ?_
    · have := lc (V3.smul i.fx (formX T) + V3.smul i.cx (formZ T)) v0 (formZ T'); fun_prop
    · have := lc (V3.smul i.fy (formY T) + V3.smul i.cy (formZ T)) v0 (formZ T'); fun_prop
    · intro t; rw [dot_line, z0]; ring
    · simp only [at0]; exact g0
    · simp only [at0]; exact w0
    · intro t
      rw [(hgrid _).1, dot_line (formZ T'), z0]; ring
    · intro t
      rw [(hgrid _).2, dot_line (formZ T'), z0]; ring
  · obtain ⟨v0, z0, g0⟩ := form_independent hT' hZ
    have hw0 : w ≠ 0 := by
      rintro rfl
      apply hW
      rw [hw]
      ext <;> simp [V3.smul]
    have at0 : ∀ F : V3, F.dot (v0 + V3.smul 0 (formZ T')) = F.dot v0 := fun F => by rw [dot_line]; ring
    have wd : ∀ v, (formZ T).dot v = w * (formZ T').dot v := by
      intro v
      conv_lhs => rw [hw]
      simp only [V3.dot, V3.smul]; ring
    -- one factor cancels
    have cancel : ∀ {N L : V3 → ℝ}, (∀ v e, Continuous fun t : ℝ => N (v + V3.smul t e)) → (∀ v e, Continuous fun t : ℝ => L (v + V3.smul t e)) →
        (∀ v, N v * (formZ T).dot v = L v * (formZ T').dot v ^ 7) → ∀ v, N v * w = L v * (formZ T').dot v ^ 6 := by
      intro N L hN hL hv v
      have hne : ∀ v, (formZ T').dot v ≠ 0 → N v * w - L v * (formZ T').dot v ^ 6 = 0 := by
        intro v hv'
        apply mul_right_cancel₀ hv'
        have := hv v
        rw [wd] at this
        linear_combination this
      by_cases hv0 : (formZ T').dot v = 0
      · have h1 := hN v (formZ T')
        have h2 := hL v (formZ T')
        have h3 := lc (formZ T') v (formZ T')
        have := at_zero (h := fun t => N (v + V3.smul t (formZ T')) * w - L (v + V3.smul t (formZ T')) * (formZ T').dot (v + V3.smul t (formZ T')) ^ 6)
          ((h1.mul continuous_const).sub (h2.mul (h3.pow 6))) (fun t ht => hne _ (by rw [dot_line, hv0, zero_add]; exact mul_ne_zero ht hn))
        have e0 : v + V3.smul 0 (formZ T') = v := by ext <;> simp [V3.smul]
        simp only [e0] at this
        exact sub_eq_zero.1 this
      · exact sub_eq_zero.1 (hne v hv0)
    have c1 := cancel (N := fun v => i'.fx * lensX k1 k2 p1 p2 k3 ((formX T').dot v) ((formY T').dot v) ((formZ T').dot v) + i'.cx * (formZ T').dot v ^ 7)
      (L := fun v => (V3.smul i.fx (formX T) + V3.smul i.cx (formZ T)).dot v)
      (by
        intro v e
        have h1 := lc (formX T') v e; have h2 := lc (formY T') v e; have h3 := lc (formZ T') v e
        simp only [lensX]; fun_prop) (fun v e => lc _ v e) fun v => (hgrid v).1
    have c2 := cancel (N := fun v => i'.fy * lensY k1 k2 p1 p2 k3 ((formX T').dot v) ((formY T').dot v) ((formZ T').dot v) + i'.cy * (formZ T').dot v ^ 7)
      (L := fun v => (V3.smul i.fy (formY T) + V3.smul i.cy (formZ T)).dot v)
      (by
        intro v e
        have h1 := lc (formX T') v e; have h2 := lc (formY T') v e; have h3 := lc (formZ T') v e
        simp only [lensY]; fun_prop) (fun v e => lc _ v e) fun v => (hgrid v).2
    refine peel (f := i'.fx) (g := i'.fy) (cx := i'.cx) (cy := i'.cy) (ζ := (formZ T').dot (formZ T'))
      (x := fun t => (formX T').dot (v0 + V3.smul t (formZ T'))) (y := fun t => (formY T').dot (v0 + V3.smul t (formZ T')))
      (z := fun t => (formZ T').dot (v0 + V3.smul t (formZ T'))) (c := fun _ => w)
      (P := fun t => (V3.smul i.fx (formX T) + V3.smul i.cx (formZ T)).dot (v0 + V3.smul t (formZ T')) * (formZ T').dot (formZ T') ^ 6)
      (Q := fun t => (V3.smul i.fy (formY T) + V3.smul i.cy (formZ T)).dot (v0 + V3.smul t (formZ T')) * (formZ T').dot (formZ T') ^ 6)
      (lc _ _ _) (lc _ _ _) continuous_const ?_ ?_ ?_ hn ?_ hw0 hf hg ?_ ?_
    · have := lc (V3.smul i.fx (formX T) + V3.smul i.cx (formZ T)) v0 (formZ T'); fun_prop
    · have := lc (V3.smul i.fy (formY T) + V3.smul i.cy (formZ T)) v0 (formZ T'); fun_prop
    · intro t; rw [dot_line, z0]; ring
    · simp only [at0]; exact g0
    · intro t
      have := c1 (v0 + V3.smul t (formZ T'))
      rw [this, dot_line (formZ T'), z0]; ring
    · intro t
      have := c2 (v0 + V3.smul t (formZ T'))
      rw [this, dot_line (formZ T'), z0]; ring

end RCT
