import Verif.Lemmas.Lens

/-!
Two lenses that agree up to an affine map of the plane.
-/

namespace RCT
open Spec

theorem poly3_zero {c0 c1 c2 c3 : ℝ} (h : ∀ t : ℝ, c0 + c1 * t + c2 * t ^ 2 + c3 * t ^ 3 = 0) : c0 = 0 ∧ c1 = 0 ∧ c2 = 0 ∧ c3 = 0 := by
  have h0 := h 0
  have h1 := h 1
  have h2 := h (-1)
  have h3 := h 2
  norm_num at h0 h1 h2 h3
  refine ⟨?_, ?_, ?_, ?_⟩ <;> linarith

theorem poly7_zero {c0 c2 c4 c5 c6 c7 : ℝ} (h : ∀ t : ℝ, c0 + c2 * t ^ 2 + c4 * t ^ 4 + c5 * t ^ 5 + c6 * t ^ 6 + c7 * t ^ 7 = 0) :
    c0 = 0 ∧ c2 = 0 ∧ c4 = 0 ∧ c5 = 0 ∧ c6 = 0 ∧ c7 = 0 := by
  have h0 := h 0
  have h1 := h 1
  have h2 := h (-1)
  have h3 := h 2
  have h4 := h (-2)
  have h5 := h 3
  norm_num at h0 h1 h2 h3 h4 h5
  refine ⟨?_, ?_, ?_, ?_, ?_, ?_⟩ <;> linarith

/-- A coordinate of the image of a lens is not constant. -/
theorem lensX_not_const {k1 k2 p1 p2 k3 f c : ℝ} (h : ∀ t, f * lensX k1 k2 p1 p2 k3 1 0 t + c * t ^ 7 = 0) : f = 0 := by
  obtain ⟨-, -, -, -, h6, -⟩ := poly7_zero (c0 := f * k3) (c2 := f * k2) (c4 := f * k1) (c5 := f * (3 * p2)) (c6 := f) (c7 := c) fun t => by
    have := h t
    simp only [lensX] at this
    linear_combination this
  exact h6

theorem lensY_not_const {k1 k2 p1 p2 k3 f c : ℝ} (h : ∀ t, f * lensY k1 k2 p1 p2 k3 0 1 t + c * t ^ 7 = 0) : f = 0 := by
  obtain ⟨-, -, -, -, h6, -⟩ := poly7_zero (c0 := f * k3) (c2 := f * k2) (c4 := f * k1) (c5 := f * (3 * p1)) (c6 := f) (c7 := c) fun t => by
    have := h t
    simp only [lensY] at this
    linear_combination this
  exact h6

/-- Leading terms that agree. -/
theorem lead_match {f g f' g' κ κ' a11 a12 a21 a22 : ℝ} {n : ℕ} (hn : n ≠ 0) (hf : f ≠ 0) (hg : g ≠ 0) (hf' : f' ≠ 0) (hg' : g' ≠ 0) (hκ : κ ≠ 0)
    (h1 : ∀ u v, f * (κ * (u * (u ^ 2 + v ^ 2) ^ n)) = f' * (κ' * ((a11 * u + a12 * v) * ((a11 * u + a12 * v) ^ 2 + (a21 * u + a22 * v) ^ 2) ^ n)))
    (h2 : ∀ u v, g * (κ * (v * (u ^ 2 + v ^ 2) ^ n)) = g' * (κ' * ((a21 * u + a22 * v) * ((a11 * u + a12 * v) ^ 2 + (a21 * u + a22 * v) ^ 2) ^ n))) :
    κ' ≠ 0 ∧ a12 = 0 ∧ a21 = 0 ∧ a11 ≠ 0 ∧ a22 ≠ 0 ∧ a11 ^ 2 = a22 ^ 2 := by
  have e1 := h1 1 0
  have e2 := h2 1 0
  have e3 := h1 0 1
  have e4 := h2 0 1
  have e5 := h1 1 1
  norm_num at e1 e2 e3 e4 e5
  have hκ' : κ' ≠ 0 := by
    rintro rfl
    rw [zero_mul, mul_zero] at e1
    exact (mul_ne_zero hf hκ) e1
  have hp : (a11 ^ 2 + a21 ^ 2) ^ n ≠ 0 := by
    intro h0
    rw [h0, mul_zero, mul_zero, mul_zero] at e1
    exact (mul_ne_zero hf hκ) e1
  have hq : (a12 ^ 2 + a22 ^ 2) ^ n ≠ 0 := by
    intro h0
    rw [h0, mul_zero, mul_zero, mul_zero] at e4
    exact (mul_ne_zero hg hκ) e4
  have h21 : a21 = 0 := by
    rcases e2 with h | h | h | h
    · exact absurd h hg'
    · exact absurd h hκ'
    · exact h
    · exact absurd (by rw [h.1, zero_pow h.2]) hp
  have h12 : a12 = 0 := by
    rcases e3 with h | h | h | h
    · exact absurd h hf'
    · exact absurd h hκ'
    · exact h
    · exact absurd (by rw [h.1, zero_pow h.2]) hq
  subst h21 h12
  have h11 : a11 ≠ 0 := by rintro rfl; norm_num at e1; exact (mul_ne_zero hf hκ) (by rcases e1 with h | h <;> simp [h])
  have h22 : a22 ≠ 0 := by rintro rfl; norm_num at e4; exact (mul_ne_zero hg hκ) (by rcases e4 with h | h <;> simp [h])
  refine ⟨hκ', rfl, rfl, h11, h22, ?_⟩
  have hpow : (2 * a11 ^ 2) ^ n = (a11 ^ 2 + a22 ^ 2) ^ n := by
    have hne : f' * κ' * a11 ≠ 0 := mul_ne_zero (mul_ne_zero hf' hκ') h11
    apply mul_left_cancel₀ hne
    rw [mul_pow]
    simp only [add_zero, zero_add, zero_pow (two_ne_zero), ne_eq] at e1 e5
    linear_combination e5 - 2 ^ n * e1
  have := (pow_left_inj₀ (by positivity) (by positivity) hn).1 hpow
  linarith

/-- Leading terms of a lens whose partner has none. -/
theorem lead_zero {f' g' κ' a11 a12 a21 a22 : ℝ} {n : ℕ} (hf' : f' ≠ 0) (hg' : g' ≠ 0) (hA : ¬ (a11 = 0 ∧ a12 = 0 ∧ a21 = 0 ∧ a22 = 0))
    (h1 : ∀ u v, f' * (κ' * ((a11 * u + a12 * v) * ((a11 * u + a12 * v) ^ 2 + (a21 * u + a22 * v) ^ 2) ^ n)) = 0)
    (h2 : ∀ u v, g' * (κ' * ((a21 * u + a22 * v) * ((a11 * u + a12 * v) ^ 2 + (a21 * u + a22 * v) ^ 2) ^ n)) = 0) : κ' = 0 := by
  by_contra hκ
  have key : ∀ u v, a11 * u + a12 * v = 0 ∧ a21 * u + a22 * v = 0 := by
    intro u v
    have e1 := (mul_eq_zero.1 ((mul_eq_zero.1 (h1 u v)).resolve_left hf')).resolve_left hκ
    have e2 := (mul_eq_zero.1 ((mul_eq_zero.1 (h2 u v)).resolve_left hg')).resolve_left hκ
    by_cases h0 : (a11 * u + a12 * v) ^ 2 + (a21 * u + a22 * v) ^ 2 = 0
    · constructor <;> nlinarith [sq_nonneg (a11 * u + a12 * v), sq_nonneg (a21 * u + a22 * v)]
    · exact ⟨(mul_eq_zero.1 e1).resolve_right (pow_ne_zero _ h0), (mul_eq_zero.1 e2).resolve_right (pow_ne_zero _ h0)⟩
  have a := key 1 0
  have b := key 0 1
  norm_num at a b
  exact hA ⟨a.1, b.1, a.2, b.2⟩

theorem lens_hom (k1 k2 p1 p2 k3 x y z c : ℝ) : lensX k1 k2 p1 p2 k3 (c * x) (c * y) (c * z) = c ^ 7 * lensX k1 k2 p1 p2 k3 x y z ∧
    lensY k1 k2 p1 p2 k3 (c * x) (c * y) (c * z) = c ^ 7 * lensY k1 k2 p1 p2 k3 x y z := by
  simp only [lensX, lensY]; constructor <;> ring

/-- Two lenses that agree up to an affine map of the plane, the first of which has radial distortion: of an order above the third, or without tangential
distortion. -/
theorem lens_match {f g cx cy k1 k2 p1 p2 k3 f' g' cx' cy' k1' k2' p1' p2' k3' a11 a12 a21 a22 b1 b2 : ℝ}
    (hf : f ≠ 0) (hg : g ≠ 0) (hf' : f' ≠ 0) (hg' : g' ≠ 0) (hk : k3 ≠ 0 ∨ k2 ≠ 0 ∨ k1 ≠ 0 ∧ p1 = 0 ∧ p2 = 0)
    (h1 : ∀ x y t, f * lensX k1 k2 p1 p2 k3 x y t + cx * t ^ 7 =
      f' * lensX k1' k2' p1' p2' k3' (a11 * x + a12 * y + b1 * t) (a21 * x + a22 * y + b2 * t) t + cx' * t ^ 7)
    (h2 : ∀ x y t, g * lensY k1 k2 p1 p2 k3 x y t + cy * t ^ 7 =
      g' * lensY k1' k2' p1' p2' k3' (a11 * x + a12 * y + b1 * t) (a21 * x + a22 * y + b2 * t) t + cy' * t ^ 7) :
    a12 = 0 ∧ a21 = 0 ∧ b1 = 0 ∧ b2 = 0 ∧ a11 ≠ 0 ∧ a11 ^ 2 = a22 ^ 2 ∧ f = f' * a11 ∧ g = g' * a22 ∧ cx = cx' ∧ cy = cy' ∧
    k1 = k1' * a11 ^ 2 ∧ k2 = k2' * a11 ^ 4 ∧ k3 = k3' * a11 ^ 6 ∧ p1 = a22 * p1' ∧ p2 = a11 * p2' := by
  have hA : ¬ (a11 = 0 ∧ a12 = 0 ∧ a21 = 0 ∧ a22 = 0) := by
    rintro ⟨rfl, rfl, rfl, rfl⟩
    refine hf (lensX_not_const (k1 := k1) (k2 := k2) (p1 := p1) (p2 := p2) (k3 := k3) (c := cx - cx' - f' * lensX k1' k2' p1' p2' k3' b1 b2 1) fun t => ?_)
    have e := h1 1 0 t
    have := (lens_hom k1' k2' p1' p2' k3' b1 b2 1 t).1
    rw [mul_one] at this
    rw [show 0 * 1 + 0 * 0 + b1 * t = t * b1 by ring, show 0 * 1 + 0 * 0 + b2 * t = t * b2 by ring, this] at e
    linear_combination e
  -- what is left once the map is diagonal and keeps the origin
  have fin : a12 = 0 → a21 = 0 → a11 ≠ 0 → a22 ≠ 0 → a11 ^ 2 = a22 ^ 2 → b1 = 0 → b2 = 0 →
      a12 = 0 ∧ a21 = 0 ∧ b1 = 0 ∧ b2 = 0 ∧ a11 ≠ 0 ∧ a11 ^ 2 = a22 ^ 2 ∧ f = f' * a11 ∧ g = g' * a22 ∧ cx = cx' ∧ cy = cy' ∧
      k1 = k1' * a11 ^ 2 ∧ k2 = k2' * a11 ^ 4 ∧ k3 = k3' * a11 ^ 6 ∧ p1 = a22 * p1' ∧ p2 = a11 * p2' := by
    intro z1 z2 n1 n2 hm z3 z4
    subst z1 z2 z3 z4
    obtain ⟨x0, x2, x4, x5, x6, x7⟩ := poly7_zero (c0 := f * k3 - f' * (k3' * a11 ^ 7)) (c2 := f * k2 - f' * (k2' * a11 ^ 5))
      (c4 := f * k1 - f' * (k1' * a11 ^ 3)) (c5 := f * (3 * p2) - f' * (p2' * 3 * a11 ^ 2)) (c6 := f - f' * a11) (c7 := cx - cx') fun t => by
        have := h1 1 0 t
        simp only [lensX] at this
        linear_combination this
    obtain ⟨y0, y2, y4, y5, y6, y7⟩ := poly7_zero (c0 := g * k3 - g' * (k3' * a22 ^ 7)) (c2 := g * k2 - g' * (k2' * a22 ^ 5))
      (c4 := g * k1 - g' * (k1' * a22 ^ 3)) (c5 := g * (3 * p1) - g' * (p1' * 3 * a22 ^ 2)) (c6 := g - g' * a22) (c7 := cy - cy') fun t => by
        have := h2 0 1 t
        simp only [lensY] at this
        linear_combination this
    have ef : f = f' * a11 := by linarith
    have eg : g = g' * a22 := by linarith
    refine ⟨rfl, rfl, rfl, rfl, n1, hm, ef, eg, by linarith, by linarith, ?_, ?_, ?_, ?_, ?_⟩
    · apply mul_left_cancel₀ hf; linear_combination x4 - k1' * a11 ^ 2 * x6
    · apply mul_left_cancel₀ hf; linear_combination x2 - k2' * a11 ^ 4 * x6
    · apply mul_left_cancel₀ hf; linear_combination x0 - k3' * a11 ^ 6 * x6
    · apply mul_left_cancel₀ hg; linear_combination (1 / 3) * y5 - a22 * p1' * y6
    · apply mul_left_cancel₀ hf; linear_combination (1 / 3) * x5 - a11 * p2' * x6
  -- order seven
  have l7x : ∀ u v, f * (k3 * (u * (u ^ 2 + v ^ 2) ^ 3)) =
      f' * (k3' * ((a11 * u + a12 * v) * ((a11 * u + a12 * v) ^ 2 + (a21 * u + a22 * v) ^ 2) ^ 3)) := by
    intro u v; have := h1 u v 0; simp only [lensX] at this; linear_combination this
  have l7y : ∀ u v, g * (k3 * (v * (u ^ 2 + v ^ 2) ^ 3)) =
      g' * (k3' * ((a21 * u + a22 * v) * ((a11 * u + a12 * v) ^ 2 + (a21 * u + a22 * v) ^ 2) ^ 3)) := by
    intro u v; have := h2 u v 0; simp only [lensY] at this; linear_combination this
  by_cases hk3 : k3 = 0
  swap
  · obtain ⟨hκ, z1, z2, n1, n2, hm⟩ := lead_match (n := 3) (by norm_num) hf hg hf' hg' hk3 l7x l7y
    subst z1 z2
    refine fin rfl rfl n1 n2 hm ?_ ?_
    · have := at_zero (h := fun t => f' * ((a11 + b1 * t) * (t ^ 5 + k1' * ((a11 + b1 * t) ^ 2 + (b2 * t) ^ 2) * t ^ 3 +
          k2' * ((a11 + b1 * t) ^ 2 + (b2 * t) ^ 2) ^ 2 * t) + (2 * p1' * (a11 + b1 * t) * (b2 * t) + p2' * (3 * (a11 + b1 * t) ^ 2 + (b2 * t) ^ 2)) * t ^ 4 +
          k3' * (b1 * ((a11 + b1 * t) ^ 2 + (b2 * t) ^ 2) ^ 3 + a11 * (2 * (a11 * b1) + (b1 ^ 2 + b2 ^ 2) * t) *
            (((a11 + b1 * t) ^ 2 + (b2 * t) ^ 2) ^ 2 + ((a11 + b1 * t) ^ 2 + (b2 * t) ^ 2) * a11 ^ 2 + a11 ^ 4))) + cx' * t ^ 6 -
          (f * ((t ^ 5 + k1 * t ^ 3 + k2 * t) + 3 * p2 * t ^ 4) + cx * t ^ 6)) (by fun_prop) fun t ht => by
        have e1 := h1 1 0 t
        have e2 := l7x 1 0
        simp only [lensX] at e1
        apply mul_left_cancel₀ ht
        linear_combination e2 - e1
      have hne : f' * k3' * a11 ^ 6 * 7 ≠ 0 := by positivity
      apply mul_left_cancel₀ hne
      linear_combination this
    · have := at_zero (h := fun t => g' * ((a22 + b2 * t) * (t ^ 5 + k1' * ((b1 * t) ^ 2 + (a22 + b2 * t) ^ 2) * t ^ 3 +
          k2' * ((b1 * t) ^ 2 + (a22 + b2 * t) ^ 2) ^ 2 * t) + (2 * p2' * (a22 + b2 * t) * (b1 * t) + p1' * (3 * (a22 + b2 * t) ^ 2 + (b1 * t) ^ 2)) * t ^ 4 +
          k3' * (b2 * ((a22 + b2 * t) ^ 2 + (b1 * t) ^ 2) ^ 3 + a22 * (2 * (a22 * b2) + (b1 ^ 2 + b2 ^ 2) * t) *
            (((a22 + b2 * t) ^ 2 + (b1 * t) ^ 2) ^ 2 + ((a22 + b2 * t) ^ 2 + (b1 * t) ^ 2) * a22 ^ 2 + a22 ^ 4))) + cy' * t ^ 6 -
          (g * ((t ^ 5 + k1 * t ^ 3 + k2 * t) + 3 * p1 * t ^ 4) + cy * t ^ 6)) (by fun_prop) fun t ht => by
        have e1 := h2 0 1 t
        have e2 := l7y 0 1
        simp only [lensY] at e1
        apply mul_left_cancel₀ ht
        linear_combination e2 - e1
      have hne : g' * k3' * a22 ^ 6 * 7 ≠ 0 := by positivity
      apply mul_left_cancel₀ hne
      linear_combination this
  subst hk3
  have hk3' : k3' = 0 := lead_zero (n := 3) hf' hg' hA (fun u v => by rw [← l7x u v]; ring) fun u v => by rw [← l7y u v]; ring
  subst hk3'
  -- order five
  have h15 : ∀ u v t, f * (u * (t ^ 4 + k1 * (u ^ 2 + v ^ 2) * t ^ 2 + k2 * (u ^ 2 + v ^ 2) ^ 2) + (2 * p1 * u * v + p2 * (3 * u ^ 2 + v ^ 2)) * t ^ 3) + cx * t ^ 5 =
      f' * ((a11 * u + a12 * v + b1 * t) * (t ^ 4 + k1' * ((a11 * u + a12 * v + b1 * t) ^ 2 + (a21 * u + a22 * v + b2 * t) ^ 2) * t ^ 2 +
        k2' * ((a11 * u + a12 * v + b1 * t) ^ 2 + (a21 * u + a22 * v + b2 * t) ^ 2) ^ 2) + (2 * p1' * (a11 * u + a12 * v + b1 * t) * (a21 * u + a22 * v + b2 * t) +
        p2' * (3 * (a11 * u + a12 * v + b1 * t) ^ 2 + (a21 * u + a22 * v + b2 * t) ^ 2)) * t ^ 3) + cx' * t ^ 5 := by
    intro u v t
    have ne : ∀ t, t ≠ 0 → f * (u * (t ^ 4 + k1 * (u ^ 2 + v ^ 2) * t ^ 2 + k2 * (u ^ 2 + v ^ 2) ^ 2) + (2 * p1 * u * v + p2 * (3 * u ^ 2 + v ^ 2)) * t ^ 3) + cx * t ^ 5 -
      (f' * ((a11 * u + a12 * v + b1 * t) * (t ^ 4 + k1' * ((a11 * u + a12 * v + b1 * t) ^ 2 + (a21 * u + a22 * v + b2 * t) ^ 2) * t ^ 2 +
        k2' * ((a11 * u + a12 * v + b1 * t) ^ 2 + (a21 * u + a22 * v + b2 * t) ^ 2) ^ 2) + (2 * p1' * (a11 * u + a12 * v + b1 * t) * (a21 * u + a22 * v + b2 * t) +
        p2' * (3 * (a11 * u + a12 * v + b1 * t) ^ 2 + (a21 * u + a22 * v + b2 * t) ^ 2)) * t ^ 3) + cx' * t ^ 5) = 0 := by
      intro t ht
      have := h1 u v t
      simp only [lensX] at this
      have h2 : t ^ 2 ≠ 0 := pow_ne_zero _ ht
      apply mul_left_cancel₀ h2
      linear_combination this
    by_cases ht : t = 0
    · subst ht; exact sub_eq_zero.1 (at_zero (by fun_prop) ne)
    · exact sub_eq_zero.1 (ne t ht)
  have h25 : ∀ u v t, g * (v * (t ^ 4 + k1 * (u ^ 2 + v ^ 2) * t ^ 2 + k2 * (u ^ 2 + v ^ 2) ^ 2) + (p1 * (u ^ 2 + 3 * v ^ 2) + 2 * p2 * u * v) * t ^ 3) + cy * t ^ 5 =
      g' * ((a21 * u + a22 * v + b2 * t) * (t ^ 4 + k1' * ((a11 * u + a12 * v + b1 * t) ^ 2 + (a21 * u + a22 * v + b2 * t) ^ 2) * t ^ 2 +
        k2' * ((a11 * u + a12 * v + b1 * t) ^ 2 + (a21 * u + a22 * v + b2 * t) ^ 2) ^ 2) + (p1' * ((a11 * u + a12 * v + b1 * t) ^ 2 +
        3 * (a21 * u + a22 * v + b2 * t) ^ 2) + 2 * p2' * (a11 * u + a12 * v + b1 * t) * (a21 * u + a22 * v + b2 * t)) * t ^ 3) + cy' * t ^ 5 := by
    intro u v t
    have ne : ∀ t, t ≠ 0 → g * (v * (t ^ 4 + k1 * (u ^ 2 + v ^ 2) * t ^ 2 + k2 * (u ^ 2 + v ^ 2) ^ 2) + (p1 * (u ^ 2 + 3 * v ^ 2) + 2 * p2 * u * v) * t ^ 3) + cy * t ^ 5 -
      (g' * ((a21 * u + a22 * v + b2 * t) * (t ^ 4 + k1' * ((a11 * u + a12 * v + b1 * t) ^ 2 + (a21 * u + a22 * v + b2 * t) ^ 2) * t ^ 2 +
        k2' * ((a11 * u + a12 * v + b1 * t) ^ 2 + (a21 * u + a22 * v + b2 * t) ^ 2) ^ 2) + (p1' * ((a11 * u + a12 * v + b1 * t) ^ 2 +
        3 * (a21 * u + a22 * v + b2 * t) ^ 2) + 2 * p2' * (a11 * u + a12 * v + b1 * t) * (a21 * u + a22 * v + b2 * t)) * t ^ 3) + cy' * t ^ 5) = 0 := by
      intro t ht
      have := h2 u v t
      simp only [lensY] at this
      have h2 : t ^ 2 ≠ 0 := pow_ne_zero _ ht
      apply mul_left_cancel₀ h2
      linear_combination this
    by_cases ht : t = 0
    · subst ht; exact sub_eq_zero.1 (at_zero (by fun_prop) ne)
    · exact sub_eq_zero.1 (ne t ht)
  have l5x : ∀ u v, f * (k2 * (u * (u ^ 2 + v ^ 2) ^ 2)) =
      f' * (k2' * ((a11 * u + a12 * v) * ((a11 * u + a12 * v) ^ 2 + (a21 * u + a22 * v) ^ 2) ^ 2)) := by
    intro u v; have := h15 u v 0; linear_combination this
  have l5y : ∀ u v, g * (k2 * (v * (u ^ 2 + v ^ 2) ^ 2)) =
      g' * (k2' * ((a21 * u + a22 * v) * ((a11 * u + a12 * v) ^ 2 + (a21 * u + a22 * v) ^ 2) ^ 2)) := by
    intro u v; have := h25 u v 0; linear_combination this
  by_cases hk2 : k2 = 0
  swap
  · obtain ⟨hκ, z1, z2, n1, n2, hm⟩ := lead_match (n := 2) (by norm_num) hf hg hf' hg' hk2 l5x l5y
    subst z1 z2
    refine fin rfl rfl n1 n2 hm ?_ ?_
    · have := at_zero (h := fun t => f' * ((a11 + b1 * t) * (t ^ 3 + k1' * ((a11 + b1 * t) ^ 2 + (b2 * t) ^ 2) * t) +
          (2 * p1' * (a11 + b1 * t) * (b2 * t) + p2' * (3 * (a11 + b1 * t) ^ 2 + (b2 * t) ^ 2)) * t ^ 2 +
          k2' * (b1 * ((a11 + b1 * t) ^ 2 + (b2 * t) ^ 2) ^ 2 + a11 * (2 * (a11 * b1) + (b1 ^ 2 + b2 ^ 2) * t) *
            (((a11 + b1 * t) ^ 2 + (b2 * t) ^ 2) + a11 ^ 2))) + cx' * t ^ 4 -
          (f * ((t ^ 3 + k1 * t) + 3 * p2 * t ^ 2) + cx * t ^ 4)) (by fun_prop) fun t ht => by
        have e1 := h15 1 0 t
        have e2 := l5x 1 0
        apply mul_left_cancel₀ ht
        linear_combination e2 - e1
      have hne : f' * k2' * a11 ^ 4 * 5 ≠ 0 := by positivity
      apply mul_left_cancel₀ hne
      linear_combination this
    · have := at_zero (h := fun t => g' * ((a22 + b2 * t) * (t ^ 3 + k1' * ((b1 * t) ^ 2 + (a22 + b2 * t) ^ 2) * t) +
          (2 * p2' * (a22 + b2 * t) * (b1 * t) + p1' * (3 * (a22 + b2 * t) ^ 2 + (b1 * t) ^ 2)) * t ^ 2 +
          k2' * (b2 * ((a22 + b2 * t) ^ 2 + (b1 * t) ^ 2) ^ 2 + a22 * (2 * (a22 * b2) + (b1 ^ 2 + b2 ^ 2) * t) *
            (((a22 + b2 * t) ^ 2 + (b1 * t) ^ 2) + a22 ^ 2))) + cy' * t ^ 4 -
          (g * ((t ^ 3 + k1 * t) + 3 * p1 * t ^ 2) + cy * t ^ 4)) (by fun_prop) fun t ht => by
        have e1 := h25 0 1 t
        have e2 := l5y 0 1
        apply mul_left_cancel₀ ht
        linear_combination e2 - e1
      have hne : g' * k2' * a22 ^ 4 * 5 ≠ 0 := by positivity
      apply mul_left_cancel₀ hne
      linear_combination this
  subst hk2
  have hk2' : k2' = 0 := lead_zero (n := 2) hf' hg' hA (fun u v => by rw [← l5x u v]; ring) fun u v => by rw [← l5y u v]; ring
  subst hk2'
  obtain ⟨hk1, rfl, rfl⟩ : k1 ≠ 0 ∧ p1 = 0 ∧ p2 = 0 := by
    rcases hk with h | h | h
    · exact absurd rfl h
    · exact absurd rfl h
    · exact h
  -- order three
  have h13 : ∀ u v, f * (k1 * (u * (u ^ 2 + v ^ 2) ^ 1)) =
        f' * (k1' * ((a11 * u + a12 * v) * ((a11 * u + a12 * v) ^ 2 + (a21 * u + a22 * v) ^ 2) ^ 1)) ∧
      f' * (k1' * (b1 * ((a11 * u + a12 * v) ^ 2 + (a21 * u + a22 * v) ^ 2) + 2 * (b1 * (a11 * u + a12 * v) + b2 * (a21 * u + a22 * v)) * (a11 * u + a12 * v)) +
        (2 * p1' * (a11 * u + a12 * v) * (a21 * u + a22 * v) + p2' * (3 * (a11 * u + a12 * v) ^ 2 + (a21 * u + a22 * v) ^ 2))) = 0 ∧
      f * u = f' * ((a11 * u + a12 * v) + k1' * ((a11 * u + a12 * v) * (b1 ^ 2 + b2 ^ 2) + 2 * (b1 * (a11 * u + a12 * v) + b2 * (a21 * u + a22 * v)) * b1) +
        (2 * p1' * ((a11 * u + a12 * v) * b2 + (a21 * u + a22 * v) * b1) + p2' * (6 * (a11 * u + a12 * v) * b1 + 2 * (a21 * u + a22 * v) * b2))) := by
    intro u v
    obtain ⟨y1, hy1⟩ : ∃ y1, y1 = a11 * u + a12 * v := ⟨_, rfl⟩
    obtain ⟨y2, hy2⟩ : ∃ y2, y2 = a21 * u + a22 * v := ⟨_, rfl⟩
    rw [← hy1, ← hy2]
    have hne : ∀ t : ℝ, t ≠ 0 → _ := fun t ht => h15 u v t
    rw [← hy1, ← hy2] at hne
    have hall : ∀ t : ℝ, (f * (k1 * (u * (u ^ 2 + v ^ 2) ^ 1)) - f' * (k1' * (y1 * (y1 ^ 2 + y2 ^ 2) ^ 1))) +
        (-(f' * (k1' * (b1 * (y1 ^ 2 + y2 ^ 2) + 2 * (b1 * y1 + b2 * y2) * y1) + (2 * p1' * y1 * y2 + p2' * (3 * y1 ^ 2 + y2 ^ 2))))) * t +
        (f * u - f' * (y1 + k1' * (y1 * (b1 ^ 2 + b2 ^ 2) + 2 * (b1 * y1 + b2 * y2) * b1) + (2 * p1' * (y1 * b2 + y2 * b1) + p2' * (6 * y1 * b1 + 2 * y2 * b2)))) * t ^ 2 +
        (cx - cx' - f' * (b1 + k1' * b1 * (b1 ^ 2 + b2 ^ 2) + (2 * p1' * b1 * b2 + p2' * (3 * b1 ^ 2 + b2 ^ 2)))) * t ^ 3 = 0 := by
      have ne' : ∀ t : ℝ, t ≠ 0 → (f * (k1 * (u * (u ^ 2 + v ^ 2) ^ 1)) - f' * (k1' * (y1 * (y1 ^ 2 + y2 ^ 2) ^ 1))) +
        (-(f' * (k1' * (b1 * (y1 ^ 2 + y2 ^ 2) + 2 * (b1 * y1 + b2 * y2) * y1) + (2 * p1' * y1 * y2 + p2' * (3 * y1 ^ 2 + y2 ^ 2))))) * t +
        (f * u - f' * (y1 + k1' * (y1 * (b1 ^ 2 + b2 ^ 2) + 2 * (b1 * y1 + b2 * y2) * b1) + (2 * p1' * (y1 * b2 + y2 * b1) + p2' * (6 * y1 * b1 + 2 * y2 * b2)))) * t ^ 2 +
        (cx - cx' - f' * (b1 + k1' * b1 * (b1 ^ 2 + b2 ^ 2) + (2 * p1' * b1 * b2 + p2' * (3 * b1 ^ 2 + b2 ^ 2)))) * t ^ 3 = 0 := by
        intro t ht
        have := hne t ht
        have h2 : t ^ 2 ≠ 0 := pow_ne_zero _ ht
        apply mul_left_cancel₀ h2
        linear_combination this
      intro t
      by_cases ht : t = 0
      · subst ht; exact at_zero (by fun_prop) ne'
      · exact ne' t ht
    obtain ⟨e0, e1, e2, -⟩ := poly3_zero hall
    exact ⟨by linarith, by linarith, by linarith⟩
  have h23 : ∀ u v, g * (k1 * (v * (u ^ 2 + v ^ 2) ^ 1)) =
        g' * (k1' * ((a21 * u + a22 * v) * ((a11 * u + a12 * v) ^ 2 + (a21 * u + a22 * v) ^ 2) ^ 1)) ∧
      g' * (k1' * (b2 * ((a11 * u + a12 * v) ^ 2 + (a21 * u + a22 * v) ^ 2) + 2 * (b1 * (a11 * u + a12 * v) + b2 * (a21 * u + a22 * v)) * (a21 * u + a22 * v)) +
        (p1' * ((a11 * u + a12 * v) ^ 2 + 3 * (a21 * u + a22 * v) ^ 2) + 2 * p2' * (a11 * u + a12 * v) * (a21 * u + a22 * v))) = 0 ∧
      g * v = g' * ((a21 * u + a22 * v) + k1' * ((a21 * u + a22 * v) * (b1 ^ 2 + b2 ^ 2) + 2 * (b1 * (a11 * u + a12 * v) + b2 * (a21 * u + a22 * v)) * b2) +
        (p1' * (2 * (a11 * u + a12 * v) * b1 + 6 * (a21 * u + a22 * v) * b2) + 2 * p2' * ((a11 * u + a12 * v) * b2 + (a21 * u + a22 * v) * b1))) := by
    intro u v
    obtain ⟨y1, hy1⟩ : ∃ y1, y1 = a11 * u + a12 * v := ⟨_, rfl⟩
    obtain ⟨y2, hy2⟩ : ∃ y2, y2 = a21 * u + a22 * v := ⟨_, rfl⟩
    rw [← hy1, ← hy2]
    have hne : ∀ t : ℝ, t ≠ 0 → _ := fun t ht => h25 u v t
    rw [← hy1, ← hy2] at hne
    have ne' : ∀ t : ℝ, t ≠ 0 → (g * (k1 * (v * (u ^ 2 + v ^ 2) ^ 1)) - g' * (k1' * (y2 * (y1 ^ 2 + y2 ^ 2) ^ 1))) +
      (-(g' * (k1' * (b2 * (y1 ^ 2 + y2 ^ 2) + 2 * (b1 * y1 + b2 * y2) * y2) + (p1' * (y1 ^ 2 + 3 * y2 ^ 2) + 2 * p2' * y1 * y2)))) * t +
      (g * v - g' * (y2 + k1' * (y2 * (b1 ^ 2 + b2 ^ 2) + 2 * (b1 * y1 + b2 * y2) * b2) + (p1' * (2 * y1 * b1 + 6 * y2 * b2) + 2 * p2' * (y1 * b2 + y2 * b1)))) * t ^ 2 +
      (cy - cy' - g' * (b2 + k1' * b2 * (b1 ^ 2 + b2 ^ 2) + (p1' * (b1 ^ 2 + 3 * b2 ^ 2) + 2 * p2' * b1 * b2))) * t ^ 3 = 0 := by
      intro t ht
      have := hne t ht
      have h2 : t ^ 2 ≠ 0 := pow_ne_zero _ ht
      apply mul_left_cancel₀ h2
      linear_combination this
    obtain ⟨e0, e1, e2, -⟩ := poly3_zero fun t => by
      by_cases ht : t = 0
      · subst ht; exact at_zero (by fun_prop) ne'
      · exact ne' t ht
    exact ⟨by linarith, by linarith, by linarith⟩
  obtain ⟨hκ, z1, z2, n1, n2, hm⟩ := lead_match (n := 1) (by norm_num) hf hg hf' hg' hk1 (fun u v => (h13 u v).1) fun u v => (h23 u v).1
  subst z1 z2
  -- the tangential coefficients of the second lens balance the shift
  have q1 : p2' = -(k1' * b1) := by
    have := (h13 1 0).2.1
    have hne : f' * a11 ^ 2 * 3 ≠ 0 := by positivity
    apply mul_left_cancel₀ hne
    linear_combination this
  have q2 : p1' = -(k1' * b2) := by
    have := (h23 0 1).2.1
    have hne : g' * a22 ^ 2 * 3 ≠ 0 := by positivity
    apply mul_left_cancel₀ hne
    linear_combination this
  subst q1 q2
  obtain ⟨r1, -, r3⟩ := h13 1 0
  obtain ⟨-, -, r4⟩ := h23 1 0
  obtain ⟨s1, -, s3⟩ := h23 0 1
  have hmix : b1 * b2 = 0 := by
    have hne : g' * a11 * k1' * 2 ≠ 0 := by positivity
    apply mul_left_cancel₀ hne
    linear_combination r4
  have hsq : b1 ^ 2 = b2 ^ 2 := by
    have e1 : k1 * (1 - k1' * (3 * b1 ^ 2 + b2 ^ 2)) = k1' * a11 ^ 2 := by
      have hne : f' * a11 ≠ 0 := by positivity
      apply mul_left_cancel₀ hne
      linear_combination r1 - k1 * r3
    have e2 : k1 * (1 - k1' * (b1 ^ 2 + 3 * b2 ^ 2)) = k1' * a22 ^ 2 := by
      have hne : g' * a22 ≠ 0 := by positivity
      apply mul_left_cancel₀ hne
      linear_combination s1 - k1 * s3
    have hne : k1 * k1' * 2 ≠ 0 := by positivity
    apply mul_left_cancel₀ hne
    linear_combination e2 - e1 - k1' * hm
  have hb1 : b1 = 0 := by
    rcases mul_eq_zero.1 hmix with h | h
    · exact h
    · rw [h] at hsq; simpa using hsq
  have hb2 : b2 = 0 := by
    rw [hb1] at hsq
    exact pow_eq_zero_iff (two_ne_zero) |>.1 (by linarith)
  exact fin rfl rfl n1 n2 hm hb1 hb2

end RCT
