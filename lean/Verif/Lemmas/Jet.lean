import Verif.Spec.Jet
import Mathlib.Analysis.SpecialFunctions.Sqrt
import Mathlib.Analysis.SpecialFunctions.Trigonometric.Deriv
import Mathlib.Analysis.SpecialFunctions.Complex.Arg
import Mathlib.Analysis.SpecialFunctions.Trigonometric.ArctanDeriv
import Mathlib.Analysis.Calculus.Deriv.Mul
import Mathlib.Analysis.Calculus.Deriv.Inv

/-!
# Calculus with jets
-/

namespace RCT

open Spec Filter Topology

namespace Jet
@[simp] theorem const_a (x : ℝ) : (const x).a = x := rfl
@[simp] theorem const_v (x : ℝ) : (const x).v = some 0 := rfl
@[simp] theorem zero_a : (0 : Jet).a = 0 := rfl
@[simp] theorem zero_v : (0 : Jet).v = some 0 := rfl
@[simp] theorem one_a : (1 : Jet).a = 1 := rfl
@[simp] theorem one_v : (1 : Jet).v = some 0 := rfl
@[simp] theorem add_a (f g : Jet) : (f + g).a = f.a + g.a := rfl
@[simp] theorem sub_a (f g : Jet) : (f - g).a = f.a - g.a := rfl
@[simp] theorem neg_a (f : Jet) : (-f).a = -f.a := rfl
@[simp] theorem mul_a (f g : Jet) : (f * g).a = f.a * g.a := rfl
@[simp] theorem div_a (f g : Jet) : (f / g).a = f.a / g.a := rfl
@[simp] theorem sqrt_a (f : Jet) : f.sqrt.a = Real.sqrt f.a := rfl
@[simp] theorem sin_a (f : Jet) : f.sin.a = Real.sin f.a := rfl
@[simp] theorem cos_a (f : Jet) : f.cos.a = Real.cos f.a := rfl
@[simp] theorem atan2_a (g f : Jet) : (Jet.atan2 g f).a = RCT.atan2 g.a f.a := rfl
@[simp] theorem abs_a (f : Jet) : f.abs.a = |f.a| := by
  unfold abs
  split
  · rename_i h; rw [abs_of_neg h]; rfl
  · rename_i h; rw [abs_of_nonneg (not_lt.1 h)]
theorem add_v (f g : Jet) : (f + g).v = Option.map₂ (· + ·) f.v g.v := rfl
theorem sub_v (f g : Jet) : (f - g).v = Option.map₂ (· - ·) f.v g.v := rfl
theorem neg_v (f : Jet) : (-f).v = f.v.map fun x => -x := rfl
theorem mul_v (f g : Jet) : (f * g).v = Option.map₂ (fun x y => f.a * y + x * g.a) f.v g.v := rfl
end Jet

namespace Spec.Tan
variable {f g : ℝ → ℝ} {s : ℝ} {i j : Jet}

theorem const (c s : ℝ) : Tan (fun _ => c) s (.const c) :=
  ⟨rfl, continuousAt_const, fun v h => by cases h; exact hasDerivAt_const s c⟩

theorem of_deriv {f' : ℝ} (h : HasDerivAt f f' s) : Tan f s ⟨f s, some f'⟩ :=
  ⟨rfl, h.continuousAt, fun v hv => by cases hv; exact h⟩

theorem congr (h : Tan f s j) (he : g =ᶠ[𝓝 s] f) : Tan g s j :=
  ⟨he.self_of_nhds.trans h.val, h.cont.congr he.symm, fun v hv => (h.der v hv).congr_of_eventuallyEq he⟩

theorem add (hf : Tan f s i) (hg : Tan g s j) : Tan (fun u => f u + g u) s (i + j) := by
  refine ⟨by simp [hf.val, hg.val], hf.cont.add hg.cont, fun v hv => ?_⟩
  obtain ⟨x, y, hx, hy, rfl⟩ := Option.map₂_eq_some_iff.1 hv
  exact (hf.der x hx).add (hg.der y hy)

theorem sub (hf : Tan f s i) (hg : Tan g s j) : Tan (fun u => f u - g u) s (i - j) := by
  refine ⟨by simp [hf.val, hg.val], hf.cont.sub hg.cont, fun v hv => ?_⟩
  obtain ⟨x, y, hx, hy, rfl⟩ := Option.map₂_eq_some_iff.1 hv
  exact (hf.der x hx).sub (hg.der y hy)

theorem neg (hf : Tan f s i) : Tan (fun u => -f u) s (-i) := by
  refine ⟨by simp [hf.val], hf.cont.neg, fun v hv => ?_⟩
  obtain ⟨x, hx, rfl⟩ := Option.map_eq_some_iff.1 hv
  exact (hf.der x hx).neg

theorem mul (hf : Tan f s i) (hg : Tan g s j) : Tan (fun u => f u * g u) s (i * j) := by
  refine ⟨by simp [hf.val, hg.val], hf.cont.mul hg.cont, fun v hv => ?_⟩
  obtain ⟨x, y, hx, hy, rfl⟩ := Option.map₂_eq_some_iff.1 hv
  have := (hf.der x hx).mul (hg.der y hy)
  rw [hf.val, hg.val] at this
  rw [add_comm]
  exact this

theorem div (hf : Tan f s i) (hg : Tan g s j) (h0 : j.a ≠ 0) : Tan (fun u => f u / g u) s (i / j) := by
  have hg0 : g s ≠ 0 := by rw [hg.val]; exact h0
  refine ⟨by simp [hf.val, hg.val], hf.cont.div hg.cont hg0, fun v hv => ?_⟩
  have hv' : (if j.a = 0 then none else Option.map₂ (fun x y => (x - i.a / j.a * y) / j.a) i.v j.v) = some v := hv
  rw [if_neg h0] at hv'
  obtain ⟨x, y, hx, hy, rfl⟩ := Option.map₂_eq_some_iff.1 hv'
  have := (hf.der x hx).div (hg.der y hy) hg0
  rw [hf.val, hg.val] at this
  have e : (x - i.a / j.a * y) / j.a = (x * j.a - i.a * y) / j.a ^ 2 := by
    have := h0; field_simp
  rw [e]
  exact this

theorem sqrt (hf : Tan f s i) : Tan (fun u => Real.sqrt (f u)) s i.sqrt := by
  refine ⟨by simp [hf.val], hf.cont.sqrt, fun v hv => ?_⟩
  have hv' : (if i.a ≤ 0 then none else i.v.map fun x => x / (2 * Real.sqrt i.a)) = some v := hv
  split at hv'
  · cases hv'
  · rename_i h0
    obtain ⟨x, hx, rfl⟩ := Option.map_eq_some_iff.1 hv'
    have := (hf.der x hx).sqrt (by rw [hf.val]; exact (not_le.1 h0).ne')
    rw [hf.val] at this
    exact this

theorem sin (hf : Tan f s i) : Tan (fun u => Real.sin (f u)) s i.sin := by
  refine ⟨by simp [hf.val], Real.continuous_sin.continuousAt.comp hf.cont, fun v hv => ?_⟩
  obtain ⟨x, hx, rfl⟩ := Option.map_eq_some_iff.1 hv
  have := (hf.der x hx).sin
  rw [hf.val] at this
  exact this

theorem cos (hf : Tan f s i) : Tan (fun u => Real.cos (f u)) s i.cos := by
  refine ⟨by simp [hf.val], Real.continuous_cos.continuousAt.comp hf.cont, fun v hv => ?_⟩
  obtain ⟨x, hx, rfl⟩ := Option.map_eq_some_iff.1 hv
  have := (hf.der x hx).cos
  rw [hf.val] at this
  exact this

theorem abs (hf : Tan f s i) (h0 : i.a ≠ 0) : Tan (fun u => |f u|) s i.abs := by
  rcases lt_or_gt_of_ne h0 with h | h
  · have he : (fun u => |f u|) =ᶠ[𝓝 s] fun u => -f u := by
      have : ∀ᶠ u in 𝓝 s, f u < 0 := hf.cont.eventually_lt_const (by rw [hf.val]; exact h)
      exact this.mono fun u hu => abs_of_neg hu
    have : i.abs = -i := by unfold Jet.abs; rw [if_pos h]
    rw [this]
    exact hf.neg.congr he
  · have he : (fun u => |f u|) =ᶠ[𝓝 s] f := by
      have : ∀ᶠ u in 𝓝 s, 0 < f u := hf.cont.eventually_const_lt (by rw [hf.val]; exact h)
      exact this.mono fun u hu => abs_of_pos hu
    have : i.abs = i := by unfold Jet.abs; rw [if_neg (not_lt.2 h.le)]
    rw [this]
    exact hf.congr he

/-- In the right half plane. -/
theorem atan2 (hg : Tan g s j) (hf : Tan f s i) (h0 : 0 < i.a) :
    Tan (fun u => RCT.atan2 (g u) (f u)) s (Jet.atan2 j i) := by
  have he : (fun u => RCT.atan2 (g u) (f u)) =ᶠ[𝓝 s] fun u => Real.arctan (g u / f u) := by
    have : ∀ᶠ u in 𝓝 s, 0 < f u := hf.cont.eventually_const_lt (by rw [hf.val]; exact h0)
    refine this.mono fun u hu => ?_
    show Complex.arg ⟨f u, g u⟩ = Real.arctan (g u / f u)
    rw [Complex.arg_of_re_nonneg hu.le, Real.arctan_eq_arcsin]
    congr 1
    show g u / ‖(⟨f u, g u⟩ : ℂ)‖ = _
    have hn : ‖(⟨f u, g u⟩ : ℂ)‖ = f u * Real.sqrt (1 + (g u / f u) ^ 2) := by
      have e : f u * f u + g u * g u = f u ^ 2 * (1 + (g u / f u) ^ 2) := by field_simp
      rw [Complex.norm_def, Complex.normSq_mk, e, Real.sqrt_mul (sq_nonneg _), Real.sqrt_sq hu.le]
    rw [hn, div_div]
  have hf0 : f s ≠ 0 := by rw [hf.val]; exact h0.ne'
  refine ⟨by simp [hf.val, hg.val], ?_, fun v hv => ?_⟩
  · exact (Real.continuous_arctan.continuousAt.comp (hg.cont.div hf.cont hf0)).congr he.symm
  · have hv' : (if i.a = 0 ∧ j.a = 0 then none
        else Option.map₂ (fun dg df => (-j.a * df + i.a * dg) / (i.a * i.a + j.a * j.a)) j.v i.v) = some v := hv
    rw [if_neg (fun h => h0.ne' h.1)] at hv'
    obtain ⟨x, y, hx, hy, rfl⟩ := Option.map₂_eq_some_iff.1 hv'
    have := ((hg.der x hx).div (hf.der y hy) hf0).arctan
    rw [hf.val, hg.val] at this
    refine HasDerivAt.congr_of_eventuallyEq ?_ he
    have hp : 0 < i.a * i.a + j.a * j.a := by nlinarith [mul_self_nonneg j.a, mul_pos h0 h0]
    have hq : 0 < 1 + (j.a / i.a) ^ 2 := by positivity
    have e : (-j.a * y + i.a * x) / (i.a * i.a + j.a * j.a) =
        1 / (1 + (j.a / i.a) ^ 2) * ((x * i.a - j.a * y) / i.a ^ 2) := by
      have := h0.ne'
      have e2 : 1 + (j.a / i.a) ^ 2 = (i.a * i.a + j.a * j.a) / i.a ^ 2 := by field_simp
      rw [e2]
      obtain ⟨n, hn⟩ : ∃ n, n = i.a * i.a + j.a * j.a := ⟨_, rfl⟩
      rw [← hn] at hp ⊢
      have := hp.ne'
      field_simp
      ring
    rw [show (g / f) s = j.a / i.a by simp [hf.val, hg.val]] at this
    rw [e]
    exact this

/-- A comparison that does not hold with equality keeps its outcome nearby. -/
theorem eventually_gt (hf : Tan f s i) {c : ℝ} (h : c < i.a) : ∀ᶠ u in 𝓝 s, c < f u :=
  hf.cont.eventually_const_lt (by rw [hf.val]; exact h)

theorem eventually_lt (hf : Tan f s i) {c : ℝ} (h : i.a < c) : ∀ᶠ u in 𝓝 s, f u < c :=
  hf.cont.eventually_lt_const (by rw [hf.val]; exact h)

end Spec.Tan

end RCT
