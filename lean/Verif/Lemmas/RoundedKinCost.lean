import Verif.Props.RoundedKin
import Verif.Props.RoundedMore
import Verif.Props.Kinematic
import Verif.Spec.KinematicFit
import Verif.Model.RoundedKinCost

/-!
# Rounding errors of poses
-/

namespace RCT

open Spec

namespace Double

variable {D : Double}

/-- A pose known up to `r` and `p` units. -/
structure PoseNear (r p S : ℝ) (T' T : Iso) : Prop where
  rot : RowsNear r T'.R T.R
  x : |T'.t.x - T.t.x| ≤ p * (dblUnit * S)
  y : |T'.t.y - T.t.y| ≤ p * (dblUnit * S)
  z : |T'.t.z - T.t.z| ≤ p * (dblUnit * S)
  size : T.t.norm ≤ S

theorem PoseNear.mono {r p S r' p' : ℝ} {T' T : Iso} (h : PoseNear r p S T' T) (hr : r ≤ r') (hp : p ≤ p') : PoseNear r' p' S T' T := by
  have hS : 0 ≤ S := (V3.norm_nonneg _).trans h.size
  have := mul_le_mul_of_nonneg_right hp (mul_nonneg dblUnit_pos.le hS)
  exact ⟨h.rot.mono hr, h.x.trans this, h.y.trans this, h.z.trans this, h.size⟩

theorem PoseNear.pos {r p S : ℝ} {T' T : Iso} (h : PoseNear r p S T' T) : (T'.t - T.t).norm ≤ 2 * p * (dblUnit * S) :=
  (V3.norm_le_two h.x h.y h.z).trans (by linarith)

/-- A row times a vector plus a number. -/
theorem WF.affine (hD : D.WF) {a a' v v' : V3} {x x' r p β S Q : ℝ} (ha : (a' - a).norm ≤ r * dblUnit) (ha1 : a.norm = 1) (hv : (v' - v).norm ≤ β * (dblUnit * Q))
    (hQ : v.norm ≤ Q) (hx : |x' - x| ≤ p * (dblUnit * S)) (hS : 0 ≤ S) (hy : |a.dot v + x| ≤ S + Q) (hr : 0 ≤ r ∧ r * dblUnit ≤ 1 / 1000)
    (hβ : 0 ≤ β ∧ β * dblUnit ≤ 1 / 1000) (hp : 0 ≤ p ∧ p * dblUnit ≤ 1 / 1000) :
    |D.add (D.dot a' v') x' - (a.dot v + x)| ≤ (101 / 100 * r + β + p + 7) * (dblUnit * (S + Q)) := by
  have hu := dblUnit_pos
  have hu' := dblUnit_le
  have hQ0 : 0 ≤ Q := (V3.norm_nonneg _).trans hQ
  have s1 := hD.scalar_step ha ha1.le hv hQ hr hβ
  have s2 := hD.sum_step (W := S + Q) s1 hx hy
  obtain ⟨hr0, hr1⟩ := hr
  obtain ⟨hβ0, hβ1⟩ := hβ
  obtain ⟨hp0, hp1⟩ := hp
  have f1 : (1001 / 1000 * r + β + 5) * (dblUnit * Q) ≤ 1 / 2 * Q := by
    rw [← mul_assoc]
    exact mul_le_mul_of_nonneg_right (by linarith) hQ0
  have f2 : p * (dblUnit * S) ≤ 1 / 2 * S := by
    rw [← mul_assoc]
    exact mul_le_mul_of_nonneg_right (by linarith) hS
  have f3 : dblUnit * (S + Q + (1001 / 1000 * r + β + 5) * (dblUnit * Q) + p * (dblUnit * S)) ≤ dblUnit * (2 * (S + Q)) :=
    mul_le_mul_of_nonneg_left (by linarith) hu.le
  have g1 : 0 ≤ dblUnit * Q := mul_nonneg hu.le hQ0
  have g2 : 0 ≤ dblUnit * S := mul_nonneg hu.le hS
  have g3 : 0 ≤ r * (dblUnit * Q) := mul_nonneg hr0 g1
  have g4 : 0 ≤ r * (dblUnit * S) := mul_nonneg hr0 g2
  have g5 : 0 ≤ β * (dblUnit * S) := mul_nonneg hβ0 g2
  have g6 : 0 ≤ p * (dblUnit * Q) := mul_nonneg hp0 g1
  linarith

theorem PoseNear.mul (hD : D.WF) {r₁ p₁ S₁ r₂ p₂ S₂ : ℝ} {A A' B B' : Iso} (hA : A.IsRigid) (hB : B.IsRigid) (a : PoseNear r₁ p₁ S₁ A' A)
    (b : PoseNear r₂ p₂ S₂ B' B) (hr₁ : 0 ≤ r₁ ∧ r₁ * dblUnit ≤ 1 / 1000) (hp₁ : 0 ≤ p₁ ∧ p₁ * dblUnit ≤ 1 / 1000) (hr₂ : 0 ≤ r₂ ∧ r₂ * dblUnit ≤ 1 / 1000)
    (hp₂ : 0 ≤ p₂ ∧ p₂ * dblUnit ≤ 1 / 2000) :
    PoseNear (r₁ + 5 * r₂ + 10) (101 / 100 * r₁ + 2 * p₂ + p₁ + 7) (S₁ + S₂) (D.mulIso A' B') (A * B) := by
  have hS : 0 ≤ S₁ := (V3.norm_nonneg _).trans a.size
  obtain ⟨n0, n1, n2⟩ := M3.IsRot.row_norm hA
  have hs : (A * B).t.norm ≤ S₁ + S₂ := by
    have e : (A * B).t = A.R.mulVec B.t + A.t := rfl
    rw [e]
    have := V3.norm_add_le (A.R.mulVec B.t) A.t
    rw [M3.IsRot.norm hA] at this
    have := a.size
    have := b.size
    linarith
  have hβ : 0 ≤ 2 * p₂ ∧ 2 * p₂ * dblUnit ≤ 1 / 1000 := ⟨by linarith, by linarith⟩
  exact ⟨hD.mul_rows hA a.rot hB b.rot.entries hr₁ hr₂,
    hD.affine a.rot.r0 n0 b.pos b.size a.x hS ((V3.abs_x_le (A * B).t).trans hs) hr₁ hβ hp₁,
    hD.affine a.rot.r1 n1 b.pos b.size a.y hS ((V3.abs_y_le (A * B).t).trans hs) hr₁ hβ hp₁,
    hD.affine a.rot.r2 n2 b.pos b.size a.z hS ((V3.abs_z_le (A * B).t).trans hs) hr₁ hβ hp₁, hs⟩

theorem PoseNear.inv (hD : D.WF) {r p S : ℝ} {A A' : Iso} (hA : A.IsRigid) (a : PoseNear r p S A' A)
    (hr : 0 ≤ r ∧ r * dblUnit ≤ 1 / 2000) (hp : 0 ≤ p ∧ p * dblUnit ≤ 1 / 2000) :
    PoseNear (2 * r) (101 / 50 * r + 2 * p + 5) S (D.inv A') A.inv := by
  have hS : 0 ≤ S := (V3.norm_nonneg _).trans a.size
  have hu := dblUnit_pos
  have en := a.rot.entries
  have et : EntriesNear r A'.R.tr A.R.tr := ⟨en.m00, en.m10, en.m20, en.m01, en.m11, en.m21, en.m02, en.m12, en.m22⟩
  have rt := et.rows
  obtain ⟨n0, n1, n2⟩ := M3.IsRot.row_norm (M3.IsRot.tr hA)
  have neg : ∀ v : V3, (-v).norm = v.norm := by intro v; simp [V3.norm, V3.normSq, V3.dot]
  have hs : A.inv.t.norm ≤ S := by
    have e : A.inv.t = -(A.R.tr.mulVec A.t) := rfl
    rw [e, neg, M3.IsRot.norm (M3.IsRot.tr hA)]; exact a.size
  have hβ : 0 ≤ 2 * p ∧ 2 * p * dblUnit ≤ 1 / 1000 := ⟨by linarith, by linarith⟩
  have coord : ∀ {c c' : V3} {y : ℝ}, (c' - c).norm ≤ 2 * r * dblUnit → c.norm = 1 → (-c).dot A.t = y → |D.dot (-c') A'.t - y| ≤ (101 / 50 * r + 2 * p + 5) * (dblUnit * S) := by
    intro c c' y h1 h2 h3
    have e : (-c' - -c).norm = (c' - c).norm := by
      rw [← neg]; congr 1; ext <;> simp <;> ring
    have := hD.scalar_step (a := -c) (a' := -c') (by rw [e]; exact h1) (by rw [neg, h2]) a.pos a.size ⟨by linarith, by linarith⟩ hβ
    rw [h3] at this
    refine this.trans (mul_le_mul_of_nonneg_right (by linarith) (mul_nonneg hu.le hS))
  exact ⟨rt, coord rt.r0 n0 (by simp [M3.row0, M3.tr, V3.dot, Iso.inv, M3.mulVec]; ring), coord rt.r1 n1 (by simp [M3.row1, M3.tr, V3.dot, Iso.inv, M3.mulVec]; ring),
    coord rt.r2 n2 (by simp [M3.row2, M3.tr, V3.dot, Iso.inv, M3.mulVec]; ring), hs⟩

theorem PoseNear.apply (hD : D.WF) {r p S Q : ℝ} {A A' : Iso} {q : V3} (hA : A.IsRigid) (a : PoseNear r p S A' A) (hq : q.norm ≤ Q)
    (hr : 0 ≤ r ∧ r * dblUnit ≤ 1 / 1000) (hp : 0 ≤ p ∧ p * dblUnit ≤ 1 / 1000) :
    (D.applyTo A' q - A.apply q).norm ≤ 2 * (101 / 100 * r + p + 7) * (dblUnit * (S + Q)) ∧ (A.apply q).norm ≤ S + Q := by
  have hS : 0 ≤ S := (V3.norm_nonneg _).trans a.size
  obtain ⟨n0, n1, n2⟩ := M3.IsRot.row_norm hA
  have hs : (A.apply q).norm ≤ S + Q := by
    have e : A.apply q = A.R.mulVec q + A.t := rfl
    rw [e]
    have := V3.norm_add_le (A.R.mulVec q) A.t
    rw [M3.IsRot.norm hA] at this
    have := a.size
    linarith
  have z : (q - q).norm ≤ 0 * (dblUnit * Q) := by
    rw [MulZeroClass.zero_mul]; exact le_of_eq (V3.norm_eq_zero.2 (by ext <;> simp))
  have hβ : 0 ≤ (0 : ℝ) ∧ 0 * dblUnit ≤ 1 / 1000 := ⟨le_rfl, by norm_num⟩
  refine ⟨?_, hs⟩
  have c0 := hD.affine a.rot.r0 n0 z hq a.x hS ((V3.abs_x_le (A.apply q)).trans hs) hr hβ hp
  have c1 := hD.affine a.rot.r1 n1 z hq a.y hS ((V3.abs_y_le (A.apply q)).trans hs) hr hβ hp
  have c2 := hD.affine a.rot.r2 n2 z hq a.z hS ((V3.abs_z_le (A.apply q)).trans hs) hr hβ hp
  have := V3.norm_le_two (v := D.applyTo A' q - A.apply q) c0 c1 c2
  linarith

/-- The rotation matrix of a rotation vector. -/
theorem WF.matrix (hD : D.WF) {aa : V3} {R : M3} (hr : IsRotVec aa R) (h7 : aa.norm ≤ 7) : EntriesNear 195 (D.angleAxisMatrix aa) R := by
  obtain ⟨c, s, u, hm, hc, hs, hx, hy, hz⟩ := hD.angle_axis h7
  have hxx := hD.entry hc hs hx hx hz
  have hxy := hD.entry hc hs hx hy hz
  have hxz := hD.entry hc hs hx hz hy
  have hyy := hD.entry hc hs hy hy hz
  have hyz := hD.entry hc hs hy hz hx
  have hzz := hD.entry hc hs hz hz hz
  have e := turnedBy_eq hr
  have e1 := e ⟨1, 0, 0⟩
  have e2 := e ⟨0, 1, 0⟩
  have e3 := e ⟨0, 0, 1⟩
  simp only [turnedBy, M3.mulVec, V3.ext_iff, V3.add_x, V3.add_y, V3.add_z, V3.smul_x, V3.cross, V3.dot, V3.smul_y, V3.smul_z, mul_one, mul_zero, add_zero, zero_add,
    sub_zero, zero_sub] at e1 e2 e3
  obtain ⟨a0, a1, a2⟩ := e1
  obtain ⟨b0, b1, b2⟩ := e2
  obtain ⟨c0, c1, c2⟩ := e3
  rw [hm]
  have fin : ∀ {v w w' : ℝ}, Near 1 195 3 v w → w = w' → |v - w'| ≤ 195 * dblUnit := by
    intro v w w' h e
    rw [← e]
    have := h.err
    linarith
  exact ⟨fin hxx.1 (by rw [← a0]; ring), fin hxy.2.2 (by rw [← b0]; ring), fin hxz.2.1 (by rw [← c0]; ring),
    fin hxy.2.1 (by rw [← a1]; ring), fin hyy.1 (by rw [← b1]; ring), fin hyz.2.2 (by rw [← c1]; ring),
    fin hxz.2.2 (by rw [← a2]; ring), fin hyz.2.1 (by rw [← b2]; ring), fin hzz.1 (by rw [← c2]; ring)⟩

/-- A tiny rotation is none. -/
theorem WF.none (hD : D.WF) {aa : V3} {R : M3} (hr : IsRotVec aa R) (h : ¬ D.sqrt (D.dot aa aa) > dblEps) : EntriesNear 4 1 R := by
  have hu := dblUnit_pos
  have hu' := dblUnit_le
  have hn : aa.dot aa = aa.norm * aa.norm := (V3.norm_sq aa).symm
  have small : aa.norm ≤ 3 * dblUnit := by
    rcases eq_or_lt_of_le (V3.norm_nonneg aa) with h0 | h0
    · rw [← h0]; linarith
    · have hθ := hD.angle h0 (t := D.dot aa aa) (by rw [← hn]; exact hD.dot_self aa)
      have he : dblEps = 2 * dblUnit := by unfold dblEps dblUnit; norm_num
      rw [he] at h
      have h1 := (abs_le.1 hθ).1
      have h2 : dblUnit * aa.norm ≤ 1 / 100 * aa.norm := mul_le_mul_of_nonneg_right (by linarith) h0.le
      linarith
  have nn := V3.norm_nonneg aa
  have s1 : |Real.sin aa.norm| ≤ 3 * dblUnit := by
    have := Real.abs_sin_sub_sin_le aa.norm 0
    rw [Real.sin_zero, sub_zero, sub_zero, abs_of_nonneg nn] at this
    linarith
  have c1 : |1 - Real.cos aa.norm| ≤ dblUnit := by
    have h1 := Real.one_sub_sq_div_two_le_cos (x := aa.norm)
    have h2 := Real.cos_le_one aa.norm
    rw [abs_of_nonneg (by linarith)]
    nlinarith
  have unit : ∀ {x : ℝ}, |x| ≤ aa.norm → |1 / aa.norm * x| ≤ 1 := by
    intro x hx
    rcases eq_or_lt_of_le nn with h0 | h0
    · rw [← h0]; simp
    · rw [abs_mul, abs_of_pos (by positivity), div_mul_eq_mul_div, one_mul, div_le_one h0]; exact hx
  have ux := unit (V3.abs_x_le aa)
  have uy := unit (V3.abs_y_le aa)
  have uz := unit (V3.abs_z_le aa)
  have e := turnedBy_eq hr
  have e1 := e ⟨1, 0, 0⟩
  have e2 := e ⟨0, 1, 0⟩
  have e3 := e ⟨0, 0, 1⟩
  simp only [turnedBy, M3.mulVec, V3.ext_iff, V3.add_x, V3.add_y, V3.add_z, V3.smul_x, V3.cross, V3.dot, V3.smul_y, V3.smul_z, mul_one, mul_zero, add_zero, zero_add,
    sub_zero, zero_sub] at e1 e2 e3
  obtain ⟨a0, a1, a2⟩ := e1
  obtain ⟨b0, b1, b2⟩ := e2
  obtain ⟨d0, d1, d2⟩ := e3
  have diag : ∀ {x w : ℝ}, |x| ≤ 1 → 1 - w = (1 - Real.cos aa.norm) * (1 - x * x) → |1 - w| ≤ 4 * dblUnit := by
    intro x w hx e
    have : |1 - x * x| ≤ 1 := by
      have := abs_mul_abs_self x
      have := abs_nonneg x
      rw [abs_le]; constructor <;> nlinarith
    rw [e, abs_mul]
    have := mul_le_mul c1 this (abs_nonneg _) hu.le
    linarith
  have off : ∀ {x y z w : ℝ}, |x| ≤ 1 → |y| ≤ 1 → |z| ≤ 1 → 0 - w = (1 - Real.cos aa.norm) * (x * y) + Real.sin aa.norm * z → |0 - w| ≤ 4 * dblUnit := by
    intro x y z w hx hy hz e
    have h1 : |(1 - Real.cos aa.norm) * (x * y)| ≤ dblUnit := by
      rw [abs_mul, abs_mul]
      have := mul_le_mul c1 (mul_le_mul hx hy (abs_nonneg _) zero_le_one) (by positivity) hu.le
      linarith
    have h2 : |Real.sin aa.norm * z| ≤ 3 * dblUnit := by
      rw [abs_mul]
      have := mul_le_mul s1 hz (abs_nonneg _) (by positivity)
      linarith
    rw [e]
    have := abs_add_le ((1 - Real.cos aa.norm) * (x * y)) (Real.sin aa.norm * z)
    linarith
  generalize 1 / aa.norm * aa.x = X at *
  generalize 1 / aa.norm * aa.y = Y at *
  generalize 1 / aa.norm * aa.z = Z at *
  have nX : |-X| ≤ 1 := by rwa [abs_neg]
  have nY : |-Y| ≤ 1 := by rwa [abs_neg]
  have nZ : |-Z| ≤ 1 := by rwa [abs_neg]
  exact ⟨diag ux (by rw [← a0]; ring), off nX uy uz (by rw [← b0]; ring), off nX uz nY (by rw [← d0]; ring),
    off nX uy nZ (by rw [← a1]; ring), diag uy (by rw [← b1]; ring), off nY uz ux (by rw [← d1]; ring),
    off nX uz uy (by rw [← a2]; ring), off nY uz nX (by rw [← b2]; ring), diag uz (by rw [← d2]; ring)⟩

theorem WF.transform (hD : D.WF) {aa t : V3} {T : Iso} (hr : IsRotVec aa T.R) (ht : t = T.t) (h7 : aa.norm ≤ 7) :
    PoseNear 1000 10 T.t.norm (D.kinTransform t aa) T := by
  subst ht
  have hu := dblUnit_pos
  have hu' := dblUnit_le
  have hN := V3.norm_nonneg T.t
  have z : (T.t - T.t).norm ≤ 0 * (dblUnit * T.t.norm) := by
    rw [MulZeroClass.zero_mul]; exact le_of_eq (V3.norm_eq_zero.2 (by ext <;> simp))
  have hβ : 0 ≤ (0 : ℝ) ∧ 0 * dblUnit ≤ 1 / 1000 := ⟨le_rfl, by norm_num⟩
  obtain ⟨m0, m1, m2⟩ := M3.IsRot.one.row_norm
  have coord : ∀ {a a' : V3} {y : ℝ}, (a' - a).norm ≤ 0 * dblUnit → a.norm = 1 → a.dot T.t = y → |y| ≤ T.t.norm →
      |D.add 0 (D.dot a' T.t) - y| ≤ 10 * (dblUnit * T.t.norm) := by
    intro a a' y h1 h2 h3 h4
    have s1 := hD.scalar_step h1 h2.le z le_rfl hβ hβ
    rw [h3] at s1
    have s2 := hD.sum_step (a := 0) (a' := 0) (e := 0) (W := T.t.norm) (by simp) s1 (by rw [zero_add]; exact h4)
    rw [zero_add] at s2
    have : dblUnit * (dblUnit * T.t.norm) ≤ 1 / 100 * (dblUnit * T.t.norm) := mul_le_mul_of_nonneg_right (by linarith) (by positivity)
    have : 0 ≤ dblUnit * T.t.norm := by positivity
    linarith
  have c0 := coord entries_one.r0 m0 (by simp [M3.row0, V3.dot]) (V3.abs_x_le _)
  have c1 := coord entries_one.r1 m1 (by simp [M3.row1, V3.dot]) (V3.abs_y_le _)
  have c2 := coord entries_one.r2 m2 (by simp [M3.row2, V3.dot]) (V3.abs_z_le _)
  unfold Double.kinTransform
  by_cases h : D.sqrt (D.dot aa aa) > dblEps
  · simp only [if_pos h]
    have hm := hD.mul_rows M3.IsRot.one entries_one (IsRotVec.rot hr) (hD.matrix hr h7) hβ ⟨by norm_num, by linarith⟩
    rw [M3.one_mul] at hm
    exact ⟨hm.mono (by norm_num), c0, c1, c2, le_rfl⟩
  · simp only [if_neg h]
    exact ⟨(hD.none hr h).rows.mono (by norm_num), c0, c1, c2, le_rfl⟩

end Double

end RCT
