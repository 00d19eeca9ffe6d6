import Verif.Spec.Noise
import Verif.Lemmas.Near
import Verif.Lemmas.Identify

/-! Bounds of rigid motions from bounds of some points. -/

namespace RCT
open Spec

theorem specSumSq_append (a b : List ℝ) : Spec.sumSq (a ++ b) = Spec.sumSq a + Spec.sumSq b := by
  simp [Spec.sumSq]

theorem sumSq_nn (a : List ℝ) : 0 ≤ Spec.sumSq a := by
  unfold Spec.sumSq
  apply List.sum_nonneg
  intro x hx
  obtain ⟨e, -, rfl⟩ := List.mem_map.1 hx
  positivity

theorem sumSq_diff3 (a b : V3) : Spec.sumSq (diff3 a b) = (a - b).normSq := by
  simp [Spec.sumSq, diff3, V3.normSq, V3.dot]; ring

theorem sumSq_flatMap_mem {α : Type} {l : List α} (g : α → List ℝ) {a : α} (ha : a ∈ l) :
    Spec.sumSq (g a) ≤ Spec.sumSq (l.flatMap g) := by
  induction l with
  | nil => cases ha
  | cons b l ih =>
    rw [List.flatMap_cons, specSumSq_append]
    rcases List.mem_cons.1 ha with rfl | h
    · have := sumSq_nn (l.flatMap g); linarith
    · have := sumSq_nn (g b); have := ih h; linarith

theorem sumSq_flatMap_le {α : Type} (l : List α) (g : α → List ℝ) (k : ℝ) (h : ∀ a ∈ l, Spec.sumSq (g a) ≤ k) :
    Spec.sumSq (l.flatMap g) ≤ l.length * k := by
  induction l with
  | nil => simp [Spec.sumSq]
  | cons b l ih =>
    rw [List.flatMap_cons, specSumSq_append]
    have h1 := ih fun a ha => h a (List.mem_cons_of_mem _ ha)
    have h2 := h b List.mem_cons_self
    push_cast [List.length_cons]
    linarith

theorem diff3_length {α : Type} (l : List α) (g m : α → V3) :
    (l.flatMap fun a => diff3 (g a) (m a)).length = 3 * l.length := by
  induction l with
  | nil => rfl
  | cons b l ih => rw [List.flatMap_cons, List.length_append, ih]; simp [diff3]; ring

theorem meanCost_sumSq {l : List ℝ} {F : ℝ} (h : meanCost l = some F) : Spec.sumSq l = 2 * l.length * F := by
  unfold meanCost at h
  split at h
  · cases h
  · rename_i hne
    have hl : (l.length : ℝ) ≠ 0 := by
      have := List.length_pos_of_ne_nil hne
      exact_mod_cast this.ne'
    rw [Option.some.injEq] at h
    rw [← h]; field_simp

/-- No single residual is larger than the mean cost permits. -/
theorem residual_le {α : Type} {l : List α} {g m : α → V3} {F : ℝ}
    (h : meanCost (l.flatMap fun a => diff3 (g a) (m a)) = some F) {a : α} (ha : a ∈ l) :
    (g a - m a).norm ≤ Real.sqrt (6 * l.length * F) := by
  have h1 := meanCost_sumSq h
  have h2 := sumSq_flatMap_mem (fun a => diff3 (g a) (m a)) ha
  rw [h1, sumSq_diff3, diff3_length] at h2
  unfold V3.norm
  apply Real.sqrt_le_sqrt
  push_cast at h2
  linarith

theorem feature_le {α : Type} {l : List α} {g m t : α → V3} {F noise : ℝ}
    (h : meanCost (l.flatMap fun a => diff3 (g a) (m a)) = some F) (hn : NoiseBelow noise l m t) {a : α} (ha : a ∈ l) :
    (g a - t a).norm ≤ featureBound noise l.length F := by
  have h1 := residual_le h ha
  have h2 := hn a ha
  have h3 := V3.norm_sub_le (g a) (m a) (t a)
  unfold featureBound
  linarith

theorem spanned_aux {S T : Iso} {d : ℝ} (ws : List (ℝ × V3)) (h : ∀ e ∈ ws, (S.apply e.2 - T.apply e.2).norm ≤ d) :
    (S.R.mulVec ⟨(ws.map fun e => e.1 * e.2.x).sum, (ws.map fun e => e.1 * e.2.y).sum, (ws.map fun e => e.1 * e.2.z).sum⟩ -
      T.R.mulVec ⟨(ws.map fun e => e.1 * e.2.x).sum, (ws.map fun e => e.1 * e.2.y).sum, (ws.map fun e => e.1 * e.2.z).sum⟩ +
      V3.smul (ws.map fun e => e.1).sum (S.t - T.t)).norm ≤ (ws.map fun e => |e.1|).sum * d := by
  induction ws with
  | nil =>
    simp only [List.map_nil, List.sum_nil, zero_mul]
    have : S.R.mulVec ⟨0, 0, 0⟩ - T.R.mulVec ⟨0, 0, 0⟩ + V3.smul 0 (S.t - T.t) = 0 := by
      ext <;> simp [M3.mulVec]
    rw [this, norm_zero_v3]
  | cons e ws ih =>
    have h1 := ih fun a ha => h a (List.mem_cons_of_mem _ ha)
    have h2 := h e List.mem_cons_self
    simp only [List.map_cons, List.sum_cons]
    generalize (ws.map fun e => e.1 * e.2.x).sum = X at *
    generalize (ws.map fun e => e.1 * e.2.y).sum = Y at *
    generalize (ws.map fun e => e.1 * e.2.z).sum = Z at *
    generalize (ws.map fun e => e.1).sum = W at *
    have e1 : S.R.mulVec ⟨e.1 * e.2.x + X, e.1 * e.2.y + Y, e.1 * e.2.z + Z⟩ -
        T.R.mulVec ⟨e.1 * e.2.x + X, e.1 * e.2.y + Y, e.1 * e.2.z + Z⟩ + V3.smul (e.1 + W) (S.t - T.t) =
        V3.smul e.1 (S.apply e.2 - T.apply e.2) + (S.R.mulVec ⟨X, Y, Z⟩ - T.R.mulVec ⟨X, Y, Z⟩ + V3.smul W (S.t - T.t)) := by
      ext <;> simp [M3.mulVec, Iso.apply] <;> ring
    rw [e1]
    have h3 := V3.norm_add_le (V3.smul e.1 (S.apply e.2 - T.apply e.2))
      (S.R.mulVec ⟨X, Y, Z⟩ - T.R.mulVec ⟨X, Y, Z⟩ + V3.smul W (S.t - T.t))
    rw [V3.norm_smul] at h3
    have h4 := mul_le_mul_of_nonneg_left h2 (abs_nonneg e.1)
    linarith

/-- Two motions that move some points to within `d` move all points spanned by these to within a multiple of `d`. -/
theorem spanned_le {S T : Iso} {d k : ℝ} (hd : 0 ≤ d) {pts : List V3} (h : ∀ q ∈ pts, (S.apply q - T.apply q).norm ≤ d) {q : V3}
    (hq : Spanned k pts q) : (S.apply q - T.apply q).norm ≤ k * d := by
  obtain ⟨ws, h1, h2, h3, rfl⟩ := hq
  have h4 := spanned_aux ws fun e he => h e.2 (h1 e he)
  rw [h2] at h4
  have e1 : ∀ q : V3, S.R.mulVec q - T.R.mulVec q + V3.smul 1 (S.t - T.t) = S.apply q - T.apply q := by
    intro q; ext <;> simp [M3.mulVec, Iso.apply] <;> ring
  rw [e1] at h4
  exact h4.trans (mul_le_mul_of_nonneg_right h3 hd)

/-- The difference vector of two points is turned differently by at most twice the bound of the points. -/
theorem direction_le {S T : Iso} {d : ℝ} {a b : V3} (ha : (S.apply a - T.apply a).norm ≤ d)
    (hb : (S.apply b - T.apply b).norm ≤ d) : (S.R.mulVec (b - a) - T.R.mulVec (b - a)).norm ≤ 2 * d := by
  have e1 : S.R.mulVec (b - a) - T.R.mulVec (b - a) = (S.apply b - T.apply b) + V3.smul (-1) (S.apply a - T.apply a) := by
    ext <;> simp [M3.mulVec, Iso.apply] <;> ring
  rw [e1]
  have h3 := V3.norm_add_le (S.apply b - T.apply b) (V3.smul (-1) (S.apply a - T.apply a))
  rw [V3.norm_smul, abs_neg, abs_one, one_mul] at h3
  linarith

theorem V3.cross_le (a b : V3) : (a.cross b).norm ≤ a.norm * b.norm := by
  apply V3.norm_le_of_normSq (mul_nonneg a.norm_nonneg b.norm_nonneg)
  have e : (a.norm * b.norm) * (a.norm * b.norm) = a.normSq * b.normSq := by
    rw [← V3.norm_sq a, ← V3.norm_sq b]; ring
  rw [e]
  have : (a.cross b).normSq = a.normSq * b.normSq - a.dot b * a.dot b := by
    simp only [V3.normSq, V3.dot, V3.cross]; ring
  rw [this]
  nlinarith [mul_self_nonneg (a.dot b)]

theorem V3.abs_dot_le (a b : V3) : |a.dot b| ≤ a.norm * b.norm := by
  apply abs_le.2
  have h1 := V3.dot_le a b
  have h2 := V3.dot_le (V3.smul (-1) a) b
  rw [V3.norm_smul, abs_neg, abs_one, one_mul] at h2
  have e : (V3.smul (-1) a).dot b = -a.dot b := by simp only [V3.dot, V3.smul]; ring
  rw [e] at h2
  constructor <;> linarith

theorem V3.norm_sub_comm (a b : V3) : (a - b).norm = (b - a).norm := by
  unfold V3.norm V3.normSq V3.dot
  congr 1
  simp only [V3.sub_x, V3.sub_y, V3.sub_z]
  ring

/-- Coordinates of a vector in the basis of two vectors and their product. -/
theorem v3_expand (a b v : V3) : V3.smul ((a.cross b).normSq) v =
    V3.smul ((v.cross b).dot (a.cross b)) a + V3.smul ((a.cross v).dot (a.cross b)) b + V3.smul (v.dot (a.cross b)) (a.cross b) := by
  ext <;> simp only [V3.smul, V3.normSq, V3.dot, V3.cross, V3.add_x, V3.add_y, V3.add_z] <;> ring

theorem norm_three (a b c : V3) : (a + b + c).norm ≤ a.norm + b.norm + c.norm := by
  have h1 := V3.norm_add_le (a + b) c
  have h2 := V3.norm_add_le a b
  linarith

/-- A rotation that hardly moves two independent vectors hardly moves any vector. -/
theorem rot_near {E : M3} (hE : E.IsRot) {a b : V3} {e : ℝ} (ha : (E.mulVec a - a).norm ≤ e) (hb : (E.mulVec b - b).norm ≤ e)
    (v : V3) : (E.mulVec v - v).norm * (a.cross b).norm ≤ 2 * e * (a.norm + b.norm) * v.norm := by
  by_cases hn : a.cross b = 0
  · rw [hn, norm_zero_v3, mul_zero]
    have he : 0 ≤ e := (V3.norm_nonneg _).trans ha
    have := V3.norm_nonneg a
    have := V3.norm_nonneg b
    have := V3.norm_nonneg v
    positivity
  obtain ⟨n, hnd⟩ : ∃ n, n = a.cross b := ⟨_, rfl⟩
  have hpos : 0 < n.norm := by rw [hnd]; exact V3.norm_pos hn
  have hEn : (E.mulVec n - n).norm ≤ e * (a.norm + b.norm) := by
    have e1 : E.mulVec n - n = (E.mulVec a - a).cross (E.mulVec b) + a.cross (E.mulVec b - b) := by
      rw [hnd, ← hE.cross]
      ext <;> simp only [V3.cross, V3.add_x, V3.add_y, V3.add_z, V3.sub_x, V3.sub_y, V3.sub_z] <;> ring
    rw [e1]
    have h1 := V3.norm_add_le ((E.mulVec a - a).cross (E.mulVec b)) (a.cross (E.mulVec b - b))
    have h2 := V3.cross_le (E.mulVec a - a) (E.mulVec b)
    have h3 := V3.cross_le a (E.mulVec b - b)
    rw [hE.norm] at h2
    have h4 := mul_le_mul_of_nonneg_right ha b.norm_nonneg
    have h5 := mul_le_mul_of_nonneg_left hb a.norm_nonneg
    linarith
  have hexp : V3.smul (n.normSq) (E.mulVec v - v) = V3.smul ((v.cross b).dot n) (E.mulVec a - a) +
      V3.smul ((a.cross v).dot n) (E.mulVec b - b) + V3.smul (v.dot n) (E.mulVec n - n) := by
    have h1 := v3_expand a b v
    rw [← hnd] at h1
    have h2 := congrArg E.mulVec h1
    rw [M3.mulVec_add, M3.mulVec_add, M3.mulVec_smul, M3.mulVec_smul, M3.mulVec_smul, M3.mulVec_smul] at h2
    have hx := congrArg V3.x h1; have hy := congrArg V3.y h1; have hz := congrArg V3.z h1
    have kx := congrArg V3.x h2; have ky := congrArg V3.y h2; have kz := congrArg V3.z h2
    simp only [V3.smul_x, V3.smul_y, V3.smul_z, V3.add_x, V3.add_y, V3.add_z] at hx hy hz kx ky kz
    ext <;> simp only [V3.smul_x, V3.smul_y, V3.smul_z, V3.add_x, V3.add_y, V3.add_z, V3.sub_x, V3.sub_y, V3.sub_z]
    · linear_combination kx - hx
    · linear_combination ky - hy
    · linear_combination kz - hz
  have h1 := congrArg V3.norm hexp
  rw [V3.norm_smul, abs_of_nonneg n.normSq_nonneg, ← V3.norm_sq] at h1
  have h2 := norm_three (V3.smul ((v.cross b).dot n) (E.mulVec a - a)) (V3.smul ((a.cross v).dot n) (E.mulVec b - b))
    (V3.smul (v.dot n) (E.mulVec n - n))
  rw [← h1, V3.norm_smul, V3.norm_smul, V3.norm_smul] at h2
  have k1 : |(v.cross b).dot n| * (E.mulVec a - a).norm ≤ v.norm * b.norm * n.norm * e :=
    mul_le_mul ((V3.abs_dot_le _ _).trans (mul_le_mul_of_nonneg_right (V3.cross_le v b) n.norm_nonneg)) ha (V3.norm_nonneg _)
      (mul_nonneg (mul_nonneg v.norm_nonneg b.norm_nonneg) n.norm_nonneg)
  have k2 : |(a.cross v).dot n| * (E.mulVec b - b).norm ≤ a.norm * v.norm * n.norm * e :=
    mul_le_mul ((V3.abs_dot_le _ _).trans (mul_le_mul_of_nonneg_right (V3.cross_le a v) n.norm_nonneg)) hb (V3.norm_nonneg _)
      (mul_nonneg (mul_nonneg a.norm_nonneg v.norm_nonneg) n.norm_nonneg)
  have k3 : |v.dot n| * (E.mulVec n - n).norm ≤ v.norm * n.norm * (e * (a.norm + b.norm)) :=
    mul_le_mul (V3.abs_dot_le _ _) hEn (V3.norm_nonneg _) (mul_nonneg v.norm_nonneg n.norm_nonneg)
  rw [← hnd]
  have h3 : n.norm * ((E.mulVec v - v).norm * n.norm) ≤ n.norm * (2 * e * (a.norm + b.norm) * v.norm) := by
    linarith
  exact le_of_mul_le_mul_left h3 hpos

theorem turnVector_conj {Z D : M3} (hZ : Z.IsRot) : turnVector (Z * D * Z.tr) = Z.mulVec (turnVector D) := by
  obtain ⟨c1, c2, c3, c4, c5, c6, c7, c8, c9⟩ := hZ.cof
  simp only [turnVector, M3.mulVec, M3.mul_def, M3.tr]
  ext <;> simp only
  · rw [← c1, ← c4, ← c7]; ring
  · rw [← c2, ← c5, ← c8]; ring
  · rw [← c3, ← c6, ← c9]; ring

theorem turnVector_le {R : M3} (hR : R.IsRot) : (turnVector R).norm ≤ 2 := by
  apply V3.norm_le_of_normSq (by norm_num)
  obtain ⟨h1, h2, h3, h4, h5, h6⟩ := hR.cols
  obtain ⟨r1, r2, r3, -⟩ := hR.rows
  have hd : (R.m00 + R.m11 + R.m22) * (R.m00 + R.m11 + R.m22) - 2 * (R.m00 + R.m11 + R.m22) =
      R.m00 * R.m00 + R.m11 * R.m11 + R.m22 * R.m22 + 2 * (R.m01 * R.m10 + R.m02 * R.m20 + R.m12 * R.m21) := by
    obtain ⟨c1, c2, c3, c4, c5, c6, c7, c8, c9⟩ := hR.cof
    linear_combination 2 * c1 + 2 * c5 + 2 * c9
  simp only [V3.normSq, V3.dot, turnVector]
  nlinarith [sq_nonneg (R.m00 + R.m11 + R.m22 - 1)]

/-- A rotation that nearly commutes with another hardly moves its axis. -/
theorem turn_near {Z D : M3} (hZ : Z.IsRot) {r : ℝ}
    (h : ∀ v, ((Z * D).mulVec v - (D * Z).mulVec v).norm ≤ r * v.norm) :
    (Z.mulVec (turnVector D) - turnVector D).norm ≤ 4 * r := by
  rw [← turnVector_conj hZ]
  have h' : ∀ v, ((Z * D * Z.tr).mulVec v - D.mulVec v).norm ≤ r * v.norm := by
    intro v
    have h1 := h (Z.tr.mulVec v)
    rw [hZ.tr.norm, M3.mulVec_mul D Z, ← M3.mulVec_mul Z Z.tr, hZ.mul_tr, M3.one_mulVec, ← M3.mulVec_mul] at h1
    exact h1
  have hr : 0 ≤ r := by
    have := (V3.norm_nonneg _).trans (h' ⟨1, 0, 0⟩)
    have e : (⟨1, 0, 0⟩ : V3).norm = 1 := by simp [V3.norm, V3.normSq, V3.dot]
    rw [e] at this; linarith
  generalize Z * D * Z.tr = G at *
  have e1 : (⟨1, 0, 0⟩ : V3).norm = 1 := by simp [V3.norm, V3.normSq, V3.dot]
  have e2 : (⟨0, 1, 0⟩ : V3).norm = 1 := by simp [V3.norm, V3.normSq, V3.dot]
  have e3 : (⟨0, 0, 1⟩ : V3).norm = 1 := by simp [V3.norm, V3.normSq, V3.dot]
  have c1 := h' ⟨1, 0, 0⟩
  have c2 := h' ⟨0, 1, 0⟩
  have c3 := h' ⟨0, 0, 1⟩
  rw [e1, mul_one] at c1
  rw [e2, mul_one] at c2
  rw [e3, mul_one] at c3
  have a1 := (V3.abs_y_le _).trans c1
  have a2 := (V3.abs_z_le _).trans c1
  have a3 := (V3.abs_x_le _).trans c2
  have a4 := (V3.abs_z_le _).trans c2
  have a5 := (V3.abs_x_le _).trans c3
  have a6 := (V3.abs_y_le _).trans c3
  simp only [M3.mulVec, V3.sub_x, V3.sub_y, V3.sub_z, mul_one, mul_zero, add_zero, zero_add] at a1 a2 a3 a4 a5 a6
  rw [abs_le] at a1 a2 a3 a4 a5 a6
  apply V3.norm_le_of_normSq (by linarith)
  have key : ∀ x : ℝ, -(2 * r) ≤ x → x ≤ 2 * r → x * x ≤ 4 * (r * r) := by intro x h1 h2; nlinarith
  have x1 := key (G.m21 - G.m12 - (D.m21 - D.m12)) (by linarith) (by linarith)
  have x2 := key (G.m02 - G.m20 - (D.m02 - D.m20)) (by linarith) (by linarith)
  have x3 := key (G.m10 - G.m01 - (D.m10 - D.m01)) (by linarith) (by linarith)
  simp only [V3.normSq, V3.dot, turnVector, V3.sub_x, V3.sub_y, V3.sub_z]
  nlinarith [mul_self_nonneg r]

/-- A rotation that nearly commutes with two rotations about different axes is near the identity. -/
theorem commuting_near {Z A B : M3} (hZ : Z.IsRot) (hA : A.IsRot) (hB : B.IsRot) {r : ℝ}
    (h1 : ∀ v, ((Z * A).mulVec v - (A * Z).mulVec v).norm ≤ r * v.norm)
    (h2 : ∀ v, ((Z * B).mulVec v - (B * Z).mulVec v).norm ≤ r * v.norm) (v : V3) :
    (Z.mulVec v - v).norm * ((turnVector A).cross (turnVector B)).norm ≤ 32 * r * v.norm := by
  have k := rot_near hZ (turn_near hZ h1) (turn_near hZ h2) v
  have hr : 0 ≤ 4 * r := (V3.norm_nonneg _).trans (turn_near hZ h1)
  have k1 := turnVector_le hA
  have k2 := turnVector_le hB
  have : 2 * (4 * r) * ((turnVector A).norm + (turnVector B).norm) * v.norm ≤ 2 * (4 * r) * 4 * v.norm := by
    apply mul_le_mul_of_nonneg_right _ v.norm_nonneg
    apply mul_le_mul_of_nonneg_left _ (by linarith)
    linarith
  linarith

/-- A vector that a rotation hardly moves is nearly parallel to its axis. -/
theorem axis_near {M : M3} (hM : M.IsRot) {e : V3} {z : ℝ} (h : (M.mulVec e - e).norm ≤ z) :
    ((turnVector M).cross e).norm ≤ 2 * z := by
  have e1 : (turnVector M).cross e = (M.mulVec e - e) + M.tr.mulVec (M.mulVec e - e) := by
    rw [M3.mulVec_sub, ← M3.mulVec_mul, hM.1, M3.one_mulVec]
    ext <;> simp only [V3.cross, turnVector, M3.mulVec, M3.tr, V3.add_x, V3.add_y, V3.add_z, V3.sub_x, V3.sub_y, V3.sub_z] <;> ring
  rw [e1]
  have h1 := V3.norm_add_le (M.mulVec e - e) (M.tr.mulVec (M.mulVec e - e))
  rw [hM.tr.norm] at h1
  linarith

/-- A vector that two rotations about different axes hardly move is short. -/
theorem fixed_near {A B : M3} (hA : A.IsRot) (hB : B.IsRot) {e : V3} {z : ℝ} (h1 : (A.mulVec e - e).norm ≤ z)
    (h2 : (B.mulVec e - e).norm ≤ z) : e.norm * ((turnVector A).cross (turnVector B)).norm ≤ 12 * z := by
  have hz : 0 ≤ z := (V3.norm_nonneg _).trans h1
  have a1 := axis_near hA h1
  have a2 := axis_near hB h2
  have l1 := turnVector_le hA
  have l2 := turnVector_le hB
  generalize turnVector A = a at *
  generalize turnVector B = b at *
  by_cases hn : a.cross b = 0
  · rw [hn, norm_zero_v3, mul_zero]; linarith
  obtain ⟨n, hnd⟩ : ∃ n, n = a.cross b := ⟨_, rfl⟩
  have hpos : 0 < n.norm := by rw [hnd]; exact V3.norm_pos hn
  have h := v3_expand a b e
  rw [← hnd] at h ⊢
  have a2' : (e.cross b).norm ≤ 2 * z := by
    have : e.cross b = V3.smul (-1) (b.cross e) := by ext <;> simp [V3.cross, V3.smul] <;> ring
    rw [this, V3.norm_smul, abs_neg, abs_one, one_mul]; exact a2
  have hen : |e.dot n| ≤ 2 * (2 * z) := by
    have e1 : e.dot n = -(a.cross e).dot b := by rw [hnd]; simp only [V3.dot, V3.cross]; ring
    rw [e1, abs_neg]
    refine (V3.abs_dot_le _ _).trans ?_
    have := mul_le_mul a1 l2 b.norm_nonneg (by linarith : (0 : ℝ) ≤ 2 * z)
    linarith
  have h1 := congrArg V3.norm h
  rw [V3.norm_smul, abs_of_nonneg n.normSq_nonneg, ← V3.norm_sq] at h1
  have h3 := norm_three (V3.smul ((e.cross b).dot n) a) (V3.smul ((a.cross e).dot n) b) (V3.smul (e.dot n) n)
  rw [← h1, V3.norm_smul, V3.norm_smul, V3.norm_smul] at h3
  have hz2 : 0 ≤ 2 * z * n.norm := mul_nonneg (by linarith) hpos.le
  have k1 : |(e.cross b).dot n| * a.norm ≤ 2 * z * n.norm * 2 :=
    mul_le_mul ((V3.abs_dot_le _ _).trans (mul_le_mul_of_nonneg_right a2' n.norm_nonneg)) l1 a.norm_nonneg hz2
  have k2 : |(a.cross e).dot n| * b.norm ≤ 2 * z * n.norm * 2 :=
    mul_le_mul ((V3.abs_dot_le _ _).trans (mul_le_mul_of_nonneg_right a1 n.norm_nonneg)) l2 b.norm_nonneg hz2
  have k3 := mul_le_mul_of_nonneg_right hen n.norm_nonneg
  have h4 : n.norm * (e.norm * n.norm) ≤ n.norm * (12 * z) := by linarith
  exact le_of_mul_le_mul_left h4 hpos

/-- Two frames in which `E` and `D` nearly agree: `E` nearly commutes with the motion between them. -/
theorem near_comm {E Ca Co D : Iso} (ha : Ca.IsRigid) (ho : Co.IsRigid) {w : V3} {r : ℝ}
    (h1 : (E.apply (Ca.apply w) - Ca.apply (D.apply w)).norm ≤ r)
    (h2 : (E.apply (Co.apply w) - Co.apply (D.apply w)).norm ≤ r) :
    (E.apply ((Ca * Co.inv).apply (Co.apply w)) - (Ca * Co.inv).apply (E.apply (Co.apply w))).norm ≤ 2 * r := by
  have e1 : ∀ x, (Ca * Co.inv).apply (Co.apply x) = Ca.apply x := by
    intro x; rw [← Iso.apply_mul, Iso.mul_assoc, Iso.inv_mul ho, Iso.mul_one]
  have h3 : ((Ca * Co.inv).apply (E.apply (Co.apply w)) - Ca.apply (D.apply w)).norm ≤ r := by
    rw [← e1 (D.apply w), (ha.mul ho.inv).dist]; exact h2
  have h4 := V3.norm_sub_le (E.apply (Ca.apply w)) (Ca.apply (D.apply w)) ((Ca * Co.inv).apply (E.apply (Co.apply w)))
  rw [V3.norm_sub_comm (Ca.apply (D.apply w))] at h4
  rw [e1]
  linarith

/-- The rotation of a transform, without its translation. -/
def Iso.lin (A : Iso) : Iso := ⟨A.R, 0⟩

theorem Iso.lin_apply (A : Iso) (v : V3) : A.lin.apply v = A.R.mulVec v := by
  ext <;> simp [Iso.lin, Iso.apply]

theorem Iso.lin_mul (A B : Iso) : (A * B).lin = A.lin * B.lin := by
  ext1
  · simp [Iso.lin]
  · ext <;> simp [Iso.lin, M3.mulVec]

theorem Iso.lin_inv (A : Iso) : A.inv.lin = A.lin.inv := by
  ext1
  · simp [Iso.lin, Iso.inv]
  · ext <;> simp [Iso.lin, Iso.inv, M3.mulVec]

/-- Poses of the target in the camera that nearly agree: the same for the frames of the mounts. -/
theorem frames_near {X Y X' Y' C : Iso} (hX : X.IsRigid) (hY' : Y'.IsRigid) {q : V3} {r : ℝ}
    (h : ((X'.inv * (C * Y')).apply q - (X.inv * (C * Y)).apply q).norm ≤ r) :
    ((X * X'.inv).apply (C.apply (Y'.apply q)) - C.apply ((Y * Y'.inv).apply (Y'.apply q))).norm ≤ r := by
  rw [← hX.dist] at h
  simp only [← Iso.apply_mul, Iso.mul_assoc, Iso.inv_mul hY', Iso.mul_one] at h ⊢
  simpa only [← Iso.mul_assoc, Iso.mul_inv hX, Iso.one_mul] using h

/-- Two hand-eye calibrations under which the target has nearly the same poses in the camera are close to each other. -/
theorem handEye_near {X Y X' Y' Ca Cb Co : Iso} (hX : X.IsRigid) (hX' : X'.IsRigid) (hY' : Y'.IsRigid)
    (ha : Ca.IsRigid) (hb : Cb.IsRigid) (ho : Co.IsRigid) {r : ℝ}
    (hr : ∀ C ∈ [Ca, Cb, Co], ∀ v, ((X'.inv * (C * Y')).R.mulVec v - (X.inv * (C * Y)).R.mulVec v).norm ≤ r * v.norm) (v : V3) :
    ((X * X'.inv).R.mulVec v - v).norm *
      ((turnVector (Ca * Co.inv).R).cross (turnVector (Cb * Co.inv).R)).norm ≤ 64 * r * v.norm := by
  have hf : ∀ C ∈ [Ca, Cb, Co], ∀ w, ((X * X'.inv).lin.apply (C.lin.apply w) - C.lin.apply ((Y * Y'.inv).lin.apply w)).norm ≤
      r * w.norm := by
    intro C hC w
    have h1 := hr C hC (Y'.R.tr.mulVec w)
    rw [(M3.IsRot.tr hY').norm, ← Iso.lin_apply, ← Iso.lin_apply, Iso.lin_mul, Iso.lin_mul, Iso.lin_mul, Iso.lin_mul,
      Iso.lin_inv, Iso.lin_inv] at h1
    have h2 := frames_near (X := X.lin) (X' := X'.lin) (Y := Y.lin) (Y' := Y'.lin) (C := C.lin) hX hY' h1
    have h3 : Y'.lin.apply (Y'.R.tr.mulVec w) = w := by
      rw [Iso.lin_apply, ← M3.mulVec_mul, M3.IsRot.mul_tr hY', M3.one_mulVec]
    rw [h3] at h2
    rwa [Iso.lin_mul, Iso.lin_mul, Iso.lin_inv, Iso.lin_inv]
  have hc : ∀ {A : Iso}, A.IsRigid → A ∈ [Ca, Cb, Co] → ∀ v, (((X * X'.inv).R * (A * Co.inv).R).mulVec v -
      ((A * Co.inv).R * (X * X'.inv).R).mulVec v).norm ≤ 2 * r * v.norm := by
    intro A hA hm v
    have h1 := near_comm (E := (X * X'.inv).lin) (Ca := A.lin) (Co := Co.lin) (D := (Y * Y'.inv).lin) hA ho
      (hf A hm (Co.R.tr.mulVec v)) (hf Co (by simp) (Co.R.tr.mulVec v))
    have h3 : Co.lin.apply (Co.R.tr.mulVec v) = v := by
      rw [Iso.lin_apply, ← M3.mulVec_mul, M3.IsRot.mul_tr ho, M3.one_mulVec]
    rw [h3, (M3.IsRot.tr ho).norm, ← Iso.lin_inv, ← Iso.lin_mul] at h1
    simp only [Iso.lin_apply, ← M3.mulVec_mul] at h1
    linarith
  have := commuting_near (hX.mul hX'.inv) (ha.mul ho.inv) (hb.mul ho.inv) (hc ha (by simp)) (hc hb (by simp)) v
  linarith

/-- A motion that nearly commutes with two motions about different axes hardly moves a point, if its rotation is small. -/
theorem shift_near {E A B : Iso} (hA : A.IsRigid) (hB : B.IsRigid) {z : V3} {k r l : ℝ}
    (hk : ∀ v, (E.R.mulVec v - v).norm ≤ k * v.norm)
    (h1 : (E.apply (A.apply z) - A.apply (E.apply z)).norm ≤ r) (h2 : (E.apply (B.apply z) - B.apply (E.apply z)).norm ≤ r)
    (hk0 : 0 ≤ k) (l1 : (A.apply z - z).norm ≤ l) (l2 : (B.apply z - z).norm ≤ l) :
    (E.apply z - z).norm * ((turnVector A.R).cross (turnVector B.R)).norm ≤ 12 * (r + k * l) := by
  have key : ∀ {M : Iso}, (E.apply (M.apply z) - M.apply (E.apply z)).norm ≤ r → (M.apply z - z).norm ≤ l →
      (M.R.mulVec (E.apply z - z) - (E.apply z - z)).norm ≤ r + k * l := by
    intro M h hl
    have e1 : M.R.mulVec (E.apply z - z) - (E.apply z - z) =
        (E.R.mulVec (M.apply z - z) - (M.apply z - z)) + V3.smul (-1) (E.apply (M.apply z) - M.apply (E.apply z)) := by
      ext <;> simp [Iso.apply, M3.mulVec, V3.smul] <;> ring
    rw [e1]
    have h3 := V3.norm_add_le (E.R.mulVec (M.apply z - z) - (M.apply z - z))
      (V3.smul (-1) (E.apply (M.apply z) - M.apply (E.apply z)))
    rw [V3.norm_smul, abs_neg, abs_one, one_mul] at h3
    have h4 := hk (M.apply z - z)
    have h5 := mul_le_mul_of_nonneg_left hl hk0
    linarith
  exact fixed_near hA hB (key h1 l1) (key h2 l2)

/-- Two motions that agree up to `d` at a wide triangle turn all vectors alike. -/
theorem turn_of_triangle {S T : Iso} (hS : S.IsRigid) (hT : T.IsRigid) {d size area : ℝ} {a b c : V3}
    (hw : WideTriangle size area a b c) (ha : (S.apply a - T.apply a).norm ≤ d) (hb : (S.apply b - T.apply b).norm ≤ d)
    (hc : (S.apply c - T.apply c).norm ≤ d) (h0 : 0 < area) (v : V3) :
    (S.R.mulVec v - T.R.mulVec v).norm ≤ 8 * d * size / area * v.norm := by
  have hd : 0 ≤ d := (V3.norm_nonneg _).trans ha
  have back : ∀ u : V3, ((T.R.tr * S.R).mulVec u - u).norm = (S.R.mulVec u - T.R.mulVec u).norm := by
    intro u
    rw [← (M3.IsRot.tr hT).norm (S.R.mulVec u - T.R.mulVec u), M3.mulVec_sub, ← M3.mulVec_mul, ← M3.mulVec_mul, hT.1, M3.one_mulVec]
  have h1 := direction_le ha hb
  have h2 := direction_le ha hc
  rw [← back] at h1 h2 ⊢
  have k := rot_near ((M3.IsRot.tr hT).mul hS) h1 h2 v
  have k2 : 2 * (2 * d) * ((b - a).norm + (c - a).norm) * v.norm ≤ 2 * (2 * d) * (2 * size) * v.norm := by
    apply mul_le_mul_of_nonneg_right _ v.norm_nonneg
    apply mul_le_mul_of_nonneg_left _ (by linarith)
    have := hw.ab; have := hw.ac; linarith
  have k3 := mul_le_mul_of_nonneg_left hw.wide (V3.norm_nonneg ((T.R.tr * S.R).mulVec v - v))
  rw [div_mul_eq_mul_div, le_div_iff₀ h0]
  linarith

end RCT
