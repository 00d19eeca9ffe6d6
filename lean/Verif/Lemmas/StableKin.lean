import Verif.Lemmas.StableStatic
import Verif.Props.KinIdentify
import Mathlib.Order.Filter.AtTopBot.Basic
import Mathlib.Topology.Algebra.Order.LiminfLimsup
import Mathlib.Analysis.SpecialFunctions.Trigonometric.Basic

/-!
# Sequences of poses and the stability of two kinematic chains
-/

namespace RCT

open Spec Filter Topology

/-- A sequence of poses comes arbitrarily close to a pose. -/
def Tends (S : ℕ → Iso) (T : Iso) : Prop := ∀ e : ℝ, 0 < e → ∀ᶠ n in atTop, Spec.Close e (S n) T

theorem Tends.const (T : Iso) : Tends (fun _ => T) T := fun _ he => Eventually.of_forall fun _ => (close_self T).mono he.le

theorem Tends.mul {S S' : ℕ → Iso} {T T' : Iso} (h : Tends S T) (h' : Tends S' T') (hS : ∀ n, (S n).IsRigid) (hT' : T'.IsRigid) :
    Tends (fun n => S n * S' n) (T * T') := fun e he => by
  have hk : 0 < 2 + T'.t.norm := by have := T'.t.norm_nonneg; linarith
  filter_upwards [h (e / (2 + T'.t.norm)) (by positivity), h' (e / (2 + T'.t.norm)) (by positivity)] with n h1 h2
  have := h1.mul (hS n) hT' h2
  rwa [mul_div_cancel₀ _ hk.ne'] at this

theorem Tends.inv {S : ℕ → Iso} {T : Iso} (h : Tends S T) (hS : ∀ n, (S n).IsRigid) (hT : T.IsRigid) :
    Tends (fun n => (S n).inv) T.inv := fun e he => by
  have hk : 0 < 1 + T.inv.t.norm := by have := T.inv.t.norm_nonneg; linarith
  filter_upwards [h (e / (1 + T.inv.t.norm)) (by positivity)] with n h1
  have := h1.inverse (hS n) hT
  rwa [mul_div_cancel₀ _ hk.ne'] at this

theorem tends_of_entries {S : ℕ → Iso} {T : Iso} (h : ∀ i, Tendsto (fun n => (S n).entries i) atTop (𝓝 (T.entries i))) :
    Tends S T := fun e he => by
  have hc : Tendsto (fun n => entryDiff (S n).entries T.entries) atTop (𝓝 0) := by
    have : Tendsto (fun n => ∑ i, ((S n).entries i - T.entries i) ^ 2) atTop (𝓝 (∑ i, (T.entries i - T.entries i) ^ 2)) :=
      tendsto_finsetSum _ fun i _ => ((h i).sub_const _).pow 2
    simpa [entryDiff] using this
  filter_upwards [hc.eventually (ge_mem_nhds (show (0 : ℝ) < (e / 9) ^ 2 by positivity))] with n hn
  have := close_of_entries (by positivity) hn
  exact this.mono (le_of_eq (by ring))

/-- A motion that nearly commutes with two motions about different axes nearly is no motion. -/
theorem commuting_close {A B : Iso} (hA : A.IsRigid) (hB : B.IsRigid) (hax : AxesDiffer A.R B.R) :
    ∃ k d : ℝ, 0 < k ∧ 0 < d ∧ ∀ (E A' A'' B' B'' : Iso) (r : ℝ), E.IsRigid → A''.IsRigid → B''.IsRigid → r ≤ d → Spec.Close r A' A →
      Spec.Close r A'' A → Spec.Close r B' B → Spec.Close r B'' B → E * A' = A'' * E → E * B' = B'' * E → Spec.Close (k * r) E 1 := by
  obtain ⟨n, hn⟩ : ∃ n, n = ((turnVector A.R).cross (turnVector B.R)).norm := ⟨_, rfl⟩
  have hn0 : 0 < n := by
    rw [hn]
    exact lt_of_le_of_ne (V3.norm_nonneg _) fun h => hax (V3.norm_eq_zero.1 h.symm)
  obtain ⟨m, hm⟩ : ∃ m, m = A.t.norm + B.t.norm := ⟨_, rfl⟩
  have hma : A.t.norm ≤ m := by rw [hm]; have := B.t.norm_nonneg; linarith
  have hmb : B.t.norm ≤ m := by rw [hm]; have := A.t.norm_nonneg; linarith
  have hm0 : 0 ≤ m := A.t.norm_nonneg.trans hma
  refine ⟨192 / n + 24 / n * (2 + 192 / n * m), n / 72, by positivity, by positivity, ?_⟩
  intro E A' A'' B' B'' r hE hA'' hB'' hr cA cA' cB cB' e1 e2
  have hr0 := cA.nonneg
  have sub_add : ∀ a b c : V3, a - c = (a - b) + (b - c) := fun a b c => by ext <;> simp
  have rotc : ∀ {M M' M'' : Iso}, Spec.Close r M' M → Spec.Close r M'' M → E * M' = M'' * E → ∀ v,
      ((E.R * M.R).mulVec v - (M.R * E.R).mulVec v).norm ≤ 6 * r * v.norm := by
    intro M M' M'' h1 h2 e v
    have eR : E.R * M'.R = M''.R * E.R := congrArg Iso.R e
    have eq : (E.R * M.R).mulVec v - (M.R * E.R).mulVec v =
        E.R.mulVec (M.R.mulVec v - M'.R.mulVec v) + (M''.R.mulVec (E.R.mulVec v) - M.R.mulVec (E.R.mulVec v)) := by
      have := congrArg (·.mulVec v) eR
      simp only [M3.mulVec_mul] at this ⊢
      rw [M3.mulVec_sub, this, ← sub_add]
    rw [eq]
    have k1 := V3.norm_add_le (E.R.mulVec (M.R.mulVec v - M'.R.mulVec v)) (M''.R.mulVec (E.R.mulVec v) - M.R.mulVec (E.R.mulVec v))
    have k2 := h1.symm.turn v
    have k3 := h2.turn (E.R.mulVec v)
    rw [M3.IsRot.norm hE] at k1 k3
    linarith
  have turn : ∀ v, (E.R.mulVec v - v).norm ≤ 192 / n * r * v.norm := by
    intro v
    have := commuting_near hE hA hB (rotc cA cA' e1) (rotc cB cB' e2) v
    rw [← hn] at this
    rw [div_mul_eq_mul_div, div_mul_eq_mul_div, le_div_iff₀ hn0]
    linarith
  have shift : ∀ {M M' M'' : Iso}, M.t.norm ≤ m → Spec.Close r M' M → Spec.Close r M'' M → E * M' = M'' * E →
      (M.R.mulVec E.t - E.t).norm ≤ 3 * r * E.t.norm + 2 * r + 192 / n * r * m := by
    intro M M' M'' hM h1 h2 e
    have et : E.R.mulVec M'.t + E.t = M''.R.mulVec E.t + M''.t := congrArg Iso.t e
    have eq : M.R.mulVec E.t - E.t = ((M.R.mulVec E.t - M''.R.mulVec E.t) + (E.R.mulVec (M'.t - M.t))) +
        ((E.R.mulVec M.t - M.t) + (M.t - M''.t)) := by
      rw [M3.mulVec_sub]
      have ex := congrArg V3.x et; have ey := congrArg V3.y et; have ez := congrArg V3.z et
      simp only [V3.add_x, V3.add_y, V3.add_z] at ex ey ez
      ext
      · simp only [V3.add_x, V3.sub_x]; linarith
      · simp only [V3.add_y, V3.sub_y]; linarith
      · simp only [V3.add_z, V3.sub_z]; linarith
    rw [eq]
    have k0 := V3.norm_add_le ((M.R.mulVec E.t - M''.R.mulVec E.t) + (E.R.mulVec (M'.t - M.t))) ((E.R.mulVec M.t - M.t) + (M.t - M''.t))
    have k1 := V3.norm_add_le (M.R.mulVec E.t - M''.R.mulVec E.t) (E.R.mulVec (M'.t - M.t))
    have k2 := V3.norm_add_le (E.R.mulVec M.t - M.t) (M.t - M''.t)
    have k3 := h2.symm.turn E.t
    have atZero : ∀ T : Iso, T.apply 0 = T.t := fun T => by ext <;> simp [Iso.apply, M3.mulVec]
    have k4 := h1 0
    have k5 := h2.symm 0
    rw [norm_zero_v3, add_zero, mul_one, atZero, atZero] at k4 k5
    have k6 := turn M.t
    have k7 : 192 / n * r * M.t.norm ≤ 192 / n * r * m := mul_le_mul_of_nonneg_left hM (by positivity)
    rw [M3.IsRot.norm hE] at k1
    linarith
  have hfix := fixed_near hA hB (shift hma cA cA' e1) (shift hmb cB cB' e2)
  rw [← hn] at hfix
  have ht0 := E.t.norm_nonneg
  have hsmall : 12 * (3 * r * E.t.norm) ≤ n / 2 * E.t.norm := by
    have := mul_le_mul_of_nonneg_right hr ht0
    linarith
  have ht : E.t.norm ≤ 24 / n * (2 + 192 / n * m) * r := by
    have : 24 / n * (2 + 192 / n * m) * r = (24 * (2 * r + 192 / n * r * m)) / n := by ring
    rw [this, le_div_iff₀ hn0]
    linarith
  intro q
  have eq : E.apply q - (1 : Iso).apply q = (E.R.mulVec q - q) + E.t := by
    rw [Iso.apply_one]
    ext <;> simp [Iso.apply] <;> ring
  rw [eq]
  have k1 := V3.norm_add_le (E.R.mulVec q - q) E.t
  have k2 := turn q
  have hq := q.norm_nonneg
  have k3 : 0 ≤ 24 / n * (2 + 192 / n * m) * r * q.norm := by positivity
  have k4 : 0 ≤ 192 / n * r := by positivity
  nlinarith

/-- Two motions around four that are nearly known, with nearly known products. -/
theorem sandwich_tends {X Y A B C D : Iso} {X' Y' A' B' C' D' : ℕ → Iso} (hX : X.IsRigid) (hY : Y.IsRigid)
    (hX' : ∀ n, (X' n).IsRigid) (hY' : ∀ n, (Y' n).IsRigid) (rA : A.IsRigid) (rB : B.IsRigid) (rC : C.IsRigid) (rD : D.IsRigid)
    (rA' : ∀ n, (A' n).IsRigid) (rB' : ∀ n, (B' n).IsRigid) (rC' : ∀ n, (C' n).IsRigid) (rD' : ∀ n, (D' n).IsRigid)
    (hax : AxesDiffer (A * B.inv).R (C * D.inv).R) (tA : Tends A' A) (tB : Tends B' B) (tC : Tends C' C) (tD : Tends D' D)
    (hA : Tends (fun n => X' n * A' n * Y' n) (X * A * Y)) (hB : Tends (fun n => X' n * B' n * Y' n) (X * B * Y))
    (hC : Tends (fun n => X' n * C' n * Y' n) (X * C * Y)) (hD : Tends (fun n => X' n * D' n * Y' n) (X * D * Y)) :
    Tends X' X ∧ Tends Y' Y := by
  have conj : ∀ {P Q X Y : Iso}, P.IsRigid → Q.IsRigid → X.IsRigid → Y.IsRigid → (X * P * Y) * (X * Q * Y).inv = X * (P * Q.inv) * X.inv := by
    intro P Q X Y hP hQ hX hY
    refine ((hX.mul hQ).mul hY).cancel_right ?_
    rw [Iso.mul_assoc (X * P * Y), Iso.inv_mul ((hX.mul hQ).mul hY)]
    simp only [Iso.mul_assoc, Iso.inv_mul_cancel_left hX, Iso.inv_mul_cancel_left hQ, Iso.mul_one]
  have side : ∀ {P Q : Iso} {P' Q' : ℕ → Iso}, P.IsRigid → Q.IsRigid → (∀ n, (P' n).IsRigid) → (∀ n, (Q' n).IsRigid) →
      Tends P' P → Tends Q' Q → Tends (fun n => X' n * P' n * Y' n) (X * P * Y) → Tends (fun n => X' n * Q' n * Y' n) (X * Q * Y) →
      Tends (fun n => P' n * (Q' n).inv) (P * Q.inv) ∧
      Tends (fun n => X.inv * ((X' n * P' n * Y' n) * (X' n * Q' n * Y' n).inv) * X) (P * Q.inv) ∧
      (∀ n, (X.inv * ((X' n * P' n * Y' n) * (X' n * Q' n * Y' n).inv) * X).IsRigid) ∧
      ∀ n, X.inv * X' n * (P' n * (Q' n).inv) =
        X.inv * ((X' n * P' n * Y' n) * (X' n * Q' n * Y' n).inv) * X * (X.inv * X' n) := by
    intro P Q P' Q' hP hQ hP' hQ' tP tQ wP wQ
    have r1 := fun n => ((hX' n).mul (hP' n)).mul (hY' n)
    have r2 := fun n => ((hX' n).mul (hQ' n)).mul (hY' n)
    refine ⟨tP.mul (tQ.inv hQ' hQ) hP' hQ.inv, ?_, fun n => (hX.inv.mul ((r1 n).mul (r2 n).inv)).mul hX, fun n => ?_⟩
    · have h1 := wP.mul (wQ.inv r2 ((hX.mul hQ).mul hY)) r1 ((hX.mul hQ).mul hY).inv
      have h2 := ((Tends.const X.inv).mul h1 (fun _ => hX.inv) (((hX.mul hP).mul hY).mul ((hX.mul hQ).mul hY).inv)).mul
        (Tends.const X) (fun n => hX.inv.mul ((r1 n).mul (r2 n).inv)) hX
      rw [conj hP hQ hX hY] at h2
      have e : X.inv * (X * (P * Q.inv) * X.inv) * X = P * Q.inv := by
        simp only [Iso.mul_assoc, Iso.inv_mul hX, Iso.mul_one, Iso.inv_mul_cancel_left hX]
      rwa [e] at h2
    · rw [conj (hP' n) (hQ' n) (hX' n) (hY' n)]
      simp only [Iso.mul_assoc, Iso.mul_inv_cancel_left hX, Iso.inv_mul (hX' n), Iso.mul_one]
  obtain ⟨a1, a2, a3, a4⟩ := side rA rB rA' rB' tA tB hA hB
  obtain ⟨b1, b2, b3, b4⟩ := side rC rD rC' rD' tC tD hC hD
  obtain ⟨k, d, hk, hd, hclose⟩ := commuting_close (rA.mul rB.inv) (rC.mul rD.inv) hax
  have hE : Tends (fun n => X.inv * X' n) 1 := fun e he => by
    have hpos : 0 < min d (e / k) := lt_min hd (by positivity)
    filter_upwards [a1 _ hpos, a2 _ hpos, b1 _ hpos, b2 _ hpos] with n c1 c2 c3 c4
    refine (hclose _ _ _ _ _ _ (hX.inv.mul (hX' n)) (a3 n) (b3 n) (min_le_left _ _) c1 c2 c3 c4 (a4 n) (b4 n)).mono ?_
    have := mul_le_mul_of_nonneg_left (min_le_right d (e / k)) hk.le
    rwa [mul_div_cancel₀ _ hk.ne'] at this
  have hXt : Tends X' X := by
    have := (Tends.const X).mul hE (fun _ => hX) Iso.IsRigid.one
    simpa only [Iso.mul_inv_cancel_left hX, Iso.mul_one] using this
  refine ⟨hXt, ?_⟩
  have := ((hXt.mul tA hX' rA).inv (fun n => (hX' n).mul (rA' n)) (hX.mul rA)).mul hA (fun n => ((hX' n).mul (rA' n)).inv)
    ((hX.mul rA).mul hY)
  rw [Iso.inv_mul_cancel_left (hX.mul rA)] at this
  simpa only [Iso.inv_mul_cancel_left ((hX' _).mul (rA' _))] using this

/-- All offsets come arbitrarily close to zero. -/
def OffTends (offs : ℕ → List V4) : Prop :=
  ∀ e : ℝ, 0 < e → ∀ᶠ n in atTop, ∀ v ∈ offs n, |v.d| ≤ e ∧ |v.theta| ≤ e ∧ |v.r| ≤ e ∧ |v.alpha| ≤ e

theorem dhMatrix_tends {d th r al : ℕ → ℝ} {d' th' r' al' : ℝ} (h1 : Tendsto d atTop (𝓝 d')) (h2 : Tendsto th atTop (𝓝 th'))
    (h3 : Tendsto r atTop (𝓝 r')) (h4 : Tendsto al atTop (𝓝 al')) :
    Tends (fun n => dhMatrix (d n) (th n) (r n) (al n)) (dhMatrix d' th' r' al') := by
  have s1 := (Real.continuous_sin.tendsto th').comp h2
  have c1 := (Real.continuous_cos.tendsto th').comp h2
  have s2 := (Real.continuous_sin.tendsto al').comp h4
  have c2 := (Real.continuous_cos.tendsto al').comp h4
  refine tends_of_entries fun i => ?_
  fin_cases i
  · exact c1
  · exact s1.neg.mul c2
  · exact s1.mul s2
  · exact s1
  · exact c1.mul c2
  · exact c1.neg.mul s2
  · exact tendsto_const_nhds
  · exact s2
  · exact c2
  · exact h3.mul c1
  · exact h3.mul s1
  · exact h1

theorem jointPose_tends (p : V4) (ty : JointType) {o : ℕ → V4} (q : ℝ) (h1 : Tendsto (fun n => (o n).d) atTop (𝓝 0))
    (h2 : Tendsto (fun n => (o n).theta) atTop (𝓝 0)) (h3 : Tendsto (fun n => (o n).r) atTop (𝓝 0))
    (h4 : Tendsto (fun n => (o n).alpha) atTop (𝓝 0)) : Tends (fun n => jointPose p ty (o n) q) (jointPose p ty 0 q) := by
  cases ty
  · exact dhMatrix_tends ((h1.const_add _).add_const _) (h2.const_add _) (h3.const_add _) (h4.const_add _)
  · exact dhMatrix_tends (h1.const_add _) ((h2.const_add _).add_const _) (h3.const_add _) (h4.const_add _)

theorem tendsto_zero_of {f : ℕ → ℝ} (h : ∀ e : ℝ, 0 < e → ∀ᶠ n in atTop, |f n| ≤ e) : Tendsto f atTop (𝓝 0) := by
  rw [Metric.tendsto_nhds]
  intro e he
  filter_upwards [h (e / 2) (by positivity)] with n hn
  rw [Real.dist_eq, sub_zero]
  linarith

theorem chainPose_tends (js : List (V4 × JointType)) {offs : ℕ → List V4} (hl : ∀ n, (offs n).length = js.length) (ho : OffTends offs)
    (q : List ℝ) {B' : ℕ → Iso} {B : Iso} (rB : B.IsRigid) (rB' : ∀ n, (B' n).IsRigid) (tB : Tends B' B) :
    Tends (fun n => chainPose (B' n) js (offs n) q) (chainPose B js (List.replicate js.length 0) q) := by
  induction js generalizing offs q B' B with
  | nil => simpa [chainPose] using tB
  | cons j js ih =>
    have hsplit : ∀ n, offs n = (offs n).headD 0 :: (offs n).tail := fun n => by
      have := hl n
      cases hh : offs n with
      | nil => rw [hh] at this; simp at this
      | cons a l => rfl
    cases q with
    | nil =>
      have : ∀ B js os, chainPose B js os [] = B := fun B js os => by cases js <;> cases os <;> rfl
      simpa [this] using tB
    | cons q qs =>
      have hhead : ∀ n, (offs n).headD 0 ∈ offs n := fun n => by
        have h := List.mem_cons_self (a := (offs n).headD 0) (l := (offs n).tail)
        rwa [← hsplit n] at h
      have hj := jointPose_tends j.1 j.2 (o := fun n => (offs n).headD 0) q
        (tendsto_zero_of fun e he => (ho e he).mono fun n h => (h _ (hhead n)).1)
        (tendsto_zero_of fun e he => (ho e he).mono fun n h => (h _ (hhead n)).2.1)
        (tendsto_zero_of fun e he => (ho e he).mono fun n h => (h _ (hhead n)).2.2.1)
        (tendsto_zero_of fun e he => (ho e he).mono fun n h => (h _ (hhead n)).2.2.2)
      have := ih (offs := fun n => (offs n).tail) (fun n => by have := hl n; simp at this ⊢; omega)
        (fun e he => (ho e he).mono fun n h v hv => h v (List.mem_of_mem_tail hv)) qs (rB.mul (jointPose_rigid _ _ _ _))
        (fun n => (rB' n).mul (jointPose_rigid _ _ _ _)) (tB.mul hj rB' (jointPose_rigid _ _ _ _))
      intro e he
      filter_upwards [this e he] with n hn
      rw [hsplit n, List.length_cons, List.replicate_succ]
      exact hn

end RCT
