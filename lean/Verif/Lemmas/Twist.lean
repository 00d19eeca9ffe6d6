import Verif.Lemmas.Rank
import Verif.Lemmas.PoseSpec
import Verif.Lemmas.Pose
import Mathlib.Analysis.SpecialFunctions.Trigonometric.Deriv
import Mathlib.Analysis.SpecialFunctions.Sqrt

/-!
# Velocities of points and poses
-/

namespace RCT

open Spec Filter Topology

/-- Velocity of a moving point at time zero. -/
structure SpeedV3 (f : ℝ → V3) (v : V3) : Prop where
  x : HasDerivAt (fun u => (f u).x) v.x 0
  y : HasDerivAt (fun u => (f u).y) v.y 0
  z : HasDerivAt (fun u => (f u).z) v.z 0

namespace SpeedV3

theorem const (p : V3) : SpeedV3 (fun _ => p) 0 := ⟨hasDerivAt_const _ _, hasDerivAt_const _ _, hasDerivAt_const _ _⟩

theorem line (p v : V3) : SpeedV3 (fun u => p + V3.smul u v) v := by
  have h : ∀ x d : ℝ, HasDerivAt (fun u : ℝ => x + u * d) d 0 := fun x d => by
    simpa using ((hasDerivAt_id (0 : ℝ)).mul_const d).const_add x
  exact ⟨h _ _, h _ _, h _ _⟩

theorem add {f g : ℝ → V3} {v w : V3} (hf : SpeedV3 f v) (hg : SpeedV3 g w) : SpeedV3 (fun u => f u + g u) (v + w) :=
  ⟨hf.x.add hg.x, hf.y.add hg.y, hf.z.add hg.z⟩

theorem mulVec (R : M3) {f : ℝ → V3} {v : V3} (hf : SpeedV3 f v) : SpeedV3 (fun u => R.mulVec (f u)) (R.mulVec v) :=
  ⟨((hf.x.const_mul _).add (hf.y.const_mul _)).add (hf.z.const_mul _),
   ((hf.x.const_mul _).add (hf.y.const_mul _)).add (hf.z.const_mul _),
   ((hf.x.const_mul _).add (hf.y.const_mul _)).add (hf.z.const_mul _)⟩

theorem apply (T : Iso) {f : ℝ → V3} {v : V3} (hf : SpeedV3 f v) : SpeedV3 (fun u => T.apply (f u)) (T.R.mulVec v) := by
  have h := (hf.mulVec T.R).add (const T.t)
  rw [V3.add_zero] at h
  exact h

theorem congr {f g : ℝ → V3} {v : V3} (h : SpeedV3 f v) (e : ∀ᶠ u in 𝓝 0, g u = f u) : SpeedV3 g v :=
  ⟨h.x.congr_of_eventuallyEq (e.mono fun u hu => by simp only [hu]), h.y.congr_of_eventuallyEq (e.mono fun u hu => by simp only [hu]),
   h.z.congr_of_eventuallyEq (e.mono fun u hu => by simp only [hu])⟩

theorem unique {f : ℝ → V3} {v w : V3} (h : SpeedV3 f v) (g : SpeedV3 f w) : v = w :=
  V3.ext (h.x.unique g.x) (h.y.unique g.y) (h.z.unique g.z)

end SpeedV3

/-- Angular velocity of the rotation with rotation vector `r` when the vector moves with velocity `d`. -/
noncomputable def turnSpeed (r d : V3) : V3 :=
  let n := V3.smul (1 / r.norm) r
  let a := n.dot d
  let m := V3.smul (1 / r.norm) (d - V3.smul a n)
  V3.smul a n + V3.smul (Real.sin r.norm) m + V3.smul (1 - Real.cos r.norm) (n.cross m)

theorem norm_speed {r : V3} (d : V3) (hr : r ≠ 0) :
    HasDerivAt (fun u => (r + V3.smul u d).norm) ((V3.smul (1 / r.norm) r).dot d) 0 := by
  have h := SpeedV3.line r d
  have hs : HasDerivAt (fun u => (r + V3.smul u d).normSq) (2 * r.dot d) 0 := by
    have := ((h.x.mul h.x).add (h.y.mul h.y)).add (h.z.mul h.z)
    refine this.congr_deriv ?_
    simp [V3.smul, V3.dot]; ring
  have h0 : (r + V3.smul (0 : ℝ) d).normSq ≠ 0 := by
    rw [show r + V3.smul (0 : ℝ) d = r by ext <;> simp [V3.smul]]
    exact (V3.normSq_pos hr).ne'
  have := hs.sqrt h0
  refine this.congr_deriv ?_
  rw [show r + V3.smul (0 : ℝ) d = r by ext <;> simp [V3.smul]]
  have hn := (V3.norm_pos hr).ne'
  show 2 * r.dot d / (2 * r.norm) = _
  simp only [V3.dot, V3.smul]
  field_simp

theorem axis_speed {r : V3} (d : V3) (hr : r ≠ 0) :
    SpeedV3 (fun u => V3.smul (1 / (r + V3.smul u d).norm) (r + V3.smul u d))
      (V3.smul (1 / r.norm) (d - V3.smul ((V3.smul (1 / r.norm) r).dot d) (V3.smul (1 / r.norm) r))) := by
  have h := SpeedV3.line r d
  have hn := (V3.norm_pos hr).ne'
  have e0 : r + V3.smul (0 : ℝ) d = r := by ext <;> simp [V3.smul]
  have hθ := norm_speed d hr
  have hi := hθ.fun_inv (by rw [e0]; exact hn)
  rw [e0] at hi
  have key : ∀ {f : ℝ → ℝ} {v : ℝ}, HasDerivAt f v 0 → HasDerivAt (fun u => 1 / (r + V3.smul u d).norm * f u)
      (-(V3.smul (1 / r.norm) r).dot d / r.norm ^ 2 * f 0 + 1 / r.norm * v) 0 := by
    intro f v hf
    have := hi.fun_mul hf
    simp only [e0] at this
    simpa only [one_div] using this
  refine ⟨(key h.x).congr_deriv ?_, (key h.y).congr_deriv ?_, (key h.z).congr_deriv ?_⟩ <;>
  · simp [V3.smul, V3.dot]
    field_simp
    ring

/-- Rodrigues' formula with a moving rotation vector and a moving point. -/
theorem rodrigues_speed {r : V3} (d : V3) (hr : r ≠ 0) {q : ℝ → V3} {v : V3} (hq : SpeedV3 q v) :
    SpeedV3 (fun u => (AngleAxis.toMat ⟨(r + V3.smul u d).norm, (r + V3.smul u d).normalized⟩).mulVec (q u))
      ((turnSpeed r d).cross ((AngleAxis.toMat ⟨r.norm, r.normalized⟩).mulVec (q 0)) +
        (AngleAxis.toMat ⟨r.norm, r.normalized⟩).mulVec v) := by
  have e0 : r + V3.smul (0 : ℝ) d = r := by ext <;> simp [V3.smul]
  have hθ := norm_speed d hr
  have hnx := axis_speed d hr
  have hev : ∀ᶠ u in 𝓝 (0 : ℝ), r + V3.smul u d ≠ 0 := by
    have : ∀ᶠ u in 𝓝 (0 : ℝ), (r + V3.smul u d).norm ≠ 0 :=
      hθ.continuousAt.eventually_ne (by rw [e0]; exact (V3.norm_pos hr).ne')
    exact this.mono fun u hu h => hu (by rw [h]; exact V3.norm_eq_zero.2 rfl)
  have hc := hθ.cos
  have hs := hθ.sin
  rw [e0] at hc hs
  have hn1 : (V3.smul (1 / r.norm) r).dot (V3.smul (1 / r.norm) r) = 1 := by
    rw [← V3.normalized_of_ne hr]; exact V3.normSq_normalized hr
  have hm0 : (V3.smul (1 / r.norm) r).dot
      (V3.smul (1 / r.norm) (d - V3.smul ((V3.smul (1 / r.norm) r).dot d) (V3.smul (1 / r.norm) r))) = 0 := by
    generalize V3.smul (1 / r.norm) r = n at hn1
    generalize 1 / r.norm = k
    simp only [V3.dot, V3.smul, V3.sub_x, V3.sub_y, V3.sub_z] at hn1 ⊢
    linear_combination -k * (n.x * d.x + n.y * d.y + n.z * d.z) * hn1
  suffices H : SpeedV3 (fun u => (AngleAxis.toMat ⟨(r + V3.smul u d).norm,
      V3.smul (1 / (r + V3.smul u d).norm) (r + V3.smul u d)⟩).mulVec (q u))
      ((turnSpeed r d).cross ((AngleAxis.toMat ⟨r.norm, r.normalized⟩).mulVec (q 0)) +
        (AngleAxis.toMat ⟨r.norm, r.normalized⟩).mulVec v) from
    H.congr (hev.mono fun u hu => by rw [V3.normalized_of_ne hu])
  rw [V3.normalized_of_ne hr]
  unfold turnSpeed
  simp only
  have hn0 : V3.smul (1 / (r + V3.smul (0 : ℝ) d).norm) (r + V3.smul (0 : ℝ) d) = V3.smul (1 / r.norm) r := by rw [e0]
  generalize V3.smul (1 / r.norm) (d - V3.smul ((V3.smul (1 / r.norm) r).dot d) (V3.smul (1 / r.norm) r)) = m at hnx hm0 ⊢
  have hsc := Real.sin_sq_add_cos_sq r.norm
  have hθ0 : (r + V3.smul (0 : ℝ) d).norm = r.norm := by rw [e0]
  generalize hna : (fun u : ℝ => V3.smul (1 / (r + V3.smul u d).norm) (r + V3.smul u d)) = N at hnx
  have hN : ∀ u, V3.smul (1 / (r + V3.smul u d).norm) (r + V3.smul u d) = N u := fun u => by rw [← hna]
  have hN0 : N 0 = V3.smul (1 / r.norm) r := by rw [← hna]; exact hn0
  simp only [hN]
  rw [← hN0] at hn1 hm0 hc hs ⊢
  have hc0 : Real.cos (r + V3.smul (0 : ℝ) d).norm = Real.cos r.norm := by rw [hθ0]
  have hs0 : Real.sin (r + V3.smul (0 : ℝ) d).norm = Real.sin r.norm := by rw [hθ0]
  clear hθ hev hna hN hn0 hN0 e0 hθ0
  generalize hC : (fun u : ℝ => Real.cos (r + V3.smul u d).norm) = C at hc
  generalize hS : (fun u : ℝ => Real.sin (r + V3.smul u d).norm) = S at hs
  have hC' : ∀ u, Real.cos (r + V3.smul u d).norm = C u := fun u => by rw [← hC]
  have hS' : ∀ u, Real.sin (r + V3.smul u d).norm = S u := fun u => by rw [← hS]
  rw [hC'] at hc0
  rw [hS'] at hs0
  simp only [← hc0, ← hs0] at hsc hc hs ⊢
  simp only [AngleAxis.toMat, M3.mulVec, hC', hS', ← hc0, ← hs0]
  generalize (N 0).dot d = a at hc hs ⊢
  clear hC hS hC' hS' hc0 hs0
  have h1C := hc.const_sub 1
  have hNx := hnx.x
  have hNy := hnx.y
  have hNz := hnx.z
  constructor
  · refine ((((((h1C.fun_mul hNx).fun_mul hNx).fun_add hc).fun_mul hq.x).fun_add
      ((((h1C.fun_mul hNx).fun_mul hNy).fun_sub (hs.fun_mul hNz)).fun_mul hq.y)).fun_add
      ((((h1C.fun_mul hNx).fun_mul hNz).fun_add (hs.fun_mul hNy)).fun_mul hq.z)).congr_deriv ?_
    simp only [V3.dot, V3.cross, V3.smul, V3.add_x, V3.add_y, V3.add_z] at hn1 hm0 ⊢
    clear hc hs h1C hNx hNy hNz hq hnx
    grind
  · refine ((((((h1C.fun_mul hNx).fun_mul hNy).fun_add (hs.fun_mul hNz)).fun_mul hq.x).fun_add
      ((((h1C.fun_mul hNy).fun_mul hNy).fun_add hc).fun_mul hq.y)).fun_add
      ((((h1C.fun_mul hNy).fun_mul hNz).fun_sub (hs.fun_mul hNx)).fun_mul hq.z)).congr_deriv ?_
    simp only [V3.dot, V3.cross, V3.smul, V3.add_x, V3.add_y, V3.add_z] at hn1 hm0 ⊢
    clear hc hs h1C hNx hNy hNz hq hnx
    grind
  · refine ((((((h1C.fun_mul hNx).fun_mul hNz).fun_sub (hs.fun_mul hNy)).fun_mul hq.x).fun_add
      ((((h1C.fun_mul hNy).fun_mul hNz).fun_add (hs.fun_mul hNx)).fun_mul hq.y)).fun_add
      ((((h1C.fun_mul hNz).fun_mul hNz).fun_add hc).fun_mul hq.z)).congr_deriv ?_
    simp only [V3.dot, V3.cross, V3.smul, V3.add_x, V3.add_y, V3.add_z] at hn1 hm0 ⊢
    clear hc hs h1C hNx hNy hNz hq hnx
    grind

open Classical in
/-- Angular velocity of a pose whose rotation vector is zero or beyond the threshold of the conversions. -/
noncomputable def poseTurn (r d : V3) : V3 := if r = 0 then d else turnSpeed r d

def dRot (d : Nat → ℝ) : V3 := ⟨d 0, d 1, d 2⟩
def dTrans (d : Nat → ℝ) : V3 := ⟨d 3, d 4, d 5⟩

theorem poseAlong_rot (d : Nat → ℝ) (u : ℝ) (p : Pose6) : (poseAlong d u p).rot = p.rot + V3.smul u (dRot d) := rfl
theorem poseAlong_trans (d : Nat → ℝ) (u : ℝ) (p : Pose6) : (poseAlong d u p).trans = p.trans + V3.smul u (dTrans d) := rfl

/-- Velocity of a moving point seen from a moving frame. -/
theorem pose_speed (d : Nat → ℝ) {p : Pose6} (hp : p.rot = 0 ∨ p.rot.normSq > dblEps) {q : ℝ → V3} {v : V3} (hq : SpeedV3 q v) :
    SpeedV3 (fun u => (poseCalToEigen (poseAlong d u p)).apply (q u))
      ((poseTurn p.rot (dRot d)).cross ((poseCalToEigen p).R.mulVec (q 0)) + (poseCalToEigen p).R.mulVec v + dTrans d) := by
  have e0 : p.rot + V3.smul (0 : ℝ) (dRot d) = p.rot := by ext <;> simp [V3.smul]
  have hcont : ContinuousAt (fun u : ℝ => (p.rot + V3.smul u (dRot d)).normSq) 0 := by
    have h := SpeedV3.line p.rot (dRot d)
    exact ((h.x.continuousAt.mul h.x.continuousAt).add (h.y.continuousAt.mul h.y.continuousAt)).add
      (h.z.continuousAt.mul h.z.continuousAt)
  rcases hp with hp | hp
  · have hev : ∀ᶠ u in 𝓝 (0 : ℝ), (p.rot + V3.smul u (dRot d)).normSq < dblEps :=
      hcont.eventually_lt continuousAt_const (by rw [e0, hp]; simp [V3.normSq, V3.dot, dblEps])
    have hR : (poseCalToEigen p).R = 1 := by rw [poseCalToEigen_zero hp]
    rw [hR, M3.one_mulVec, M3.one_mulVec, poseTurn, if_pos hp]
    have hl := SpeedV3.line (0 : V3) (dRot d)
    have hc : SpeedV3 (fun u => ((0 : V3) + V3.smul u (dRot d)).cross (q u)) ((dRot d).cross (q 0)) := by
      constructor
      · refine ((hl.y.fun_mul hq.z).fun_sub (hl.z.fun_mul hq.y)).congr_deriv ?_
        simp [V3.cross, V3.smul]
      · refine ((hl.z.fun_mul hq.x).fun_sub (hl.x.fun_mul hq.z)).congr_deriv ?_
        simp [V3.cross, V3.smul]
      · refine ((hl.x.fun_mul hq.y).fun_sub (hl.y.fun_mul hq.x)).congr_deriv ?_
        simp [V3.cross, V3.smul]
    refine ((hc.add hq).add (SpeedV3.line p.trans (dTrans d))).congr (hev.mono fun u hu => ?_)
    rw [poseCalToEigen_small (by rw [poseAlong_rot]; exact not_lt.2 hu.le), poseAlong_trans, poseAlong_rot, hp]
    ext <;> simp [Iso.apply, M3.mulVec, V3.cross] <;> ring
  · have hev : ∀ᶠ u in 𝓝 (0 : ℝ), dblEps < (p.rot + V3.smul u (dRot d)).normSq :=
      continuousAt_const.eventually_lt hcont (by rw [e0]; exact hp)
    have hne : p.rot ≠ 0 := by
      intro h
      rw [V3.normSq_eq_zero.2 h] at hp
      exact absurd hp (not_lt.2 dblEps_pos.le)
    have hR : (poseCalToEigen p).R = AngleAxis.toMat ⟨p.rot.norm, p.rot.normalized⟩ := by rw [poseCalToEigen_big hp]
    rw [hR, poseTurn, if_neg hne]
    refine ((rodrigues_speed (dRot d) hne hq).add (SpeedV3.line p.trans (dTrans d))).congr (hev.mono fun u hu => ?_)
    rw [poseCalToEigen_big (by rw [poseAlong_rot]; exact hu), poseAlong_trans, poseAlong_rot]
    rfl

/-! ## Directions with a given angular velocity -/

/-- For every angular velocity `w` the rotation vector can move such that the frame turns with a multiple of `w`; the multiple
is zero if the rotation vector has the length of a full turn. -/
theorem turn_exists (r w : V3) : ∃ (d : V3) (c : ℝ), poseTurn r d = V3.smul c w ∧ (c = 0 → d ≠ 0) := by
  by_cases hr : r = 0
  · exact ⟨w, 1, by rw [poseTurn, if_pos hr]; ext <;> simp [V3.smul], by simp⟩
  simp only [poseTurn, if_neg hr]
  have hn := (V3.norm_pos hr).ne'
  obtain ⟨n, hnd⟩ : ∃ n, n = V3.smul (1 / r.norm) r := ⟨_, rfl⟩
  have hn1 : n.x * n.x + n.y * n.y + n.z * n.z = 1 := by
    have := V3.normSq_normalized hr
    rw [V3.normalized_of_ne hr, ← hnd] at this
    exact this
  unfold turnSpeed
  simp only [← hnd]
  have hsc := Real.sin_sq_add_cos_sq r.norm
  generalize r.norm = t at hn hsc ⊢
  by_cases hc : Real.cos t = 1
  · have hs : Real.sin t = 0 := by rw [hc] at hsc; nlinarith
    rw [hc, hs]
    -- a direction perpendicular to the axis
    have : ∃ e : V3, e ≠ 0 ∧ n.dot e = 0 := by
      by_cases hz : n.x = 0 ∧ n.y = 0
      · exact ⟨⟨1, 0, 0⟩, by intro h; simpa using congrArg V3.x h, by simp [V3.dot, hz.1]⟩
      · refine ⟨⟨-n.y, n.x, 0⟩, ?_, by simp [V3.dot]; ring⟩
        intro h
        apply hz
        have h1 := congrArg V3.x h
        have h2 := congrArg V3.y h
        simp at h1 h2
        exact ⟨h2, h1⟩
    obtain ⟨e, he, hd⟩ := this
    refine ⟨e, 0, ?_, fun _ => he⟩
    rw [hd]
    ext <;> simp [V3.smul]
  · -- decompose `w` along the axis and perpendicular to it
    obtain ⟨c, hcd⟩ : ∃ c, c = 2 * (1 - Real.cos t) := ⟨_, rfl⟩
    have hc0 : c ≠ 0 := by
      rw [hcd]
      intro h
      apply hc
      linarith
    obtain ⟨p, hp⟩ : ∃ p : V3, p = w - V3.smul (n.dot w) n := ⟨_, rfl⟩
    have hpn : n.x * p.x + n.y * p.y + n.z * p.z = 0 := by
      rw [hp]
      simp only [V3.sub_x, V3.sub_y, V3.sub_z, V3.smul, V3.dot]
      linear_combination -(n.x * w.x + n.y * w.y + n.z * w.z) * hn1
    obtain ⟨m, hm⟩ : ∃ m : V3, m = V3.smul (Real.sin t) p - V3.smul (1 - Real.cos t) (n.cross p) := ⟨_, rfl⟩
    have hmn : n.x * m.x + n.y * m.y + n.z * m.z = 0 := by
      rw [hm]
      simp only [V3.sub_x, V3.sub_y, V3.sub_z, V3.smul, V3.cross]
      linear_combination Real.sin t * hpn
    refine ⟨V3.smul (c * n.dot w) n + V3.smul t m, c, ?_, fun h => absurd h hc0⟩
    have ha : n.dot (V3.smul (c * n.dot w) n + V3.smul t m) = c * n.dot w := by
      simp only [V3.dot, V3.add_x, V3.add_y, V3.add_z, V3.smul]
      linear_combination (c * (n.x * w.x + n.y * w.y + n.z * w.z)) * hn1 + t * hmn
    rw [ha]
    have hmm : V3.smul (1 / t) (V3.smul (c * n.dot w) n + V3.smul t m - V3.smul (c * n.dot w) n) = m := by
      ext <;> simp [V3.smul] <;> field_simp
    rw [hmm]
    rw [hm, hp, hcd]
    rw [hp] at hpn
    clear hmm ha hmn hm hp hcd hc0
    generalize Real.sin t = s at hsc ⊢
    generalize Real.cos t = k at hsc ⊢
    simp only [V3.sub_x, V3.sub_y, V3.sub_z, V3.smul, V3.dot] at hpn
    ext <;> simp only [V3.add_x, V3.add_y, V3.add_z, V3.sub_x, V3.sub_y, V3.sub_z, V3.smul, V3.cross, V3.dot] <;> grind

theorem poseTurn_zero (r : V3) : poseTurn r 0 = 0 := by
  unfold poseTurn
  split
  · rfl
  · unfold turnSpeed
    ext <;> simp [V3.smul, V3.dot, V3.cross]

/-- For every velocity field of a rigid motion, not zero, a pose can move straight such that its points move with a multiple of
that field. -/
theorem twist_exists {p : Pose6} (hp : p.rot = 0 ∨ p.rot.normSq > dblEps) (w v : V3) (h0 : w ≠ 0 ∨ v ≠ 0) :
    ∃ (d : Nat → ℝ) (c : ℝ), (∃ k < 6, d k ≠ 0) ∧
      ∀ (q : ℝ → V3) (q' : V3), SpeedV3 q q' → SpeedV3 (fun u => (poseCalToEigen (poseAlong d u p)).apply (q u))
        (V3.smul c (w.cross ((poseCalToEigen p).apply (q 0)) + v) + (poseCalToEigen p).R.mulVec q') := by
  have key : ∀ (dr : V3) (c : ℝ), poseTurn p.rot dr = V3.smul c w → (dr ≠ 0 ∨ V3.smul c (w.cross p.trans + v) ≠ 0) →
      ∃ d : Nat → ℝ, (∃ k < 6, d k ≠ 0) ∧
      ∀ (q : ℝ → V3) (q' : V3), SpeedV3 q q' → SpeedV3 (fun u => (poseCalToEigen (poseAlong d u p)).apply (q u))
        (V3.smul c (w.cross ((poseCalToEigen p).apply (q 0)) + v) + (poseCalToEigen p).R.mulVec q') := by
    intro dr c hturn hne
    obtain ⟨dt, hdt⟩ : ∃ dt, dt = V3.smul c (w.cross p.trans + v) := ⟨_, rfl⟩
    rw [← hdt] at hne
    refine ⟨fun k => match k with | 0 => dr.x | 1 => dr.y | 2 => dr.z | 3 => dt.x | 4 => dt.y | 5 => dt.z | _ => 0, ?_, ?_⟩
    · by_contra hall
      push Not at hall
      have a0 := hall 0 (by norm_num)
      have a1 := hall 1 (by norm_num)
      have a2 := hall 2 (by norm_num)
      have a3 := hall 3 (by norm_num)
      have a4 := hall 4 (by norm_num)
      have a5 := hall 5 (by norm_num)
      simp only at a0 a1 a2 a3 a4 a5
      rcases hne with h | h
      · exact h (V3.ext a0 a1 a2)
      · exact h (V3.ext a3 a4 a5)
    · intro q q' hq
      have hs := pose_speed (fun k => match k with | 0 => dr.x | 1 => dr.y | 2 => dr.z | 3 => dt.x | 4 => dt.y | 5 => dt.z | _ => 0)
        hp hq
      have e1 : dRot (fun k => match k with | 0 => dr.x | 1 => dr.y | 2 => dr.z | 3 => dt.x | 4 => dt.y | 5 => dt.z | _ => 0) = dr := rfl
      have e2 : dTrans (fun k => match k with | 0 => dr.x | 1 => dr.y | 2 => dr.z | 3 => dt.x | 4 => dt.y | 5 => dt.z | _ => 0) = dt := rfl
      rw [e1, e2, hturn] at hs
      convert hs using 1
      rw [hdt]
      simp only [Iso.apply, poseCalToEigen_t]
      generalize (poseCalToEigen p).R.mulVec (q 0) = x
      generalize (poseCalToEigen p).R.mulVec q' = y
      ext <;> simp only [V3.add_x, V3.add_y, V3.add_z, V3.smul, V3.cross] <;> ring
  by_cases hw : w = 0
  · have hv : v ≠ 0 := h0.resolve_left fun h => h hw
    obtain ⟨d, h1, h2⟩ := key 0 1 (by rw [poseTurn_zero, hw]; ext <;> simp [V3.smul]) (Or.inr (by
      intro h
      apply hv
      rw [hw] at h
      have hx := congrArg V3.x h; have hy := congrArg V3.y h; have hz := congrArg V3.z h
      simp [V3.smul, V3.cross] at hx hy hz
      exact V3.ext hx hy hz))
    exact ⟨d, 1, h1, h2⟩
  · obtain ⟨dr, c, h1, h2⟩ := turn_exists p.rot w
    obtain ⟨d, h3, h4⟩ := key dr c h1 (Or.inl (by
      by_cases hc : c = 0
      · exact h2 hc
      · rintro rfl
        rw [poseTurn_zero] at h1
        apply hw
        have hx := congrArg V3.x h1; have hy := congrArg V3.y h1; have hz := congrArg V3.z h1
        simp [V3.smul, hc] at hx hy hz
        exact V3.ext hx hy hz))
    exact ⟨d, c, h3, h4⟩

/-! ## Residuals of a moving point -/

theorem DerivList.point3 (obs : V3) {f : ℝ → V3} {v : V3} (h : SpeedV3 f v) :
    DerivList (fun u => [(f u).x - obs.x, (f u).y - obs.y, (f u).z - obs.z]) [v.x, v.y, v.z] :=
  ⟨[fun u => (f u).x - obs.x, fun u => (f u).y - obs.y, fun u => (f u).z - obs.z], fun _ => rfl,
    .cons (h.x.sub_const _) (.cons (h.y.sub_const _) (.cons (h.z.sub_const _) .nil))⟩

/-- Pixel velocity of a moving point. -/
noncomputable def pixelSpeed (i : Intr) (p v : V3) : V2 :=
  ⟨i.fx * ((v.x * p.z - p.x * v.z) / p.z ^ 2), i.fy * ((v.y * p.z - p.y * v.z) / p.z ^ 2)⟩

theorem pixelSpeed_zero (i : Intr) (p : V3) : pixelSpeed i p 0 = ⟨0, 0⟩ := by
  unfold pixelSpeed
  simp

theorem DerivList.pixel (i : Intr) (obs : V2) {f : ℝ → V3} {v : V3} (h : SpeedV3 f v) (hz : (f 0).z ≠ 0) :
    DerivList (fun u => [(projectPoint i (f u)).x - obs.x, (projectPoint i (f u)).y - obs.y])
      [(pixelSpeed i (f 0) v).x, (pixelSpeed i (f 0) v).y] := by
  have hev : ∀ᶠ u in 𝓝 (0 : ℝ), (f u).z ≠ 0 := h.z.continuousAt.eventually_ne hz
  refine ⟨[fun u => (projectPoint i (f u)).x - obs.x, fun u => (projectPoint i (f u)).y - obs.y], fun _ => rfl,
    .cons ?_ (.cons ?_ .nil)⟩
  · refine (((((h.x.fun_div h.z hz).const_mul i.fx).add_const i.cx).sub_const obs.x)).congr_of_eventuallyEq (hev.mono fun u hu => ?_)
    simp only [projectPoint, if_neg hu]
  · refine (((((h.y.fun_div h.z hz).const_mul i.fy).add_const i.cy).sub_const obs.y)).congr_of_eventuallyEq (hev.mono fun u hu => ?_)
    simp only [projectPoint, if_neg hu]

end RCT
