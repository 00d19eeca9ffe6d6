import Verif.Props.ProgramRuns
import Verif.Props.Guess

/-!
# C165 What the kinematic example can find out
-/

namespace RCT

open Spec

/-! ## C165 The kinematic example finds the true parameters

Full statement: from exact measurements the first run of the example finds the true offsets of the first joint, the second
run the true transforms. The second part holds (`C165_second_run`). The first is false for two of the four offsets, which are
not distinguishable from the pose of the camera, and in the best calibration are always zero (`C165_negation`). -/

theorem Iso.rigid_cancel_right {A B C : Iso} (hC : C.IsRigid) (h : A * C = B * C) : A = B := by
  have := congrArg (· * C.inv) h
  simpa only [Iso.mul_assoc, Iso.mul_inv hC, Iso.mul_one] using this

theorem Iso.rigid_cancel_left {A B C : Iso} (hC : C.IsRigid) (h : C * A = C * B) : A = B := by
  have := congrArg (C.inv * ·) h
  simpa only [Iso.inv_mul_cancel_left hC] using this

theorem axisShift_add (d d' t t' : ℝ) : axisShift d t * axisShift d' t' = axisShift (d + d') (t + t') := by
  rw [axisShift, axisShift, axisShift, Iso.mul_def, M3.mul_def]
  ext <;> simp [dhMatrix, M3.mulVec, Real.cos_add, Real.sin_add] <;> ring

theorem axisShift_rigid (d t : ℝ) : (axisShift d t).IsRigid := dhMatrix_rigid _ _ _ _

theorem linkShift_rigid (r a : ℝ) : (linkShift r a).IsRigid := dhMatrix_rigid _ _ _ _

theorem axisShift_zero : axisShift 0 0 = 1 := by
  ext <;> simp [axisShift, dhMatrix]

theorem axisShift_inv (d t : ℝ) : (axisShift d t).inv = axisShift (-d) (-t) := by
  have h := axisShift_add d (-d) t (-t)
  rw [add_neg_cancel, add_neg_cancel, axisShift_zero] at h
  have := congrArg ((axisShift d t).inv * ·) h
  simpa [Iso.inv_mul_cancel_left (axisShift_rigid d t)] using this.symm

theorem dhMatrix_split (d t r a : ℝ) : dhMatrix d t r a = axisShift d t * linkShift r a := by
  have := dhMatrix_axis 0 0 r a d t
  simpa [linkShift] using this

/-- Rigid motions that commute with a turn about z other than by 0 and 180 degrees turn about and move along z. -/
theorem commutes_axis {W : Iso} (hW : W.IsRigid) {t : ℝ} (ht : Real.sin t ≠ 0) (h : W * axisShift 0 t = axisShift 0 t * W) :
    ∃ d g, W = axisShift d g := by
  have hR : W.R * (axisShift 0 t).R = (axisShift 0 t).R * W.R := congrArg Iso.R h
  have hv := turnVector_rotated hW hR
  have hT : (axisShift 0 t).R.mulVec W.t = W.t := by
    have := congrArg Iso.t h
    simp only [Iso.mul_def] at this
    have h0 : (axisShift 0 t).t = 0 := by ext <;> simp [axisShift, dhMatrix]
    rw [h0] at this
    have hx := congrArg V3.x this; have hy := congrArg V3.y this; have hz := congrArg V3.z this
    simp [M3.mulVec] at hx hy hz
    ext <;> simp [M3.mulVec] <;> linarith
  have vx := congrArg V3.x hv; have vy := congrArg V3.y hv; have vz := congrArg V3.z hv
  simp [turnVector, M3.mulVec, axisShift, dhMatrix] at vx vy vz
  have e02 : W.R.m02 = 0 := by rcases vx with h | h; exact h; exact absurd (by linarith) ht
  have e12 : W.R.m12 = 0 := by rcases vy with h | h; exact h; exact absurd (by linarith) ht
  have e22 : W.R.m22 = 1 := by
    have : (W.R.m22 - 1) * Real.sin t = 0 := by linarith
    have := (mul_eq_zero.1 this).resolve_right ht
    linarith
  obtain ⟨-, -, r3, -, -, -⟩ := hW.rows
  rw [e22] at r3
  have e20 : W.R.m20 = 0 := by nlinarith [sq_nonneg W.R.m20, sq_nonneg W.R.m21]
  have e21 : W.R.m21 = 0 := by nlinarith [sq_nonneg W.R.m20, sq_nonneg W.R.m21]
  obtain ⟨c1, c2, -⟩ := hW.cof
  rw [e22, e12] at c1
  rw [e22, e02] at c2
  have hx := congrArg V3.x hT; have hy := congrArg V3.y hT
  simp [M3.mulVec, axisShift, dhMatrix] at hx hy
  have hc : 1 - Real.cos t ≠ 0 := by
    intro h0
    have := Real.sin_sq_add_cos_sq t
    rw [show Real.cos t = 1 by linarith] at this
    exact ht (pow_eq_zero_iff (n := 2) (by norm_num) |>.1 (by linarith))
  have s2 := Real.sin_sq_add_cos_sq t
  have tx : W.t.x = 0 := by
    have : 2 * (1 - Real.cos t) * W.t.x = 0 := by
      linear_combination (Real.cos t - 1) * hx + Real.sin t * hy - W.t.x * s2
    rcases mul_eq_zero.1 this with h | h
    · exact absurd (by linarith) hc
    · exact h
  have ty : W.t.y = 0 := by
    have : 2 * (1 - Real.cos t) * W.t.y = 0 := by
      linear_combination (Real.cos t - 1) * hy - Real.sin t * hx - W.t.y * s2
    rcases mul_eq_zero.1 this with h | h
    · exact absurd (by linarith) hc
    · exact h
  have hcs : W.R.m00 * W.R.m00 + W.R.m10 * W.R.m10 = 1 := by
    have := hW.cols.1
    rw [e20] at this
    linarith
  obtain ⟨k1, k2⟩ := cos_sin_atan2 hcs
  refine ⟨W.t.z, atan2 W.R.m10 W.R.m00, ?_⟩
  ext <;> simp [axisShift, dhMatrix, k1, k2, e02, e12, e22, e20, e21, tx, ty] <;> linarith

/-- The chain of the example, joint by joint. -/
theorem positioner_pose (seed : Nat) (o : V4) (x y : ℝ) :
    endPose (twoAxisPositioner seed) [o, 0] [x, y] = (twoAxisPositioner seed).base * axisShift o.d o.theta *
      (axisShift 0 x * (linkShift o.r (-Real.pi / 2 + o.alpha) * (axisShift 0 y * axisShift (-475 / 1000) (-Real.pi / 2)))) := by
  have h1 : endPose (twoAxisPositioner seed) [o, 0] [x, y] = (twoAxisPositioner seed).base *
      dhMatrix (0 + o.d) (0 + o.theta + x) (0 + o.r) (-Real.pi / 2 + o.alpha) *
      dhMatrix (-475 / 1000 + 0) (-Real.pi / 2 + 0 + y) (0 + 0) (0 + 0) := rfl
  rw [h1, dhMatrix_split (0 + o.d), show dhMatrix (-475 / 1000 + 0) (-Real.pi / 2 + 0 + y) (0 + 0) (0 + 0) =
    axisShift 0 y * axisShift (-475 / 1000) (-Real.pi / 2) from ?_, show axisShift (0 + o.d) (0 + o.theta + x) =
    axisShift o.d o.theta * axisShift 0 x from ?_, zero_add o.r]
  · simp only [Iso.mul_assoc]
  · rw [axisShift_add]; simp
  · rw [axisShift_add, axisShift]; simp [add_comm]

/-- Two sets of parameters that explain the same three poses: the transforms in front of and behind the joints differ by
motions along and about their axes. -/
theorem positioner_gauge {W Y L L' : Iso} (hW : W.IsRigid) (hY : Y.IsRigid) (hL : L.IsRigid) (hL' : L'.IsRigid) {x y x' y' : ℝ}
    (hx : Real.sin (x' - x) ≠ 0) (hy : Real.sin (y' - y) ≠ 0)
    (h1 : W * (axisShift 0 x * (L * axisShift 0 y)) = axisShift 0 x * (L' * (axisShift 0 y * Y)))
    (h2 : W * (axisShift 0 x' * (L * axisShift 0 y)) = axisShift 0 x' * (L' * (axisShift 0 y * Y)))
    (h3 : W * (axisShift 0 x * (L * axisShift 0 y')) = axisShift 0 x * (L' * (axisShift 0 y' * Y))) :
    ∃ d g d' g', W = axisShift d g ∧ Y = axisShift d' g' ∧ W * L = L' * Y := by
  have ra := axisShift_rigid 0
  have comm : ∀ d g t t' : ℝ, axisShift d g * axisShift t t' = axisShift t t' * axisShift d g := fun d g t t' => by
    rw [axisShift_add, axisShift_add, add_comm d, add_comm g]
  have sub : ∀ a b : ℝ, axisShift 0 (b - a) * axisShift 0 a = axisShift 0 b := fun a b => by
    rw [axisShift_add]; simp
  have sub' : ∀ a b : ℝ, axisShift 0 a * axisShift 0 (b - a) = axisShift 0 b := fun a b => by
    rw [axisShift_add]; simp
  have cW : W * axisShift 0 (x' - x) = axisShift 0 (x' - x) * W := by
    have e : axisShift 0 (x' - x) * (W * (axisShift 0 x * (L * axisShift 0 y))) = W * (axisShift 0 x' * (L * axisShift 0 y)) := by
      rw [h1, h2, ← Iso.mul_assoc, sub]
    have hr : (axisShift 0 x * (L * axisShift 0 y)).IsRigid := (ra x).mul (hL.mul (ra y))
    refine Iso.rigid_cancel_right hr ?_
    rw [Iso.mul_assoc, Iso.mul_assoc, e, ← Iso.mul_assoc (axisShift 0 (x' - x)), sub]
  have cY : Y * axisShift 0 (y' - y) = axisShift 0 (y' - y) * Y := by
    have hr : (axisShift 0 x * (L' * axisShift 0 y)).IsRigid := (ra x).mul (hL'.mul (ra y))
    refine Iso.rigid_cancel_left hr ?_
    have e : W * (axisShift 0 x * (L * axisShift 0 y)) * axisShift 0 (y' - y) = W * (axisShift 0 x * (L * axisShift 0 y')) := by
      simp only [Iso.mul_assoc, sub']
    rw [h1, h3, ← sub' y y'] at e
    simpa only [Iso.mul_assoc] using e
  obtain ⟨d, g, eW⟩ := commutes_axis hW hx cW
  obtain ⟨d', g', eY⟩ := commutes_axis hY hy cY
  refine ⟨d, g, d', g', eW, eY, ?_⟩
  refine Iso.rigid_cancel_left (ra x) (Iso.rigid_cancel_right (ra y) ?_)
  have hw : axisShift 0 x * W = W * axisShift 0 x := by rw [eW, comm]
  have hy' : Y * axisShift 0 y = axisShift 0 y * Y := by rw [eY, comm]
  rw [← Iso.mul_assoc, hw]
  simp only [Iso.mul_assoc] at h1 ⊢
  rw [h1, hy']

/-- Which links are equal up to motions along and about the axes. -/
theorem link_gauge {d g d' g' r a r' a' : ℝ} (h : axisShift d g * linkShift r a = linkShift r' a' * axisShift d' g') :
    Real.cos a' = Real.cos a ∧ ∃ s : ℝ, (s = 1 ∨ s = -1) ∧ Real.sin a' = s * Real.sin a ∧ r' = s * r := by
  rw [axisShift, axisShift, linkShift, linkShift, Iso.mul_def, Iso.mul_def, M3.mul_def, M3.mul_def] at h
  have hR := congrArg Iso.R h
  have ht := congrArg Iso.t h
  have h22 := congrArg M3.m22 hR; have h02 := congrArg M3.m02 hR; have h12 := congrArg M3.m12 hR
  have tx := congrArg V3.x ht; have ty := congrArg V3.y ht
  simp [dhMatrix, M3.mulVec] at h22 h02 h12 tx ty
  refine ⟨h22.symm, ?_⟩
  have sg := Real.sin_sq_add_cos_sq g
  by_cases hs : Real.sin g = 0
  · rw [hs] at sg
    have : Real.cos g = 1 ∨ Real.cos g = -1 := by
      have : (Real.cos g - 1) * (Real.cos g + 1) = 0 := by nlinarith
      rcases mul_eq_zero.1 this with h | h
      · exact .inl (by linarith)
      · exact .inr (by linarith)
    exact ⟨Real.cos g, this, by linarith, by linarith⟩
  · have ha : Real.sin a = 0 := by rcases h02 with h | h; exact absurd h hs; exact h
    rw [ha] at h12
    have ha' : Real.sin a' = 0 := by linarith
    rw [ha'] at ty
    have hr : r = 0 := by
      have : r * Real.sin g = 0 := by linarith
      exact (mul_eq_zero.1 this).resolve_right hs
    exact ⟨1, .inl rfl, by rw [ha, ha']; simp, by rw [hr] at tx ⊢; linarith⟩

/-- Perpendicular axes (more generally, axes that are not parallel): the motions are none. -/
theorem link_gauge_same {d g d' g' r a : ℝ} (ha : Real.sin a ≠ 0)
    (h : axisShift d g * linkShift r a = linkShift r a * axisShift d' g') : axisShift d g = 1 ∧ axisShift d' g' = 1 := by
  rw [axisShift, axisShift, linkShift, Iso.mul_def, Iso.mul_def, M3.mul_def, M3.mul_def] at h
  have hR := congrArg Iso.R h
  have ht := congrArg Iso.t h
  have h02 := congrArg M3.m02 hR; have h12 := congrArg M3.m12 hR
  have h20 := congrArg M3.m20 hR; have h21 := congrArg M3.m21 hR
  have tx := congrArg V3.x ht; have ty := congrArg V3.y ht; have tz := congrArg V3.z ht
  simp [dhMatrix, M3.mulVec, ha] at h02 h12 h20 h21 tx ty tz
  have sg := Real.sin_sq_add_cos_sq g
  have hd' : d' = 0 := by
    rw [h02] at ty
    have : d' * Real.sin a = 0 := by linarith
    exact (mul_eq_zero.1 this).resolve_right ha
  have hd : d = 0 := by rw [hd'] at tz; linarith
  subst hd hd'
  constructor <;> ext <;> simp [axisShift, dhMatrix, h02, h12, h20, h21]

theorem positioner_same {seed : Nat} {cm tm cm0 tm0 : Iso} (hcm : cm.IsRigid) (htm : tm.IsRigid) (hcm0 : cm0.IsRigid)
    (htm0 : tm0.IsRigid) {o o0 : V4} {x y x' y' : ℝ} (hx : Real.sin (x' - x) ≠ 0) (hy : Real.sin (y' - y) ≠ 0)
    (h : ∀ q ∈ [[x, y], [x', y], [x, y']], seenPose (twoAxisPositioner seed) cm tm [o, 0] q =
      seenPose (twoAxisPositioner seed) cm0 tm0 [o0, 0] q) :
    ∃ d g d' g', cm.inv * ((twoAxisPositioner seed).base * axisShift o.d o.theta) =
        cm0.inv * ((twoAxisPositioner seed).base * axisShift o0.d o0.theta) * axisShift d g ∧
      axisShift (-475 / 1000) (-Real.pi / 2) * tm0 = axisShift d' g' * (axisShift (-475 / 1000) (-Real.pi / 2) * tm) ∧
      axisShift d g * linkShift o.r (-Real.pi / 2 + o.alpha) = linkShift o0.r (-Real.pi / 2 + o0.alpha) * axisShift d' g' := by
  have hb := positioner_base seed
  obtain ⟨U, hU⟩ : ∃ U, U = cm.inv * ((twoAxisPositioner seed).base * axisShift o.d o.theta) := ⟨_, rfl⟩
  obtain ⟨U0, hU0⟩ : ∃ U, U = cm0.inv * ((twoAxisPositioner seed).base * axisShift o0.d o0.theta) := ⟨_, rfl⟩
  obtain ⟨V, hV⟩ : ∃ V, V = axisShift (-475 / 1000) (-Real.pi / 2) * tm := ⟨_, rfl⟩
  obtain ⟨V0, hV0⟩ : ∃ V, V = axisShift (-475 / 1000) (-Real.pi / 2) * tm0 := ⟨_, rfl⟩
  have rU : U.IsRigid := by rw [hU]; exact hcm.inv.mul (hb.mul (axisShift_rigid _ _))
  have rU0 : U0.IsRigid := by rw [hU0]; exact hcm0.inv.mul (hb.mul (axisShift_rigid _ _))
  have rV : V.IsRigid := by rw [hV]; exact (axisShift_rigid _ _).mul htm
  have rV0 : V0.IsRigid := by rw [hV0]; exact (axisShift_rigid _ _).mul htm0
  have key : ∀ a b : ℝ, seenPose (twoAxisPositioner seed) cm tm [o, 0] [a, b] =
      seenPose (twoAxisPositioner seed) cm0 tm0 [o0, 0] [a, b] →
      U0.inv * U * (axisShift 0 a * (linkShift o.r (-Real.pi / 2 + o.alpha) * axisShift 0 b)) =
        axisShift 0 a * (linkShift o0.r (-Real.pi / 2 + o0.alpha) * (axisShift 0 b * (V0 * V.inv))) := by
    intro a b e
    unfold seenPose at e
    rw [positioner_pose, positioner_pose] at e
    have e' : U * (axisShift 0 a * (linkShift o.r (-Real.pi / 2 + o.alpha) * (axisShift 0 b * V))) =
        U0 * (axisShift 0 a * (linkShift o0.r (-Real.pi / 2 + o0.alpha) * (axisShift 0 b * V0))) := by
      rw [hU, hU0, hV, hV0]
      simpa only [Iso.mul_assoc] using e
    have := congrArg (fun P => U0.inv * P * V.inv) e'
    simp only [Iso.inv_mul_cancel_left rU0] at this
    simpa only [Iso.mul_assoc, Iso.mul_inv rV, Iso.mul_one] using this
  obtain ⟨d, g, d', g', e1, e2, e3⟩ := positioner_gauge (rU0.inv.mul rU) (rV0.mul rV.inv) (linkShift_rigid _ _) (linkShift_rigid _ _) hx hy
    (key x y (h _ (by simp))) (key x' y (h _ (by simp))) (key x y' (h _ (by simp)))
  rw [← hU, ← hU0, ← hV, ← hV0]
  refine ⟨d, g, d', g', ?_, ?_, ?_⟩
  · rw [← e1, Iso.mul_inv_cancel_left rU0]
  · rw [← e2, Iso.mul_assoc, Iso.inv_mul rV, Iso.mul_one]
  · rw [← e1, ← e2]; exact e3

theorem exact_closes {K : KCeres} (hK : K.WF) {seed : Nat} {cm tm : Iso} {mask : List Int} {ms : List KinMeas}
    {r : KinResult} (h : kinematic6 K (kinExampleProblem seed cm tm mask) 100 ms = .ok r) (hm : ExampleMeas ms) (hne : ms ≠ [])
    (rd rd' : Nat → Nat) (st : KinStats) (hs : compareToMeasurements ⟨[], 1⟩ (twoAxisPositioner seed) r ms rd rd' = .ok st) :
    (st.posMean = some 0 ∧ st.rotMean = some 0) ↔
      ∀ m ∈ ms, m.cameraToTarget = seenPose (twoAxisPositioner seed) r.cmToC r.tmToT r.targetOffsets m.targetJoints := by
  rw [C139_zero (kinExample_comparable hK h hm) hne rd rd' st hs]
  have hc := (rigid_iff _).2 (C47_rigid K hK _ _ r h).1
  have hc0 : ∀ offs q, endPose ⟨[], 1⟩ offs q = 1 := fun offs q => by unfold endPose; cases offs <;> cases q <;> rfl
  refine forall₂_congr fun m _ => ?_
  unfold LoopCloses seenPose
  rw [hc0, Iso.one_mul, (kinExample_frozen hK h).1, Iso.one_mul]
  constructor
  · intro e; rw [← e, Iso.inv_mul_cancel_left hc]
  · intro e; rw [e, Iso.mul_inv_cancel_left hc]

/-- First run, exact measurements of any true offset: if the statistics report no errors, length and twist of the first link
are the true ones, up to the common change of sign that corresponds to a half turn of the first joint. Missing: the other two
offsets of the joint, see `C165_negation`. -/
theorem C165_partial (K : KCeres) (hK : K.WF) (rd rd' : Nat → Nat) (seed : Nat) (cm tm : Iso) (ms : List KinMeas)
    (hm : ExampleMeas ms) (hmv : MovesBothJoints ms) (cm0 tm0 : Iso) (o0 : V4) (hcm0 : RigidMotion cm0) (htm0 : RigidMotion tm0)
    (hex : ExactFor (twoAxisPositioner seed) ms cm0 tm0 o0) (r : KinResult) (st : KinStats)
    (h : kinExampleRun K rd rd' (kinExampleProblem seed cm tm (lastRowMask (twoAxisPositioner seed).dof)) ms = .ok (r, st))
    (hst : st.posMean = some 0 ∧ st.rotMean = some 0) :
    ∃ o, r.targetOffsets = [o, 0] ∧ Real.cos (-Real.pi / 2 + o0.alpha) = Real.cos (-Real.pi / 2 + o.alpha) ∧
      ∃ s : ℝ, (s = 1 ∨ s = -1) ∧ Real.sin (-Real.pi / 2 + o0.alpha) = s * Real.sin (-Real.pi / 2 + o.alpha) ∧ o0.r = s * o.r := by
  unfold kinExampleRun at h
  simp only [Res.bind_ok_iff] at h
  obtain ⟨r1, hr, s1, hs, e⟩ := h
  cases e
  obtain ⟨a, ha, b, hb, c, hc, x, y, x', y', ea, eb, ec, hx, hy⟩ := hmv
  have hne : ms ≠ [] := by rintro rfl; cases ha
  obtain ⟨-, -, o, ho⟩ := C164_first_run K hK seed cm tm 100 ms r hr
  have hcl := (exact_closes hK hr hm hne rd rd' st hs).1 hst
  obtain ⟨k1, k2, -⟩ := C47_rigid K hK _ _ r hr
  rw [ho] at hcl
  obtain ⟨d, g, d', g', -, -, e3⟩ := positioner_same ((rigid_iff _).2 k1) ((rigid_iff _).2 k2) ((rigid_iff _).2 hcm0)
    ((rigid_iff _).2 htm0) (seed := seed) (o := o) (o0 := o0) hx hy (by
      intro q hq
      simp only [List.mem_cons, List.not_mem_nil, or_false] at hq
      rcases hq with rfl | rfl | rfl
      · rw [← ea, ← hcl a ha, hex a ha]
      · rw [← eb, ← hcl b hb, hex b hb]
      · rw [← ec, ← hcl c hc, hex c hc])
  exact ⟨o, ho, link_gauge e3⟩

/-- Second run, exact measurements of the nominal chain: the statistics report no errors exactly if the true transforms are
found. -/
theorem C165_second_run (K : KCeres) (hK : K.WF) (rd rd' : Nat → Nat) (seed : Nat) (cm tm : Iso) (ms : List KinMeas)
    (hm : ExampleMeas ms) (hmv : MovesBothJoints ms) (cm0 tm0 : Iso) (hcm0 : RigidMotion cm0) (htm0 : RigidMotion tm0)
    (hex : ExactFor (twoAxisPositioner seed) ms cm0 tm0 0) (r : KinResult) (st : KinStats)
    (h : kinExampleRun K rd rd' (kinExampleProblem seed cm tm (allMask (twoAxisPositioner seed).dof)) ms = .ok (r, st)) :
    (st.posMean = some 0 ∧ st.rotMean = some 0) ↔ r.cmToC = cm0 ∧ r.tmToT = tm0 := by
  unfold kinExampleRun at h
  simp only [Res.bind_ok_iff] at h
  obtain ⟨r1, hr, s1, hs, e⟩ := h
  cases e
  obtain ⟨a, ha, b, hb, c, hc, x, y, x', y', ea, eb, ec, hx, hy⟩ := hmv
  have hne : ms ≠ [] := by rintro rfl; cases ha
  obtain ⟨-, -, ho⟩ := C164_second_run K hK seed cm tm 100 ms r hr
  rw [exact_closes hK hr hm hne rd rd' st hs, ho]
  constructor
  · intro hcl
    obtain ⟨k1, k2, -⟩ := C47_rigid K hK _ _ r hr
    have rc := (rigid_iff _).2 k1
    have rc0 := (rigid_iff _).2 hcm0
    obtain ⟨d, g, d', g', e1, e2, e3⟩ := positioner_same rc ((rigid_iff _).2 k2) rc0
      ((rigid_iff _).2 htm0) (seed := seed) (o := 0) (o0 := 0) hx hy (by
        intro q hq
        simp only [List.mem_cons, List.not_mem_nil, or_false] at hq
        rcases hq with rfl | rfl | rfl
        · rw [← ea, ← hcl a ha, hex a ha]
        · rw [← eb, ← hcl b hb, hex b hb]
        · rw [← ec, ← hcl c hc, hex c hc])
    obtain ⟨g1, g2⟩ := link_gauge_same (by
      rw [show -Real.pi / 2 + (0 : V4).alpha = -(Real.pi / 2) by rw [show (0 : V4).alpha = 0 from rfl]; ring,
        Real.sin_neg, Real.sin_pi_div_two]
      norm_num) e3
    rw [g1, Iso.mul_one] at e1
    rw [g2, Iso.one_mul] at e2
    have e4 := Iso.rigid_cancel_right ((positioner_base seed).mul (axisShift_rigid _ _)) e1
    refine ⟨?_, (Iso.rigid_cancel_left (axisShift_rigid _ _) e2).symm⟩
    have := congrArg (fun P => r.cmToC * P * cm0) e4
    simpa only [Iso.mul_inv rc, Iso.one_mul, Iso.mul_assoc, Iso.inv_mul rc0, Iso.mul_one] using this.symm
  · rintro ⟨e1, e2⟩ m hmem
    rw [e1, e2]
    exact hex m hmem

/-- Offset and angle of the first joint are compensated by the pose of the camera. -/
theorem seenPose_shift (seed : Nat) (cm tm : Iso) (o : V4) (d th x y : ℝ) :
    seenPose (twoAxisPositioner seed) ((twoAxisPositioner seed).base * axisShift d th * (twoAxisPositioner seed).base.inv * cm) tm
      [o + ⟨d, th, 0, 0⟩, 0] [x, y] = seenPose (twoAxisPositioner seed) cm tm [o, 0] [x, y] := by
  have hb := positioner_base seed
  have hS : ((twoAxisPositioner seed).base * axisShift d th * (twoAxisPositioner seed).base.inv).IsRigid :=
    (hb.mul (axisShift_rigid _ _)).mul hb.inv
  unfold seenPose
  rw [endPose_first _ hb [0] o x [y] d th (by simp [twoAxisPositioner])]
  generalize (twoAxisPositioner seed).base * axisShift d th * (twoAxisPositioner seed).base.inv = S at hS
  rw [Iso.mul_inv_rev hS, Iso.mul_assoc S, Iso.mul_assoc, Iso.inv_mul_cancel_left hS]

/-- Measurements with a value for each joint. -/
def TwoJoints (ms : List KinMeas) : Prop := ∀ m ∈ ms, m.targetJoints.length = 2

theorem objective_shift (seed : Nat) (cm tm : Iso) (o : V4) (d th : ℝ) {ms : List KinMeas}
    (h2 : TwoJoints ms) :
    (ms.map fun m => poseError m.cameraToTarget (seenPose (twoAxisPositioner seed)
      ((twoAxisPositioner seed).base * axisShift d th * (twoAxisPositioner seed).base.inv * cm) tm [o + ⟨d, th, 0, 0⟩, 0] m.targetJoints)) =
    ms.map fun m => poseError m.cameraToTarget (seenPose (twoAxisPositioner seed) cm tm [o, 0] m.targetJoints) := by
  refine List.map_congr_left fun m hm => ?_
  obtain ⟨x, y, e⟩ := List.length_eq_two.1 (h2 m hm)
  rw [e, seenPose_shift seed]

/-- The best calibration never has an offset along or about the axis of the first joint, whatever is measured. -/
theorem C165_optimum (seed : Nat) (ms : List KinMeas) (h2 : TwoJoints ms) (cm tm : Iso) (o : V4)
    (h : BestOfExample (twoAxisPositioner seed) ms cm tm o) : o.d = 0 ∧ o.theta = 0 := by
  obtain ⟨h1, h3, hb⟩ := h
  have rc := (rigid_iff _).2 h1
  have rb := positioner_base seed
  have rS : ((twoAxisPositioner seed).base * axisShift (-o.d) (-o.theta) * (twoAxisPositioner seed).base.inv).IsRigid :=
    (rb.mul (axisShift_rigid _ _)).mul rb.inv
  have := hb _ tm (o + ⟨-o.d, -o.theta, 0, 0⟩) ((rigid_iff _).1 (rS.mul rc)) h3
  unfold fixedCameraObjective at this
  rw [objective_shift seed cm tm o _ _ h2] at this
  simp [V4.add_def] at this
  constructor <;> nlinarith [sq_nonneg (o.d / (5 / 1000)), sq_nonneg (o.theta / (5 / 1000))]

/-- Full claim false: whatever the true offset along or about the axis of the first joint is, no best calibration reports it
unless it is zero; there is no disagreement with the measurements by which it could be noticed. -/
theorem C165_negation (seed : Nat) (ms : List KinMeas) (h2 : TwoJoints ms) (cm0 tm0 : Iso) (o0 : V4) (hcm0 : RigidMotion cm0)
    (hex : ExactFor (twoAxisPositioner seed) ms cm0 tm0 o0) (h0 : o0.d ≠ 0 ∨ o0.theta ≠ 0) :
    (∀ cm tm o, BestOfExample (twoAxisPositioner seed) ms cm tm o → o ≠ o0) ∧
    ∃ cm, RigidMotion cm ∧ ExactFor (twoAxisPositioner seed) ms cm tm0 ⟨0, 0, o0.r, o0.alpha⟩ := by
  constructor
  · rintro cm tm o hb rfl
    obtain ⟨e1, e2⟩ := C165_optimum seed ms h2 cm tm o hb
    rcases h0 with h | h
    · exact h e1
    · exact h e2
  · have rc := (rigid_iff _).2 hcm0
    have rb := positioner_base seed
    refine ⟨(twoAxisPositioner seed).base * axisShift (-o0.d) (-o0.theta) * (twoAxisPositioner seed).base.inv * cm0,
      (rigid_iff _).1 (((rb.mul (axisShift_rigid _ _)).mul rb.inv).mul rc), fun m hm => ?_⟩
    obtain ⟨x, y, e⟩ := List.length_eq_two.1 (h2 m hm)
    rw [hex m hm, e, ← seenPose_shift seed cm0 tm0 o0 (-o0.d) (-o0.theta)]
    congr 2
    simp [V4.add_def]

/-- The final cost of the first run is what `BestOfExample` compares, up to a constant factor. -/
theorem C165_cost (K : KCeres) (hK : K.WF) (seed : Nat) (cm tm : Iso) (ms : List KinMeas) (hm : ExampleMeas ms) (r : KinResult)
    (h : kinematic6 K (kinExampleProblem seed cm tm (lastRowMask (twoAxisPositioner seed).dof)) 100 ms = .ok r) :
    ∃ n : Nat, 4 * ms.length ≤ n ∧ n ≤ 4 * ms.length + 8 ∧
      r.finalCost = some (fixedCameraObjective (twoAxisPositioner seed) ms r.cmToC r.tmToT r.targetOffsets / 2 / n) := by
  obtain ⟨n, h1, h2, h3⟩ := C47_cost6 K hK (kinExampleProblem seed cm tm (lastRowMask (twoAxisPositioner seed).dof)) 100 ms r
    (show RigidMotion (1 : Iso) from Representable.one.1)
    (show RigidMotion (twoAxisPositioner seed).base from (rigid_iff _).1 (positioner_base seed)) (fun m hmm => (hm m hmm).2.2) h
  refine ⟨n, h1, h2, ?_⟩
  have hc0 : ∀ offs q, endPose ⟨[], 1⟩ offs q = 1 := fun offs q => by unfold endPose; cases offs <;> cases q <;> rfl
  obtain ⟨hb, ho, -⟩ := kinExample_frozen hK h
  rw [h3, ho]
  unfold fixedCameraObjective offsetPenalty
  simp only [List.map_nil, List.sum_nil, add_zero]
  have e : ∀ m : KinMeas, targetInCamera (kinExampleProblem seed cm tm (lastRowMask (twoAxisPositioner seed).dof)).cameraChain
      (kinExampleProblem seed cm tm (lastRowMask (twoAxisPositioner seed).dof)).targetChain r m.cameraJoints m.targetJoints =
      seenPose (twoAxisPositioner seed) r.cmToC r.tmToT r.targetOffsets m.targetJoints := by
    intro m
    unfold targetInCamera seenPose
    rw [show (kinExampleProblem seed cm tm (lastRowMask (twoAxisPositioner seed).dof)).cameraChain = ⟨[], 1⟩ from rfl, hc0, hb,
      Iso.one_mul, Iso.one_mul]
    rfl
  simp only [e]
  rfl

theorem poseError_self {X : Iso} (hX : X.IsRigid) : poseError X X = 0 := by
  unfold poseError
  rw [Iso.mul_inv hX, (rotAngle_eq_zero_iff hX hX).2 rfl]
  simp [V3.normSq, V3.dot]

/-- If only offset and angle of the first joint deviate, the nominal chain is a best calibration. -/
theorem C165_best (seed : Nat) (ms : List KinMeas) (h2 : TwoJoints ms) (cm0 tm0 : Iso) (d th : ℝ) (hcm0 : RigidMotion cm0)
    (htm0 : RigidMotion tm0) (hex : ExactFor (twoAxisPositioner seed) ms cm0 tm0 ⟨d, th, 0, 0⟩) :
    ∃ cm, BestOfExample (twoAxisPositioner seed) ms cm tm0 0 := by
  have rb := positioner_base seed
  have rc := (rigid_iff _).2 hcm0
  obtain ⟨cm, hc, he⟩ : ∃ cm, RigidMotion cm ∧ ExactFor (twoAxisPositioner seed) ms cm tm0 0 := by
    refine ⟨(twoAxisPositioner seed).base * axisShift (-d) (-th) * (twoAxisPositioner seed).base.inv * cm0,
      (rigid_iff _).1 (((rb.mul (axisShift_rigid _ _)).mul rb.inv).mul rc), fun m hm => ?_⟩
    obtain ⟨x, y, e⟩ := List.length_eq_two.1 (h2 m hm)
    rw [hex m hm, e, ← seenPose_shift seed cm0 tm0 ⟨d, th, 0, 0⟩ (-d) (-th)]
    congr 2
    ext <;> simp [V4.add_def] <;> rfl
  refine ⟨cm, hc, htm0, fun cm' tm' o' _ _ => ?_⟩
  have hz : fixedCameraObjective (twoAxisPositioner seed) ms cm tm0 [0, 0] = 0 := by
    unfold fixedCameraObjective
    have : ms.map (fun m => poseError m.cameraToTarget (seenPose (twoAxisPositioner seed) cm tm0 [0, 0] m.targetJoints)) =
        ms.map fun _ => (0 : ℝ) := by
      refine List.map_congr_left fun m hm => ?_
      rw [he m hm, poseError_self]
      exact ((rigid_iff _).2 hc).inv.mul ((endPose_rigid rb _ _).mul ((rigid_iff _).2 htm0))
    rw [this]
    simp [show (0 : V4).d = 0 from rfl, show (0 : V4).theta = 0 from rfl, show (0 : V4).r = 0 from rfl, show (0 : V4).alpha = 0 from rfl]
  rw [hz]
  unfold fixedCameraObjective
  refine add_nonneg (List.sum_nonneg ?_) (List.sum_nonneg ?_)
  · intro x hx
    obtain ⟨m, -, rfl⟩ := List.mem_map.1 hx
    unfold poseError V3.normSq V3.dot
    nlinarith [mul_self_nonneg (m.cameraToTarget * (seenPose (twoAxisPositioner seed) cm' tm' [o', 0] m.targetJoints).inv).t.x,
      mul_self_nonneg (m.cameraToTarget * (seenPose (twoAxisPositioner seed) cm' tm' [o', 0] m.targetJoints).inv).t.y,
      mul_self_nonneg (m.cameraToTarget * (seenPose (twoAxisPositioner seed) cm' tm' [o', 0] m.targetJoints).inv).t.z,
      sq_nonneg (100 * rotAngle (m.cameraToTarget.R * (seenPose (twoAxisPositioner seed) cm' tm' [o', 0] m.targetJoints).R.tr))]
  · intro x hx
    obtain ⟨v, -, rfl⟩ := List.mem_map.1 hx
    positivity

/-- Exact measurements that move both joints, of a chain whose first joint is mounted 5 mm too far along its axis: all
hypotheses above are met. -/
example (seed : Nat) : ∃ ms, ExampleMeas ms ∧ MovesBothJoints ms ∧ TwoJoints ms ∧
    ExactFor (twoAxisPositioner seed) ms 1 1 ⟨5 / 1000, 0, 0, 0⟩ ∧
    (∃ cm, BestOfExample (twoAxisPositioner seed) ms cm 1 0) := by
  obtain ⟨f, hf⟩ : ∃ f : List ℝ → KinMeas, f = fun q => ⟨seenPose (twoAxisPositioner seed) 1 1 [⟨5 / 1000, 0, 0, 0⟩, 0] q, [], q⟩ := ⟨_, rfl⟩
  have h2 : TwoJoints [f [0, 0], f [1, 0], f [0, 1]] := by
    intro m hm
    simp only [List.mem_cons, List.not_mem_nil, or_false] at hm
    rcases hm with rfl | rfl | rfl <;> simp [hf]
  have he : ExactFor (twoAxisPositioner seed) [f [0, 0], f [1, 0], f [0, 1]] 1 1 ⟨5 / 1000, 0, 0, 0⟩ := by
    intro m hm
    simp only [List.mem_cons, List.not_mem_nil, or_false] at hm
    rcases hm with rfl | rfl | rfl <;> simp [hf]
  have s1 : Real.sin 1 ≠ 0 := (Real.sin_pos_of_pos_of_lt_pi (by norm_num) (by linarith [Real.pi_gt_three])).ne'
  refine ⟨_, ?_, ⟨f [0, 0], by simp, f [1, 0], by simp, f [0, 1], by simp, 0, 0, 1, 1, ?_⟩, h2, he,
    C165_best seed _ h2 1 1 _ _ Representable.one.1 Representable.one.1 he⟩
  · intro m hm
    have h := h2 m hm
    have hr : RigidMotion m.cameraToTarget := by
      rw [he m hm, ← rigid_iff]
      exact Iso.IsRigid.one.inv.mul ((endPose_rigid (positioner_base seed) _ _).mul Iso.IsRigid.one)
    refine ⟨?_, h.le, hr⟩
    simp only [List.mem_cons, List.not_mem_nil, or_false] at hm
    rcases hm with rfl | rfl | rfl <;> simp [hf]
  · simp [hf, s1]

/-- Exact measurements of the nominal chain and a solver that keeps a perfect guess: statistics without errors, as in
`C165_partial` and `C165_second_run`. -/
example (seed : Nat) (rd rd' : Nat → Nat) (mask : List Int) (hmask : IsExampleMask mask) : ∃ ms, ExampleMeas ms ∧ MovesBothJoints ms ∧
    ExactFor (twoAxisPositioner seed) ms 1 1 0 ∧
    ∃ r st, kinExampleRun idKCeres rd rd' (kinExampleProblem seed 1 1 mask) ms = .ok (r, st) ∧
      st.posMean = some 0 ∧ st.rotMean = some 0 := by
  obtain ⟨f, hf⟩ : ∃ f : List ℝ → KinMeas, f = fun q => ⟨seenPose (twoAxisPositioner seed) 1 1 [0, 0] q, [], q⟩ := ⟨_, rfl⟩
  have he : ExactFor (twoAxisPositioner seed) [f [0, 0], f [1, 0], f [0, 1]] 1 1 0 := by
    intro m hm
    simp only [List.mem_cons, List.not_mem_nil, or_false] at hm
    rcases hm with rfl | rfl | rfl <;> simp [hf]
  have s1 : Real.sin 1 ≠ 0 := (Real.sin_pos_of_pos_of_lt_pi (by norm_num) (by linarith [Real.pi_gt_three])).ne'
  have hM : ExampleMeas [f [0, 0], f [1, 0], f [0, 1]] := by
    intro m hm
    have hr : RigidMotion m.cameraToTarget := by
      rw [he m hm, ← rigid_iff]
      exact Iso.IsRigid.one.inv.mul ((endPose_rigid (positioner_base seed) _ _).mul Iso.IsRigid.one)
    refine ⟨?_, ?_, hr⟩ <;>
    · simp only [List.mem_cons, List.not_mem_nil, or_false] at hm
      rcases hm with rfl | rfl | rfl <;> simp [hf]
  obtain ⟨r, st, h⟩ := kinExampleRun_returns (seed := seed) (cm := 1) (tm := 1) idKCeres_wf hmask hM (by simp) rd rd'
    (fun _ _ _ _ => ⟨rfl, rfl⟩)
  refine ⟨_, hM, ⟨f [0, 0], by simp, f [1, 0], by simp, f [0, 1], by simp, 0, 0, 1, 1, by simp [hf, s1]⟩, he, r, st, h, ?_⟩
  unfold kinExampleRun at h
  simp only [Res.bind_ok_iff] at h
  obtain ⟨r1, hr, s1, hs, e⟩ := h
  cases e
  obtain ⟨e1, e2, -, -, e3⟩ := C34_kinematic idKCeres idKCeres_wf (kinExampleProblem seed 1 1 mask) _ r (fun _ _ _ => rfl)
    (show KinRepresentable 1 from kinRepresentable_one) (show KinRepresentable 1 from kinRepresentable_one)
    (show KinRepresentable 1 from kinRepresentable_one) hr
  obtain ⟨a, b, hab⟩ := List.length_eq_two.1 (kinExample_frozen idKCeres_wf hr).2.2
  have ho : r.targetOffsets = [0, 0] := by
    rw [hab] at e3 ⊢
    rw [e3 a (by simp), e3 b (by simp)]
    rfl
  rw [exact_closes idKCeres_wf hr hM (by simp) rd rd' st hs, e1, e2, ho]
  exact he

/-- Both runs start from the loaded guesses and the nominal chain: a solver that does not move reports them. -/
theorem C164_guess (K K' : KCeres) (hK : K.WF) (hK' : K'.WF) (hstay : ∀ bs pb st, (K.run bs).solve pb st = st)
    (hstay' : ∀ bs pb st, (K'.run bs).solve pb st = st) (rd rd' rd'' rd''' : Nat → Nat) (seed : Nat) (cm tm : Iso)
    (hc : KinRepresentable cm) (ht : KinRepresentable tm) (ms : List KinMeas) (r r' : KinResult) (st st' : KinStats)
    (h : kinExampleMain K K' rd rd' rd'' rd''' seed cm tm ms = .ok ((r, st), (r', st'))) :
    (r.cmToC = cm ∧ r.tmToT = tm ∧ r.targetOffsets = [0, 0]) ∧ r'.cmToC = cm ∧ r'.tmToT = tm ∧ r'.targetOffsets = [0, 0] := by
  unfold kinExampleMain kinExampleRun at h
  simp only [Res.bind_ok_iff] at h
  obtain ⟨_, ⟨r1, hr, s1, -, e⟩, _, ⟨r2, hr', s2, -, e'⟩, e''⟩ := h
  cases e; cases e'; cases e''
  have key : ∀ (K : KCeres) (_ : K.WF) (_ : ∀ bs pb st, (K.run bs).solve pb st = st) (mask : List Int) (r : KinResult),
      kinematic6 K (kinExampleProblem seed cm tm mask) 100 ms = .ok r → r.cmToC = cm ∧ r.tmToT = tm ∧ r.targetOffsets = [0, 0] := by
    intro K hK hs mask r hr
    obtain ⟨e1, e2, -, -, e3⟩ := C34_kinematic K hK (kinExampleProblem seed cm tm mask) _ r hs
      (show KinRepresentable cm from hc) (show KinRepresentable tm from ht) (show KinRepresentable 1 from kinRepresentable_one) hr
    obtain ⟨a, b, hab⟩ := List.length_eq_two.1 (kinExample_frozen hK hr).2.2
    refine ⟨e1, e2, ?_⟩
    rw [hab] at e3 ⊢
    rw [e3 a (by simp), e3 b (by simp)]
    rfl
  exact ⟨key K hK hstay _ _ hr, key K' hK' hstay' _ _ hr'⟩

/-- A solver that does not move, and guesses it can represent. -/
example : (∀ bs pb st, (idKCeres.run bs).solve pb st = st) ∧ idKCeres.WF ∧ KinRepresentable 1 :=
  ⟨fun _ _ _ => rfl, idKCeres_wf, kinRepresentable_one⟩

end RCT
