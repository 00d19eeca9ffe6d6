import Verif.Lemmas.RoundedOrient
import Verif.Props.RoundedKinCost

/-!
# C236 The residual of the orientation in double arithmetic
-/

namespace RCT

open Spec

/-- The residual is the weight times the angle between the measured and the predicted orientation, up to a small error. -/
theorem C236_orientation {D : Double} (hD : D.WF) {at2 : ℝ → ℝ → ℝ} (ha : Double.Atan2WF at2) {cc' tc' cc tc : DHChain} {m : KinMeas} {X : Iso} {p : Nat → Mem}
    {k : Calib} {n w : ℝ} (hk : StoresCalib p cc'.dof tc'.dof k) (hc : StoredChain cc' cc k.offC m.cameraJoints)
    (ht : StoredChain tc' tc k.offT m.targetJoints) (hX : RigidMotion X) (hm : PoseErrorUpTo (1 / 10 ^ 15) (X.t.norm / 10 ^ 15) m.cameraToTarget X)
    (hn : n = m.cameraJoints.length + m.targetJoints.length + 2) :
    ∃ e, D.kinOrientation at2 cc' tc' w m p = .ok e ∧
      |e - w * rotAngle (X.R * (k.predicts cc tc m.cameraJoints m.targetJoints).R.tr)| ≤ |w| * n / 10 ^ 7 := by
  obtain ⟨u1, u2⟩ := Double.dblUnit_bounds
  have hu := dblUnit_pos
  obtain ⟨T', e, rg, nr, n2, nu⟩ := hD.predict hk hc ht hn
  have hXr := (rigid_iff _).2 hX
  obtain ⟨δ, hδ⟩ : ∃ δ, δ = 101000 * n * dblUnit := ⟨_, rfl⟩
  have d0 : 1000 * dblUnit ≤ δ := by rw [hδ]; exact mul_le_mul_of_nonneg_right (by linarith) hu.le
  have d1 : δ ≤ 1 / 10000 := by rw [hδ]; linarith
  have en := nr.rot.entries
  have f : ∀ {x : ℝ}, |x| ≤ 101000 * n * dblUnit → |x| ≤ δ := fun h => by rw [hδ]; exact h
  have g : ∀ {x : ℝ}, |x| ≤ 1 / 10 ^ 15 → |x| ≤ δ := fun h => by linarith
  have nb := hD.toQuat_near (A' := T'.R) rg (by linarith) d1 (f en.m00) (f en.m01) (f en.m02) (f en.m10) (f en.m11) (f en.m12) (f en.m20) (f en.m21) (f en.m22)
  have na := hD.toQuat_near (A' := m.cameraToTarget.R) hXr (by linarith) d1 (g hm.m00) (g hm.m01) (g hm.m02) (g hm.m10) (g hm.m11) (g hm.m12) (g hm.m20)
    (g hm.m21) (g hm.m22)
  have main := hD.angle_near ha hXr rg d0 d1 na nb
  have rb : |rotAngle (X.R * (k.predicts cc tc m.cameraJoints m.targetJoints).R.tr)| ≤ 4 := by
    unfold rotAngle
    rw [abs_of_nonneg (Real.arccos_nonneg _)]
    have := Real.pi_lt_d2
    exact (Real.arccos_le_pi _).trans (by linarith)
  have last := hD.prod_step (a := w) (a' := w) (e := 0) (A := |w|) (by simp) main le_rfl rb
  refine ⟨_, ?_, last.trans ?_⟩
  · unfold Double.kinOrientation
    rw [e]; rfl
  · have w0 := abs_nonneg w
    have b1 : 5000 * δ ≤ 7 / 10 ^ 8 * n := by
      have : dblUnit * n ≤ 12 / 10 ^ 17 * n := mul_le_mul_of_nonneg_right u1 (by linarith)
      rw [hδ]; linarith
    have b2 : 5000 * δ + dblUnit * (4 + 5000 * δ) ≤ n / 10 ^ 7 := by
      have : dblUnit * (4 + 5000 * δ) ≤ dblUnit * 5 := mul_le_mul_of_nonneg_left (by linarith) hu.le
      linarith
    have := mul_le_mul_of_nonneg_left b2 w0
    linarith

/-! ## Without rounding the computation is that of the calibration -/

theorem Double.exact_toQuat (m : M3) : Double.exact.toQuat m = m.toQuat := by
  unfold Double.toQuat M3.toQuat Double.pivot
  simp only [Double.exact, Double.add, Double.sub, Double.mul, Double.div, id, M3.trace]
  by_cases h : m.m00 + m.m11 + m.m22 > 0
  · simp only [h, if_true]; ext <;> simp only <;> ring
  · by_cases h1 : m.m11 > m.m00
    · by_cases h2 : m.m22 > m.m11
      · simp only [h, h1, h2, if_true, if_false]; ext <;> simp only <;> ring
      · simp only [h, h1, h2, if_true, if_false]; ext <;> simp only <;> ring
    · by_cases h2 : m.m22 > m.m00
      · simp only [h, h1, h2, if_true, if_false]; ext <;> simp only <;> ring
      · simp only [h, h1, h2, if_false]; ext <;> simp only <;> ring

theorem Double.exact_angularDistance (a b : Quat) : Double.exact.angularDistance RCT.atan2 a b = a.angularDistance b := by
  have e : Double.exact.mulQuat a b.conj = a * b.conj := by
    rw [Quat.mul_def]
    unfold Double.mulQuat Double.sum4
    simp only [Double.exact, Double.add, Double.mul, id, ← sub_eq_add_neg]
  unfold Double.angularDistance Quat.angularDistance
  simp only [e]
  rfl

theorem C236_same (cc tc : DHChain) (w : ℝ) (m : KinMeas) (p : Nat → Mem) (a : ℝ) :
    Double.exact.kinOrientation RCT.atan2 cc tc w m p = .ok a ↔ ∃ x y z, kinCost6 cc tc w m p = .ok [x, y, z, a] := by
  unfold Double.kinOrientation kinCost6
  rw [Double.exact_kinCameraToTarget]
  simp only [Double.exact_toQuat, Double.exact_angularDistance]
  have em : ∀ x y, Double.exact.mul x y = x * y := fun _ _ => rfl
  simp only [em]
  cases kinCameraToTarget cc tc m.cameraJoints m.targetJoints p with
  | ok T =>
    simp only [Res.bind, Res.ok.injEq]
    constructor
    · rintro rfl; exact ⟨_, _, _, rfl⟩
    · rintro ⟨x, y, z, h⟩
      simp only [List.cons.injEq] at h
      exact h.2.2.2.1
  | throw _ => simp [Res.bind]
  | abort => simp [Res.bind]
  | ub => simp [Res.bind]

/-! ## Example -/

/-- Camera and target at the same place, measured half a turn apart. -/
example (D : Double) (hD : D.WF) (at2 : ℝ → ℝ → ℝ) (ha : Double.Atan2WF at2) :
    ∃ e, D.kinOrientation at2 ⟨[], 1⟩ ⟨[], 1⟩ 3 ⟨⟨⟨-1, 0, 0, 0, -1, 0, 0, 0, 1⟩, 0⟩, [], []⟩ (fun _ _ => 0) = .ok e ∧ |e - 3 * Real.pi| ≤ 1 / 10 ^ 6 := by
  have none : IsRotVec 0 (1 : M3) := by
    refine ⟨⟨0, 0, 1⟩, 0, ⟨by norm_num [V3.normSq, V3.dot], ?_⟩, by ext <;> simp [V3.smul]⟩
    intro p
    ext <;> simp [M3.mulVec, V3.smul, V3.cross, V3.dot]
  have n0 : (0 : V3).norm = 0 := V3.norm_eq_zero.2 rfl
  have one : RigidMotion 1 := (rigid_iff _).1 Iso.IsRigid.one
  have refl : ∀ T : Iso, PoseErrorUpTo (1 / 10 ^ 15) (T.t.norm / 10 ^ 15) T T := by
    intro T
    have := V3.norm_nonneg T.t
    constructor <;> simp <;> positivity
  obtain ⟨k, hk⟩ : ∃ k : Calib, k = ⟨1, 1, 1, [], []⟩ := ⟨_, rfl⟩
  have hp : (k.predicts ⟨[], 1⟩ ⟨[], 1⟩ [] []).R = 1 := by
    subst hk
    simp [Calib.predicts, endPose, chainPose, Iso.inv, Iso.mul_def, M3.mul_def, M3.tr, M3.mulVec]
    ext <;> simp
  have chain : StoredChain ⟨[], 1⟩ ⟨[], 1⟩ [] [] := ⟨rfl, one, refl _, by simp, by simp, by simp [FewTurns]⟩
  have sp : StoresPose (fun _ => 0) (fun _ => 0) 1 := ⟨by simp [StoresVec], 0, by simp [StoresVec], none, by rw [n0]; norm_num⟩
  have hX : RigidMotion ⟨⟨-1, 0, 0, 0, -1, 0, 0, 0, 1⟩, 0⟩ := by
    apply (rigid_iff _).1
    refine ⟨?_, ?_⟩
    · ext <;> simp [M3.tr, M3.mul_def]
    · simp [M3.det]
  obtain ⟨e, e1, e2⟩ := C236_orientation hD ha (cc' := ⟨[], 1⟩) (tc' := ⟨[], 1⟩) (cc := ⟨[], 1⟩) (tc := ⟨[], 1⟩) (m := ⟨⟨⟨-1, 0, 0, 0, -1, 0, 0, 0, 1⟩, 0⟩, [], []⟩)
    (X := ⟨⟨-1, 0, 0, 0, -1, 0, 0, 0, 1⟩, 0⟩) (p := fun _ _ => 0) (k := k) (n := 2) (w := 3)
    (by subst hk; exact ⟨⟨rfl, by simp⟩, ⟨rfl, by simp⟩, sp, sp, sp⟩) (by subst hk; exact chain) (by subst hk; exact chain) hX (refl _) (by norm_num)
  refine ⟨e, e1, ?_⟩
  simp only [hp] at e2
  have : rotAngle (⟨-1, 0, 0, 0, -1, 0, 0, 0, 1⟩ * (1 : M3).tr) = Real.pi := by
    unfold rotAngle
    simp [M3.mul_def, M3.tr]
    norm_num
  rw [this] at e2
  norm_num at e2 ⊢
  linarith

end RCT
