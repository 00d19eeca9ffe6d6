import Verif.Lemmas.JetCosts
import Verif.Lemmas.Kinematic
import Verif.Lemmas.PoseSpec
import Verif.Lemmas.Frames
import Verif.Props.DHChain

/-!
# C156 The derivatives with which the solver works
-/

namespace RCT

open Spec Filter Topology

variable {s : ℝ}

/-! ## C156 Derivatives are those of the residuals

Full statement: along every motion of the parameters the derivative that the solver is given for a residual is the
derivative of that residual. `OffThreshold`, `AngleClear`, `BranchClear` and the conditions on depths say that no formula
switches at the point; at these switches residuals jump (C01, C02) or are not differentiable.

For the orientation residual of the kinematic calibration from poses the statement is false at perfect alignment:
`C156_negation`. -/

theorem C156_hand_eye (obs : V2) (A B : Iso) (pt : V3) (intr : Intr) {cam tgt : ℝ → Pose6} {jc jt : JPose}
    (hc : TanPose cam s jc) (ht : TanPose tgt s jt) (h1 : OffThreshold (cam s).rot) (h2 : OffThreshold (tgt s).rot)
    (hz : (targetPointInCamera A B pt (cam s) (tgt s)).z ≠ 0) :
    TanList (fun u => handEyeCost2 obs A B pt intr (cam u) (tgt u)) s (handEyeCost2J obs A B pt intr jc jt) :=
  residual2_tan intr obs (targetPointInCameraJ_tan A B pt hc ht h1 h2) hz

theorem C156_hand_eye_3d (obs : V3) (A B : Iso) (pt : V3) {cam tgt : ℝ → Pose6} {jc jt : JPose}
    (hc : TanPose cam s jc) (ht : TanPose tgt s jt) (h1 : OffThreshold (cam s).rot) (h2 : OffThreshold (tgt s).rot) :
    TanList (fun u => handEyeCost3 obs A B pt (cam u) (tgt u)) s (handEyeCost3J obs A B pt jc jt) :=
  residual3_tan obs (targetPointInCameraJ_tan A B pt hc ht h1 h2)

theorem C156_multi_static (obs : V2) (intr : Intr) (W : Iso) (pt : V3) {cam tgt : ℝ → Pose6} {jc jt : JPose}
    (hc : TanPose cam s jc) (ht : TanPose tgt s jt) (h1 : OffThreshold (cam s).rot) (h2 : OffThreshold (tgt s).rot)
    (hz : (transformPoint (cam s).rot (cam s).trans
      (poseTransformPoint (poseEigenToCal W) (transformPoint (tgt s).rot (tgt s).trans pt))).z ≠ 0) :
    TanList (fun u => msCost obs intr W pt (cam u) (tgt u)) s (msCostJ obs intr W pt jc jt) :=
  residual2_tan intr obs (hc.transformPoint h1 (poseTransformPointJ_tan _ (ht.transformPoint h2 (.const pt)))) hz

theorem C156_camera_only (obs : V2) (intr : Intr) (pt : V3) {cam tgt : ℝ → Pose6} {jc jt : JPose}
    (hc : TanPose cam s jc) (ht : TanPose tgt s jt) (h1 : OffThreshold (cam s).rot) (h2 : OffThreshold (tgt s).rot)
    (hz : (transformPoint (cam s).rot (cam s).trans (transformPoint (tgt s).rot (tgt s).trans pt)).z ≠ 0) :
    TanList (fun u => coFreeCost obs intr pt (cam u) (tgt u)) s (coFreeCostJ obs intr pt jc jt) :=
  residual2_tan intr obs (hc.transformPoint h1 (ht.transformPoint h2 (.const pt))) hz

theorem C156_camera_only_fixed (obs : V2) (intr : Intr) (C : Iso) (pt : V3) {tgt : ℝ → Pose6} {jt : JPose}
    (ht : TanPose tgt s jt) (h2 : OffThreshold (tgt s).rot)
    (hz : (poseTransformPoint (poseEigenToCal C.inv) (transformPoint (tgt s).rot (tgt s).trans pt)).z ≠ 0) :
    TanList (fun u => coFixedCost obs intr C pt (tgt u)) s (coFixedCostJ obs intr C pt jt) :=
  residual2_tan intr obs (poseTransformPointJ_tan _ (ht.transformPoint h2 (.const pt))) hz

theorem C156_wrist_only (obs : V2) (intr : Intr) (W C : Iso) (pt : V3) {corr tgt : ℝ → Pose6} {jc jt : JPose}
    (hc : TanPose corr s jc) (ht : TanPose tgt s jt) (h1 : OffThreshold (corr s).rot) (h2 : OffThreshold (tgt s).rot)
    (hz : (poseTransformPoint (poseEigenToCal C.inv) (transformPoint (corr s).rot (corr s).trans
      (poseTransformPoint (poseEigenToCal W) (transformPoint (tgt s).rot (tgt s).trans pt)))).z ≠ 0) :
    TanList (fun u => woCost obs intr W C pt (corr u) (tgt u)) s (woCostJ obs intr W C pt jc jt) :=
  residual2_tan intr obs (poseTransformPointJ_tan _
    (hc.transformPoint h1 (poseTransformPointJ_tan _ (ht.transformPoint h2 (.const pt))))) hz

theorem C156_multi_camera_pnp (obs : V2) (intr : Intr) (C : Iso) (pt : V3) {tgt : ℝ → Pose6} {jt : JPose}
    (ht : TanPose tgt s jt) (h2 : OffThreshold (tgt s).rot)
    (hz : (poseTransformPoint (poseEigenToCal C) (transformPoint (tgt s).rot (tgt s).trans pt)).z ≠ 0) :
    TanList (fun u => mcPnpCost obs intr C pt (tgt u)) s (mcPnpCostJ obs intr C pt jt) :=
  residual2_tan intr obs (poseTransformPointJ_tan _ (ht.transformPoint h2 (.const pt))) hz

theorem C156_intrinsics (pt : V3) (obs : V2) {pose intr : ℝ → Mem} {jp ji : JMem}
    (hp : ∀ k, Tan (fun u => pose u k) s (jp k)) (hi : ∀ k, Tan (fun u => intr u k) s (ji k))
    (h1 : OffThreshold (pose s).pose.rot)
    (hz : (transformPoint (pose s).pose.rot (pose s).pose.trans pt).z ≠ 0) :
    TanList (fun u => intrinsicCost pt obs (pose u) (intr u)) s (intrinsicCostJ pt obs jp ji) := by
  have hpose : TanPose (fun u => (pose u).pose) s jp.pose := ⟨⟨hp 0, hp 1, hp 2⟩, ⟨hp 3, hp 4, hp 5⟩⟩
  have hintr : TanIntr9 (fun u => (intr u).intr9) s ji.intr9 := ⟨hi 0, hi 1, hi 2, hi 3, hi 4, hi 5, hi 6, hi 7, hi 8⟩
  have h := projectPoints2J_tan hintr (hpose.transformPoint h1 (.const pt)) hz
  exact ⟨[_, _], fun u => rfl, .cons (h.x.sub (.const _ s)) (.cons (h.y.sub (.const _ s)) .nil)⟩

theorem C156_circle (obs : V2) {m : ℝ → Mem} {j : JMem} (h : ∀ k, Tan (fun u => m u k) s (j k)) :
    TanList (fun u => circleCost obs (m u)) s (circleCostJ obs j) := by
  have h0 := h 0
  have h1 := h 1
  have h2 := h 2
  have hx : Tan (fun _ => obs.x) s (Jet.const obs.x) := .const _ s
  have hy : Tan (fun _ => obs.y) s (Jet.const obs.y) := .const _ s
  refine ⟨[fun u => m u 2 * m u 2 * (m u 2 * m u 2) - (obs.x - m u 0) * (obs.x - m u 0) -
    (obs.y - m u 1) * (obs.y - m u 1)], fun u => rfl, .cons ?_ .nil⟩
  tan

theorem C156_pnp (intr : Intr) (pt : V3) (obs : V2) {aa t : ℝ → V3} {ja jt : JV3} (ha : TanV3 aa s ja) (ht : TanV3 t s jt)
    (h0 : aa s ≠ 0) (hz : ((pnpTransform (aa s) (t s)).apply pt).z ≠ 1 / 10 ^ 10) :
    TanList (fun u => pnpCost2 intr pt obs (aa u) (t u)) s (pnpCost2J intr pt obs ja jt) :=
  residual2E_tan intr obs ((pnpTransformJ_tan ha ht h0).apply (.const pt)) hz

theorem C156_pnp_3d (pt obs : V3) {aa t : ℝ → V3} {ja jt : JV3} (ha : TanV3 aa s ja) (ht : TanV3 t s jt) (h0 : aa s ≠ 0) :
    TanList (fun u => pnpCost3 pt obs (aa u) (t u)) s (pnpCost3J pt obs ja jt) :=
  residual3_tan obs ((pnpTransformJ_tan ha ht h0).apply (.const pt))

theorem C156_kinematic {e : ℝ} (he : 0 ≤ e) (cc tc : DHChain) (intr : Intr) (o : KinObs) (k : Corr2) {p : ℝ → Nat → Mem}
    {jp : Nat → JMem} (hp : TanMem p s jp) (hc : ∀ a, a = 3 ∨ a = 5 ∨ a = 7 → AngleClear e (p s a).v3)
    (hz : ∀ T, kinCameraToTarget cc tc o.cameraJoints o.targetJoints (p s) = .ok T → (T.apply k.inTarget).z ≠ 1 / 10 ^ 10)
    (js : List Jet) (hj : kinCost2J e cc tc intr o k jp = .ok js) :
    ∃ F : ℝ → List ℝ, (∀ u, kinCost2 cc tc intr o k (p u) = .ok (F u)) ∧ TanList F s js :=
  kinCost2J_tan he cc tc intr o k hp hc hz js hj

/-- Missing: perfect alignment (see `C156_negation`), orientations that differ by half a turn and those at which the
conversion to a quaternion switches its formula. -/
theorem C156_kinematic_6d_partial {e : ℝ} (he : 0 ≤ e) (cc tc : DHChain) (w : ℝ) (m : KinMeas) {p : ℝ → Nat → Mem}
    {jp : Nat → JMem} (hp : TanMem p s jp) (hc : ∀ a, a = 3 ∨ a = 5 ∨ a = 7 → AngleClear e (p s a).v3)
    (hb : ∀ T, kinCameraToTarget cc tc m.cameraJoints m.targetJoints (p s) = .ok T →
      BranchClear T.R ∧ (m.cameraToTarget.R.toQuat * T.R.toQuat.conj).w ≠ 0 ∧
        (m.cameraToTarget.R.toQuat * T.R.toQuat.conj).vec ≠ 0)
    (hm : BranchClear m.cameraToTarget.R) (hfin : ∀ a k, FiniteJet (jp a k))
    (js : List Jet) (hj : kinCost6J e cc tc w m jp = .ok js) :
    ∃ F : ℝ → List ℝ, (∀ u, kinCost6 cc tc w m (p u) = .ok (F u)) ∧ TanList F s js :=
  kinCost6J_tan he cc tc w m hp hc hb hm hfin js hj

/-- The priors on the joint offsets. -/
theorem C156_prior (blocks : List Block) (a : Nat) (c : DHChain) (stdev : ℝ) (hsd : stdev ≠ 0) (rbs : List (ResBlock Mem))
    (h : kinPrior blocks a c stdev = .ok rbs) {p : ℝ → Nat → Mem} {jp : Nat → JMem} (hp : TanMem p s jp) (js : List Jet)
    (hj : kinPriorJ c a stdev jp = .ok js) (rb : ResBlock Mem) (hrb : rb ∈ rbs) : TanList (fun u => rb.residual (p u)) s js := by
  unfold kinPriorJ at hj
  rw [Res.ok.injEq] at hj
  subst hj
  unfold kinPrior at h
  split at h
  · rw [Res.bind_ok_iff] at h
    obtain ⟨const, -, h⟩ := h
    split at h
    · cases h; cases hrb
    · rw [Res.bind_ok_iff] at h
      obtain ⟨ml, hml, h⟩ := h
      cases h
      rw [List.mem_singleton] at hrb
      subst hrb
      simp only [MaxLik.make, ne_eq, not_true_eq_false, if_false, Res.ok.injEq] at hml
      subst hml
      refine ⟨(List.range (kinRows c * 4)).map fun k u => (p u a k - 0) / stdev, fun u => ?_, ?_⟩
      · simp [ResBlock.residual, evalMem1, MaxLik.eval]
      · rw [List.forall₂_map_left_iff, List.forall₂_map_right_iff, List.forall₂_same]
        intro k _
        exact ((hp a k).sub (.const _ s)).div (.const _ s) hsd
  · cases h; cases hrb

/-! ### Perfect alignment -/

theorem trace_conj {A X : M3} (hA : A.IsRot) : (A * X * A.tr).trace = X.trace := by
  have h := hA.1
  rw [M3.mul_def, M3.one_def] at h
  simp only [M3.tr, M3.mk.injEq] at h
  obtain ⟨a1, a2, a3, a4, a5, a6, a7, a8, a9⟩ := h
  simp only [M3.mul_def, M3.tr, M3.trace]
  grind

/-- Turning one frame in the middle of a product about its axis by `u` turns the whole by `|u|`. -/
theorem rotAngle_middle {A B : M3} (hA : A.IsRot) (hB : B.IsRot) {a : V3} (ha : a.normSq = 1) (th u : ℝ)
    (hu : |u| ≤ Real.pi) :
    rotAngle (A * AngleAxis.toMat ⟨th, a⟩ * B * (A * AngleAxis.toMat ⟨th + u, a⟩ * B).tr) = |u| := by
  have key : A * AngleAxis.toMat ⟨th, a⟩ * B * (A * AngleAxis.toMat ⟨th + u, a⟩ * B).tr =
      A * (AngleAxis.toMat ⟨th, a⟩ * (AngleAxis.toMat ⟨th + u, a⟩).tr) * A.tr := by
    rw [M3.tr_mul, M3.tr_mul]
    have hBB : B * B.tr = 1 := hB.mul_tr
    calc _ = A * AngleAxis.toMat ⟨th, a⟩ * (B * B.tr) * ((AngleAxis.toMat ⟨th + u, a⟩).tr * A.tr) := by
          simp only [M3.mul_assoc]
      _ = _ := by rw [hBB]; simp only [M3.mul_assoc, M3.one_mul, M3.mul_one]
  unfold rotAngle
  have tr := trace_conj (X := AngleAxis.toMat ⟨th, a⟩ * (AngleAxis.toMat ⟨th + u, a⟩).tr) hA
  unfold M3.trace at tr
  rw [key, tr]
  have : ((AngleAxis.toMat ⟨th, a⟩ * (AngleAxis.toMat ⟨th + u, a⟩).tr).m00 +
      (AngleAxis.toMat ⟨th, a⟩ * (AngleAxis.toMat ⟨th + u, a⟩).tr).m11 +
      (AngleAxis.toMat ⟨th, a⟩ * (AngleAxis.toMat ⟨th + u, a⟩).tr).m22 - 1) / 2 = Real.cos |u| := by
    rw [Real.cos_abs]
    have e1 := Real.sin_sq_add_cos_sq th
    have e2 : Real.cos u = Real.cos (th + u) * Real.cos th + Real.sin (th + u) * Real.sin th := by
      rw [← Real.cos_sub]; congr 1; ring
    simp only [V3.normSq, V3.dot] at ha
    simp only [AngleAxis.toMat, M3.mul_def, M3.tr]
    rw [e2]
    generalize Real.cos th = c at *
    generalize Real.sin th = d at *
    generalize Real.cos (th + u) = c' at *
    generalize Real.sin (th + u) = d' at *
    obtain ⟨x, y, z⟩ := a
    simp only at *
    linear_combination ((1 - c) * (1 - c') * (x * x + y * y + z * z + 1) / 2 + (c + c' - 2 * c * c') / 2 + d * d') * ha
  rw [this, Real.arccos_cos (abs_nonneg u) hu]

/-- The state in which the offset of the angle of the first joint of the target chain (block 1, one row: element 1) is
larger by `u`. -/
def turned (p : Nat → Mem) (u : ℝ) : Nat → Mem := fun a k => if a = 1 ∧ k = 1 then p a k + u else p a k

/-- The same direction for the solver. -/
def turnedJ (p : Nat → Mem) : Nat → JMem := fun a k => ⟨p a k, some (if a = 1 ∧ k = 1 then 1 else 0)⟩

theorem turned_tan (p : Nat → Mem) : TanMem (turned p) 0 (turnedJ p) := by
  intro a k
  unfold turned turnedJ
  by_cases h : a = 1 ∧ k = 1
  · simp only [if_pos h]
    have := Tan.of_deriv (f := fun u : ℝ => p a k + u) (s := 0) (f' := 1) (by
      simpa using (hasDerivAt_id (0 : ℝ)).const_add (p a k))
    simpa using this
  · simp only [if_neg h]
    exact .const _ _

/-- The numbers of a matrix of jets. -/
def JM3.vals (m : JM3) : M3 :=
  ⟨m.m00.a, m.m01.a, m.m02.a, m.m10.a, m.m11.a, m.m12.a, m.m20.a, m.m21.a, m.m22.a⟩

theorem toQuatJ_vals (m : JM3) :
    m.toQuat.w.a = m.vals.toQuat.w ∧ m.toQuat.x.a = m.vals.toQuat.x ∧ m.toQuat.y.a = m.vals.toQuat.y ∧
      m.toQuat.z.a = m.vals.toQuat.z := by
  have ht : m.trace.a = m.vals.trace := rfl
  unfold JM3.toQuat M3.toQuat
  rw [ht]
  have e : m.vals.m00 = m.m00.a ∧ m.vals.m11 = m.m11.a ∧ m.vals.m22 = m.m22.a := ⟨rfl, rfl, rfl⟩
  rw [e.1, e.2.1, e.2.2]
  split
  · have h1 : (m.trace + 1).a = m.vals.trace + 1 := rfl
    refine ⟨?_, ?_, ?_, ?_⟩ <;> simp only [Jet.mul_a, Jet.div_a, Jet.sub_a, Jet.sqrt_a, Jet.const_a, h1, JM3.vals] <;> ring
  split
  · split <;> refine ⟨?_, ?_, ?_, ?_⟩ <;>
      simp only [Jet.mul_a, Jet.div_a, Jet.sub_a, Jet.add_a, Jet.one_a, Jet.sqrt_a, Jet.const_a, JM3.vals] <;> ring
  · split <;> refine ⟨?_, ?_, ?_, ?_⟩ <;>
      simp only [Jet.mul_a, Jet.div_a, Jet.sub_a, Jet.add_a, Jet.one_a, Jet.sqrt_a, Jet.const_a, JM3.vals] <;> ring

theorem TanM3.vals {f : ℝ → M3} {j : JM3} (h : TanM3 f s j) : j.vals = f s := by
  obtain ⟨a00, a01, a02, a10, a11, a12, a20, a21, a22⟩ := h
  ext
  · exact a00.val.symm
  · exact a01.val.symm
  · exact a02.val.symm
  · exact a10.val.symm
  · exact a11.val.symm
  · exact a12.val.symm
  · exact a20.val.symm
  · exact a21.val.symm
  · exact a22.val.symm

/-- Between equal orientations the derivative of the angle is not finite. -/
theorem aligned_none (R : M3) (j : JM3) (h : j.vals = R) : ((JM3.const R).toQuat.angularDistance j.toQuat).v = none := by
  apply angularDistanceJ_aligned
  obtain ⟨a1, a2, a3, a4⟩ := toQuatJ_vals (JM3.const R)
  obtain ⟨b1, b2, b3, b4⟩ := toQuatJ_vals j
  have e : (JM3.const R).vals = R := rfl
  rw [e] at a1 a2 a3 a4
  rw [h] at b1 b2 b3 b4
  simp only [JQuat.mul, JQuat.conj, Jet.add_a, Jet.sub_a, Jet.mul_a, Jet.neg_a, a1, a2, a3, a4, b1, b2, b3, b4]
  refine ⟨?_, ?_, ?_⟩ <;> ring

/-- In every calibration from poses, at parameters that reproduce the measured pose: the solver is told, whatever the
direction, that the orientation residual does not change. If the target chain has one revolute joint, then turning that
joint by `u` changes the residual to `w |u|`. -/
theorem C156_negation {e : ℝ} (he : 0 ≤ e) (cc tc : DHChain) (h1 : cc.base.IsRigid) (h2 : tc.base.IsRigid) (w : ℝ)
    (m : KinMeas) (p : Nat → Mem) (hc : ∀ a, a = 3 ∨ a = 5 ∨ a = 7 → AngleClear e (p a).v3)
    (hm : kinCameraToTarget cc tc m.cameraJoints m.targetJoints p = .ok m.cameraToTarget) :
    (∀ (c : ℝ → Nat → Mem) (jc : Nat → JMem), TanMem c 0 jc → c 0 = p → ∀ js, kinCost6J e cc tc w m jc = .ok js →
      js[3]? = some 0) ∧
    ∀ (t : DHTransform) (q : ℝ), tc.transforms = [t] → t.type = .revolute → m.targetJoints = [q] →
      ∀ u, |u| ≤ Real.pi → ∃ x y z, kinCost6 cc tc w m (turned p u) = .ok [x, y, z, w * |u|] := by
  constructor
  · intro c jc htan h0 js hj
    unfold kinCost6J at hj
    simp only [Res.bind_ok_iff, Res.ok.injEq] at hj
    obtain ⟨T, hT, rfl⟩ := hj
    obtain ⟨F, hF, hFt⟩ := kinCameraToTargetJ_tan he cc tc _ _ htan (by rw [h0]; exact hc) T hT
    have hF0 : F 0 = m.cameraToTarget := by
      have := hF 0
      rw [h0, hm, Res.ok.injEq] at this
      exact this.symm
    have := aligned_none m.cameraToTarget.R T.R (by rw [hFt.R.vals, hF0])
    rw [if_pos this]; rfl
  · intro t q ht hr hq u hu
    have hdof : tc.dof = 1 := by unfold DHChain.dof; rw [ht]; rfl
    unfold kinCost6
    rw [kinCameraToTarget_eq] at hm ⊢
    split at hm
    swap
    · cases hm
    rename_i hlen
    rw [if_pos hlen]
    have hjoint : ∀ v : ℝ, endPose tc ((turned p v 1).dhRows tc.dof) m.targetJoints =
        tc.base * Spec.dhMatrix (t.params.d + p 1 0) (t.params.theta + (p 1 1 + v) + q) (t.params.r + p 1 2)
          (t.params.alpha + p 1 3) := by
      intro v
      rw [hdof, hq]
      simp [endPose, ht, Mem.dhRows, chainPose, jointPose, hr, turned, List.range_one]
    have hsame : ∀ a v, a ≠ 1 → turned p v a = p a := by
      intro a v ha
      funext k; unfold turned; rw [if_neg fun h => ha h.1]
    have h0 : turned p 0 = p := by
      funext a k; unfold turned; split <;> simp
    have hE := hjoint 0
    rw [h0] at hE
    simp only [Res.ok.injEq] at hm
    rw [hE] at hm
    simp only [Res.ok_bind]
    rw [hsame 0 u (by decide), hsame 2 u (by decide), hsame 3 u (by decide), hsame 4 u (by decide), hsame 5 u (by decide),
      hsame 6 u (by decide), hsame 7 u (by decide), hjoint u]
    have hR : ∀ d th r al : ℝ, (Spec.dhMatrix d th r al).R =
        AngleAxis.toMat ⟨th, ⟨0, 0, 1⟩⟩ * AngleAxis.toMat ⟨al, ⟨1, 0, 0⟩⟩ := by
      intro d th r al
      simp only [Spec.dhMatrix, AngleAxis.toMat, M3.mul_def]
      ext <;> simp
    obtain ⟨C, hC⟩ : ∃ C, C = (endPose cc ((p 0).dhRows cc.dof) m.cameraJoints * kinTransform (p 2).v3 (p 3).v3).inv := ⟨_, rfl⟩
    have hCr : C.IsRigid := by
      rw [hC]; exact ((endPose_rigid h1 _ _).mul (kinTransform_rigid _ _)).inv
    rw [← hC] at hm ⊢
    have hrotx : (AngleAxis.toMat ⟨t.params.alpha + p 1 3, ⟨1, 0, 0⟩⟩).IsRot :=
      AngleAxis.toMat_isRot (by simp [V3.normSq, V3.dot])
    have hA : (C.R * ((kinTransform (p 6).v3 (p 7).v3).R * tc.base.R)).IsRot :=
      hCr.mul ((kinTransform_rigid _ _).mul h2)
    have hB : (AngleAxis.toMat ⟨t.params.alpha + p 1 3, ⟨1, 0, 0⟩⟩ * (kinTransform (p 4).v3 (p 5).v3).R).IsRot :=
      hrotx.mul (kinTransform_rigid _ _)
    have hRu : ∀ v : ℝ, (C * (kinTransform (p 6).v3 (p 7).v3 * (tc.base * Spec.dhMatrix (t.params.d + p 1 0)
        (t.params.theta + (p 1 1 + v) + q) (t.params.r + p 1 2) (t.params.alpha + p 1 3)) *
        kinTransform (p 4).v3 (p 5).v3)).R =
        C.R * ((kinTransform (p 6).v3 (p 7).v3).R * tc.base.R) *
          AngleAxis.toMat ⟨t.params.theta + p 1 1 + q + v, ⟨0, 0, 1⟩⟩ *
          (AngleAxis.toMat ⟨t.params.alpha + p 1 3, ⟨1, 0, 0⟩⟩ * (kinTransform (p 4).v3 (p 5).v3).R) := by
      intro v
      rw [show t.params.theta + p 1 1 + q + v = t.params.theta + (p 1 1 + v) + q by ring]
      show C.R * ((kinTransform (p 6).v3 (p 7).v3).R * (tc.base.R * (Spec.dhMatrix _ _ _ _).R) *
        (kinTransform (p 4).v3 (p 5).v3).R) = _
      rw [hR]
      simp only [M3.mul_assoc]
    have hrot : ∀ v : ℝ, (AngleAxis.toMat ⟨v, ⟨0, 0, 1⟩⟩).IsRot := fun v =>
      AngleAxis.toMat_isRot (by simp [V3.normSq, V3.dot])
    have hm' := congrArg Iso.R hm
    rw [hRu 0] at hm'
    refine ⟨_, _, _, congrArg (fun r => Res.ok [_, _, _, w * r]) ?_⟩
    rw [hRu u, ← hm', angularDistance_eq ((hA.mul (hrot _)).mul hB) ((hA.mul (hrot _)).mul hB), add_zero]
    exact rotAngle_middle hA hB (by simp [V3.normSq, V3.dot]) _ u hu

/-! ### Non-vacuity -/

theorem affine_tan (a d : ℝ) : Tan (fun u => a + u * d) 0 ⟨a, some d⟩ := by
  have h : HasDerivAt (fun u : ℝ => a + u * d) d 0 := by
    simpa using ((hasDerivAt_id (0 : ℝ)).mul_const d).const_add a
  simpa using Tan.of_deriv h

/-- A pose without rotation, two units ahead, that starts to turn about x and to move along x. -/
def exMoving (u : ℝ) : Pose6 := ⟨0 + u * 1, 0 + u * 0, 0 + u * 0, 0 + u * 1, 0 + u * 0, 2 + u * 0⟩

def exMovingJ : JPose := ⟨⟨⟨0, some 1⟩, ⟨0, some 0⟩, ⟨0, some 0⟩⟩, ⟨⟨0, some 1⟩, ⟨0, some 0⟩, ⟨2, some 0⟩⟩⟩

theorem exMoving_tan : TanPose exMoving 0 exMovingJ :=
  ⟨⟨affine_tan 0 1, affine_tan 0 0, affine_tan 0 0⟩, ⟨affine_tan 0 1, affine_tan 0 0, affine_tan 2 0⟩⟩

theorem exMoving_off : OffThreshold (exMoving 0).rot := by
  have := dblEps_pos
  simp [OffThreshold, exMoving, Pose6.rot, V3.dot, this.ne]

theorem exMoving_point (p : V3) : transformPoint (exMoving 0).rot (exMoving 0).trans p = ⟨p.x, p.y, p.z + 2⟩ := by
  have h : ¬ (0 : ℝ) > dblEps := not_lt.2 dblEps_pos.le
  simp [transformPoint, angleAxisRotatePoint, exMoving, Pose6.rot, Pose6.trans, V3.dot, V3.cross, h]

theorem pose_one_point (p : V3) : poseTransformPoint (poseEigenToCal 1) p = p := by
  rw [poseTransformPoint_eq, Representable.one.roundtrip]; simp

/-- Non-vacuity of `C156_hand_eye`, `C156_hand_eye_3d`, `C156_multi_static`, `C156_camera_only`,
`C156_camera_only_fixed`, `C156_wrist_only` and `C156_multi_camera_pnp`. -/
example : TanPose exMoving 0 exMovingJ ∧ OffThreshold (exMoving 0).rot ∧
    (targetPointInCamera 1 1 ⟨1, 0, 0⟩ (exMoving 0) (exMoving 0)).z ≠ 0 ∧
    (poseTransformPoint (poseEigenToCal (1 : Iso).inv)
      (transformPoint (exMoving 0).rot (exMoving 0).trans ⟨1, 0, 0⟩)).z ≠ 0 := by
  refine ⟨exMoving_tan, exMoving_off, ?_, ?_⟩
  · unfold targetPointInCamera
    simp only [pose_one_point, exMoving_point]
    norm_num
  · have h : (1 : Iso).inv = 1 := by simp
    rw [h, pose_one_point, exMoving_point]
    norm_num

/-- Non-vacuity of `C156_intrinsics`: a pose block that moves. -/
example : (∀ k, Tan (fun u => (exMoving u).mem k) 0 (match k with
      | 0 => exMovingJ.rot.x | 1 => exMovingJ.rot.y | 2 => exMovingJ.rot.z | 3 => exMovingJ.trans.x
      | 4 => exMovingJ.trans.y | 5 => exMovingJ.trans.z | _ => Jet.const 0)) ∧
    OffThreshold (exMoving 0).mem.pose.rot ∧
    (transformPoint (exMoving 0).mem.pose.rot (exMoving 0).mem.pose.trans ⟨1, 0, 0⟩).z ≠ 0 := by
  refine ⟨fun k => ?_, exMoving_off, ?_⟩
  · match k with
    | 0 => exact affine_tan 0 1
    | 1 => exact affine_tan 0 0
    | 2 => exact affine_tan 0 0
    | 3 => exact affine_tan 0 1
    | 4 => exact affine_tan 0 0
    | 5 => exact affine_tan 2 0
    | n + 6 => exact .const 0 0
  · have := exMoving_point ⟨1, 0, 0⟩
    have e : (exMoving 0).mem.pose = exMoving 0 := rfl
    rw [e, this]; norm_num

/-- Non-vacuity of `C156_circle`: the radius grows. -/
example : ∀ k : Nat, Tan (fun u => (fun k => if k = 2 then 1 + u * 1 else 0 : Mem) k) 0
    (if k = 2 then ⟨1, some 1⟩ else Jet.const 0) := by
  intro k
  by_cases h : k = 2
  · simp only [if_pos h]; exact affine_tan 1 1
  · simp only [if_neg h]; exact .const 0 0

/-- Non-vacuity of `C156_pnp` and `C156_pnp_3d`: a unit rotation vector that turns. -/
example : TanV3 (fun u => ⟨1 + u * 0, 0 + u * 1, 0 + u * 0⟩) 0 ⟨⟨1, some 0⟩, ⟨0, some 1⟩, ⟨0, some 0⟩⟩ ∧
    (⟨1, 0, 0⟩ : V3) ≠ 0 ∧ ((pnpTransform ⟨1, 0, 0⟩ ⟨0, 0, 2⟩).apply ⟨0, 0, 0⟩).z ≠ 1 / 10 ^ 10 := by
  refine ⟨⟨affine_tan 1 0, affine_tan 0 1, affine_tan 0 0⟩, fun h => ?_, ?_⟩
  · have := congrArg V3.x h
    norm_num at this
  · simp [Iso.apply, pnpTransform, M3.mulVec]
    norm_num

/-- A chain of one joint. -/
noncomputable def exJoint : DHChain := ⟨[DHTransform.mk4 ⟨1, 0, 1, 0⟩ .revolute "j" 0], 1⟩

/-- Non-vacuity of `C156_prior`: a chain of one joint whose offsets are not held constant has a prior. -/
example : ∃ rb, kinPrior [{ addr := 0, size := 4, constant := false }] 0 exJoint 1 = .ok [rb] := by
  rw [kinPrior, if_pos (by simp [DHChain.dof, exJoint])]
  simp [isConstantBlock, MaxLik.make]

/-- Non-vacuity of `C156_negation`, and of the conditions of `C156_kinematic`: all parameters are zero, and the measured
pose is that of the model. -/
example : ∃ m : KinMeas, m.targetJoints = [1] ∧ exJoint.transforms = [DHTransform.mk4 ⟨1, 0, 1, 0⟩ .revolute "j" 0] ∧
    exJoint.base.IsRigid ∧
    (∀ a, a = 3 ∨ a = 5 ∨ a = 7 → AngleClear dblEps (Mem.v3 ((fun _ _ => 0 : Nat → Mem) a))) ∧
    kinCameraToTarget ⟨[], 1⟩ exJoint m.cameraJoints m.targetJoints (fun _ _ => 0) = .ok m.cameraToTarget ∧
    TanMem (turned fun _ _ => 0) 0 (turnedJ fun _ _ => 0) ∧ turned (fun _ _ => 0) 0 = fun _ _ => 0 := by
  obtain ⟨X, hX⟩ : ∃ X, kinCameraToTarget ⟨[], 1⟩ exJoint [] [1] (fun _ _ => 0) = .ok X := by
    rw [kinCameraToTarget_eq, if_pos (by simp [DHChain.dof, exJoint])]
    exact ⟨_, rfl⟩
  refine ⟨⟨X, [], [1]⟩, rfl, rfl, Iso.IsRigid.one, fun a _ => .inr ?_, hX, turned_tan _, ?_⟩
  · have h : (⟨0, 0, 0⟩ : V3).norm = 0 := V3.norm_eq_zero.2 rfl
    show (⟨0, 0, 0⟩ : V3).norm < dblEps ∧ (⟨0, 0, 0⟩ : V3).norm ≤ dblEps
    rw [h]
    exact ⟨dblEps_pos, dblEps_pos.le⟩
  · funext a k; simp [turned]

/-- Non-vacuity of `C156_kinematic_6d_partial`: no chains, zero parameters, and a measured orientation that is turned
against the model's. -/
example : ∃ m : KinMeas, BranchClear m.cameraToTarget.R ∧
    (∃ T, kinCameraToTarget ⟨[], 1⟩ ⟨[], 1⟩ m.cameraJoints m.targetJoints (fun _ _ => 0) = .ok T) ∧
    ∀ T, kinCameraToTarget ⟨[], 1⟩ ⟨[], 1⟩ m.cameraJoints m.targetJoints (fun _ _ => 0) = .ok T →
      BranchClear T.R ∧ (m.cameraToTarget.R.toQuat * T.R.toQuat.conj).w ≠ 0 ∧
        (m.cameraToTarget.R.toQuat * T.R.toQuat.conj).vec ≠ 0 := by
  have hk : kinTransform ⟨0, 0, 0⟩ ⟨0, 0, 0⟩ = 1 := by
    have h0 : (⟨0, 0, 0⟩ : V3).norm = 0 := V3.norm_eq_zero.2 rfl
    rw [kinTransform_small (by rw [h0]; exact not_lt.2 dblEps_pos.le)]; rfl
  have hT : kinCameraToTarget ⟨[], 1⟩ ⟨[], 1⟩ [] [] (fun _ _ => 0) = .ok 1 := by
    rw [kinCameraToTarget_eq, if_pos (by simp [DHChain.dof])]
    simp [endPose, chainPose, Mem.v3, hk]
  have h4 : Real.sqrt 4 = 2 := by rw [show (4 : ℝ) = 2 * 2 by norm_num]; exact Real.sqrt_mul_self (by norm_num)
  have q1 : (1 : M3).toQuat = ⟨1, 0, 0, 0⟩ := by
    unfold M3.toQuat
    have ht : (1 : M3).trace = 3 := by simp [M3.trace, M3.one_def]; norm_num
    rw [ht, if_pos (by norm_num)]
    have : Real.sqrt (3 + 1) = 2 := by rw [show (3 : ℝ) + 1 = 4 by norm_num, h4]
    simp [this, M3.one_def]
  refine ⟨⟨⟨⟨4 / 5, -3 / 5, 0, 3 / 5, 4 / 5, 0, 0, 0, 1⟩, 0⟩, [], []⟩, .inl ?_, ⟨1, hT⟩, fun T hT' => ?_⟩
  · simp [M3.trace]; norm_num
  · rw [hT, Res.ok.injEq] at hT'
    subst hT'
    have hs : 0 < Real.sqrt ((4 / 5 + 4 / 5 + 1 : ℝ) + 1) := Real.sqrt_pos.2 (by norm_num)
    have q2 : (⟨4 / 5, -3 / 5, 0, 3 / 5, 4 / 5, 0, 0, 0, 1⟩ : M3).toQuat =
        ⟨Real.sqrt ((4 / 5 + 4 / 5 + 1 : ℝ) + 1) / 2, 0, 0,
          (3 / 5 - -3 / 5) * (1 / 2 / Real.sqrt ((4 / 5 + 4 / 5 + 1 : ℝ) + 1))⟩ := by
      unfold M3.toQuat
      simp only [M3.trace]
      rw [if_pos (by norm_num)]
      simp
    refine ⟨.inl (by simp [M3.trace, M3.one_def]; norm_num), ?_, fun hv => ?_⟩
    · show ((⟨4 / 5, -3 / 5, 0, 3 / 5, 4 / 5, 0, 0, 0, 1⟩ : M3).toQuat * (1 : M3).toQuat.conj).w ≠ 0
      rw [q1, q2]
      simp [Quat.mul_def, Quat.conj, hs.ne']
    · have hz := congrArg V3.z hv
      change ((⟨4 / 5, -3 / 5, 0, 3 / 5, 4 / 5, 0, 0, 0, 1⟩ : M3).toQuat * (1 : M3).toQuat.conj).z = 0 at hz
      rw [q1, q2] at hz
      simp [Quat.mul_def, Quat.conj] at hz
      rcases hz with hz | hz
      · norm_num at hz
      · exact hs.ne' hz

end RCT
