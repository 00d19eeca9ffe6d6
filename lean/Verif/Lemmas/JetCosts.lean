import Verif.Lemmas.JetFinite

/-!
# The cost functors and their derivatives
-/

namespace RCT

open Spec Filter Topology

variable {s : ℝ}

/-- Rotation by a fixed angle-axis vector. -/
theorem angleAxisRotatePointJ_const_tan (aa : V3) {pt : ℝ → V3} {jp : JV3} (hp : TanV3 pt s jp) :
    TanV3 (fun u => angleAxisRotatePoint aa (pt u)) s (angleAxisRotatePointJ (.const aa) jp) := by
  by_cases h0 : ((JV3.const aa).dot (.const aa)).a = dblEps
  · have ha := TanV3.const (s := s) aa
    have hc := ha.cross hp
    have hj : angleAxisRotatePointJ (.const aa) jp = jp.add ((JV3.const aa).cross jp) := by
      unfold angleAxisRotatePointJ; rw [if_neg (not_lt.2 h0.le)]; rfl
    rw [hj]
    refine (hp.add hc).congr (Eventually.of_forall fun u => ?_)
    dsimp only
    unfold angleAxisRotatePoint
    have h1 : aa.dot aa = dblEps := h0
    rw [if_neg (not_lt.2 h1.le)]; rfl
  · exact angleAxisRotatePointJ_tan (.const aa) hp h0

theorem poseTransformPointJ_tan (p : Pose6) {pt : ℝ → V3} {jp : JV3} (hp : TanV3 pt s jp) :
    TanV3 (fun u => poseTransformPoint p (pt u)) s (poseTransformPointJ p jp) :=
  (angleAxisRotatePointJ_const_tan _ hp).add (.const _)

theorem poseTransformPointJ_finite (p : Pose6) {jp : JV3} (hp : FinV3 jp) : FinV3 (poseTransformPointJ p jp) :=
  transformPointJ_finite (.const _) (.const _) hp

/-- A pose that moves. -/
structure TanPose (f : ℝ → Pose6) (s : ℝ) (j : JPose) : Prop where
  rot : TanV3 (fun u => (f u).rot) s j.rot
  trans : TanV3 (fun u => (f u).trans) s j.trans

structure FinPose (j : JPose) : Prop where
  rot : FinV3 j.rot
  trans : FinV3 j.trans

/-- The squared angle is not the threshold of `ceres::AngleAxisRotatePoint`. -/
def OffThreshold (aa : V3) : Prop := aa.dot aa ≠ dblEps

theorem TanPose.transformPoint {f : ℝ → Pose6} {j : JPose} (h : TanPose f s j) (h0 : OffThreshold (f s).rot) {pt : ℝ → V3}
    {jp : JV3} (hp : TanV3 pt s jp) :
    TanV3 (fun u => RCT.transformPoint (f u).rot (f u).trans (pt u)) s (transformPointJ j.rot j.trans jp) := by
  refine transformPointJ_tan h.rot h.trans hp fun e => h0 ?_
  rw [← e]; exact (h.rot.dot h.rot).val

theorem residual2_tan (intr : Intr) (obs : V2) {f : ℝ → V3} {j : JV3} (h : TanV3 f s j) (h0 : (f s).z ≠ 0) :
    TanList (fun u => [(projectPoint intr (f u)).x - obs.x, (projectPoint intr (f u)).y - obs.y]) s
      [(projectPointJ intr j).x - Jet.const obs.x, (projectPointJ intr j).y - Jet.const obs.y] := by
  have hp := projectPointJ_tan intr h (by rw [← h.z.val]; exact h0)
  exact ⟨[fun u => (projectPoint intr (f u)).x - obs.x, fun u => (projectPoint intr (f u)).y - obs.y], fun u => rfl,
    .cons (hp.x.sub (.const _ s)) (.cons (hp.y.sub (.const _ s)) .nil)⟩

theorem residual2E_tan (intr : Intr) (obs : V2) {f : ℝ → V3} {j : JV3} (h : TanV3 f s j) (h0 : (f s).z ≠ 1 / 10 ^ 10) :
    TanList (fun u => [(projectPointE intr (f u)).x - obs.x, (projectPointE intr (f u)).y - obs.y]) s
      [(projectPointEJ intr j).x - Jet.const obs.x, (projectPointEJ intr j).y - Jet.const obs.y] := by
  have hp := projectPointEJ_tan intr h (by rw [← h.z.val]; exact h0)
  exact ⟨[fun u => (projectPointE intr (f u)).x - obs.x, fun u => (projectPointE intr (f u)).y - obs.y], fun u => rfl,
    .cons (hp.x.sub (.const _ s)) (.cons (hp.y.sub (.const _ s)) .nil)⟩

theorem residual3_tan (obs : V3) {f : ℝ → V3} {j : JV3} (h : TanV3 f s j) :
    TanList (fun u => [(f u).x - obs.x, (f u).y - obs.y, (f u).z - obs.z]) s
      [j.x - Jet.const obs.x, j.y - Jet.const obs.y, j.z - Jet.const obs.z] :=
  ⟨[fun u => (f u).x - obs.x, fun u => (f u).y - obs.y, fun u => (f u).z - obs.z], fun u => rfl,
    .cons (h.x.sub (.const _ s)) (.cons (h.y.sub (.const _ s)) (.cons (h.z.sub (.const _ s)) .nil))⟩

theorem targetPointInCameraJ_tan (A B : Iso) (pt : V3) {cam tgt : ℝ → Pose6} {jc jt : JPose} (hc : TanPose cam s jc)
    (ht : TanPose tgt s jt) (h1 : OffThreshold (cam s).rot) (h2 : OffThreshold (tgt s).rot) :
    TanV3 (fun u => targetPointInCamera A B pt (cam u) (tgt u)) s (targetPointInCameraJ A B pt jc jt) :=
  hc.transformPoint h1 (poseTransformPointJ_tan _ (poseTransformPointJ_tan _ (ht.transformPoint h2 (.const pt))))

/-- All residuals have finite derivatives. -/
def AllFinite (js : List Jet) : Prop := ∀ j ∈ js, FiniteJet j

theorem residual2_finite (intr : Intr) (obs : V2) {j : JV3} (h : FinV3 j) :
    AllFinite [(projectPointJ intr j).x - Jet.const obs.x, (projectPointJ intr j).y - Jet.const obs.y] := by
  obtain ⟨h1, h2⟩ := projectPointJ_finite intr h
  intro k hk
  simp only [List.mem_cons, List.not_mem_nil, or_false] at hk
  rcases hk with rfl | rfl
  · exact h1.sub (.const _)
  · exact h2.sub (.const _)

theorem residual2E_finite (intr : Intr) (obs : V2) {j : JV3} (h : FinV3 j) :
    AllFinite [(projectPointEJ intr j).x - Jet.const obs.x, (projectPointEJ intr j).y - Jet.const obs.y] := by
  obtain ⟨h1, h2⟩ := projectPointEJ_finite intr h
  intro k hk
  simp only [List.mem_cons, List.not_mem_nil, or_false] at hk
  rcases hk with rfl | rfl
  · exact h1.sub (.const _)
  · exact h2.sub (.const _)

theorem residual3_finite (obs : V3) {j : JV3} (h : FinV3 j) :
    AllFinite [j.x - Jet.const obs.x, j.y - Jet.const obs.y, j.z - Jet.const obs.z] := by
  intro k hk
  simp only [List.mem_cons, List.not_mem_nil, or_false] at hk
  rcases hk with rfl | rfl | rfl
  · exact h.x.sub (.const _)
  · exact h.y.sub (.const _)
  · exact h.z.sub (.const _)

theorem FinPose.transformPoint {j : JPose} (h : FinPose j) {p : JV3} (hp : FinV3 p) :
    FinV3 (transformPointJ j.rot j.trans p) := transformPointJ_finite h.rot h.trans hp

theorem targetPointInCameraJ_finite (A B : Iso) (pt : V3) {jc jt : JPose} (hc : FinPose jc) (ht : FinPose jt) :
    FinV3 (targetPointInCameraJ A B pt jc jt) :=
  hc.transformPoint (poseTransformPointJ_finite _ (poseTransformPointJ_finite _ (ht.transformPoint (.const pt))))

/-! ## PnP -/

theorem V3.dot_self_pos_of_ne {v : V3} (h : v ≠ 0) : 0 < v.dot v := by
  rcases lt_or_eq_of_le (show 0 ≤ v.dot v by
      unfold V3.dot; nlinarith [mul_self_nonneg v.x, mul_self_nonneg v.y, mul_self_nonneg v.z]) with h' | h'
  · exact h'
  · refine absurd ?_ h
    have e : v.x * v.x + v.y * v.y + v.z * v.z = 0 := h'.symm
    ext
    · show v.x = 0; nlinarith [mul_self_nonneg v.x, mul_self_nonneg v.y, mul_self_nonneg v.z]
    · show v.y = 0; nlinarith [mul_self_nonneg v.x, mul_self_nonneg v.y, mul_self_nonneg v.z]
    · show v.z = 0; nlinarith [mul_self_nonneg v.x, mul_self_nonneg v.y, mul_self_nonneg v.z]

theorem pnpTransformJ_tan {aa t : ℝ → V3} {ja jt : JV3} (ha : TanV3 aa s ja) (ht : TanV3 t s jt) (h0 : aa s ≠ 0) :
    TanIso (fun u => pnpTransform (aa u) (t u)) s (pnpTransformJ ja jt) := by
  have hd := (ha.dot ha).val
  have hpos : 0 < (ja.dot ja).a := by
    rw [← hd]
    exact V3.dot_self_pos_of_ne h0
  exact ⟨.ofAngleAxis ha.norm (ha.normalized hpos), ht⟩

/-! ## Intrinsics -/

structure TanIntr9 (f : ℝ → Intr9) (s : ℝ) (j : JIntr9) : Prop where
  fx : Tan (fun u => (f u).fx) s j.fx
  fy : Tan (fun u => (f u).fy) s j.fy
  cx : Tan (fun u => (f u).cx) s j.cx
  cy : Tan (fun u => (f u).cy) s j.cy
  k1 : Tan (fun u => (f u).k1) s j.k1
  k2 : Tan (fun u => (f u).k2) s j.k2
  p1 : Tan (fun u => (f u).p1) s j.p1
  p2 : Tan (fun u => (f u).p2) s j.p2
  k3 : Tan (fun u => (f u).k3) s j.k3

theorem projectPoints2J_tan {i : ℝ → Intr9} {ji : JIntr9} (hi : TanIntr9 i s ji) {f : ℝ → V3} {j : JV3} (h : TanV3 f s j)
    (h0 : (f s).z ≠ 0) : TanV2 (fun u => projectPoints2 (i u) (f u)) s (projectPoints2J ji j) := by
  have hz : j.z.a ≠ 0 := by rw [← h.z.val]; exact h0
  have hx := h.x.div h.z hz
  have hy := h.y.div h.z hz
  have two : Tan (fun _ => (2 : ℝ)) s (Jet.const 2) := .const 2 s
  obtain ⟨a1, a2, a3, a4, a5, a6, a7, a8, a9⟩ := hi
  have hev := h.z.cont.eventually_ne h0
  unfold projectPoints2J
  simp only [if_neg hz]
  constructor
  · refine Tan.congr (f := fun u =>
      let xp := (f u).x / (f u).z
      let yp := (f u).y / (f u).z
      (i u).fx * (xp + (i u).k1 * (xp * xp + yp * yp) * xp + (i u).k2 * ((xp * xp + yp * yp) * (xp * xp + yp * yp)) * xp +
        (i u).k3 * ((xp * xp + yp * yp) * ((xp * xp + yp * yp) * (xp * xp + yp * yp))) * xp +
        (i u).p2 * (xp * xp + yp * yp + 2 * (xp * xp)) + (i u).p1 * xp * yp * 2) + (i u).cx) ?_
      (hev.mono fun u hu => by dsimp only [projectPoints2]; simp only [if_neg hu])
    dsimp only
    tan
  · refine Tan.congr (f := fun u =>
      let xp := (f u).x / (f u).z
      let yp := (f u).y / (f u).z
      (i u).fy * (yp + (i u).k1 * (xp * xp + yp * yp) * yp + (i u).k2 * ((xp * xp + yp * yp) * (xp * xp + yp * yp)) * yp +
        (i u).k3 * ((xp * xp + yp * yp) * ((xp * xp + yp * yp) * (xp * xp + yp * yp))) * yp +
        (i u).p1 * (xp * xp + yp * yp + 2 * (yp * yp)) + (i u).p2 * xp * yp * 2) + (i u).cy) ?_
      (hev.mono fun u hu => by dsimp only [projectPoints2]; simp only [if_neg hu])
    dsimp only
    tan

structure FinIntr9 (j : JIntr9) : Prop where
  fx : FiniteJet j.fx
  fy : FiniteJet j.fy
  cx : FiniteJet j.cx
  cy : FiniteJet j.cy
  k1 : FiniteJet j.k1
  k2 : FiniteJet j.k2
  p1 : FiniteJet j.p1
  p2 : FiniteJet j.p2
  k3 : FiniteJet j.k3

theorem projectPoints2J_finite {i : JIntr9} (hi : FinIntr9 i) {j : JV3} (h : FinV3 j) :
    FiniteJet (projectPoints2J i j).x ∧ FiniteJet (projectPoints2J i j).y := by
  obtain ⟨a1, a2, a3, a4, a5, a6, a7, a8, a9⟩ := hi
  unfold projectPoints2J
  by_cases hz : j.z.a = 0
  · simp only [if_pos hz]
    have hx := h.x
    have hy := h.y
    constructor <;> fin_jet
  · simp only [if_neg hz]
    have hx := h.x.div h.z hz
    have hy := h.y.div h.z hz
    constructor <;> fin_jet

/-! ## Kinematic calibration -/

theorem kinCost2J_tan {e : ℝ} (he : 0 ≤ e) (cc tc : DHChain) (intr : Intr) (o : KinObs) (k : Corr2) {p : ℝ → Nat → Mem}
    {jp : Nat → JMem} (hp : TanMem p s jp) (hc : ∀ a, a = 3 ∨ a = 5 ∨ a = 7 → AngleClear e (p s a).v3)
    (hz : ∀ T, kinCameraToTarget cc tc o.cameraJoints o.targetJoints (p s) = .ok T → (T.apply k.inTarget).z ≠ 1 / 10 ^ 10)
    (js : List Jet) (hj : kinCost2J e cc tc intr o k jp = .ok js) :
    ∃ F : ℝ → List ℝ, (∀ u, kinCost2 cc tc intr o k (p u) = .ok (F u)) ∧ TanList F s js := by
  unfold kinCost2J at hj
  simp only [Res.bind_ok_iff, Res.ok.injEq] at hj
  obtain ⟨T, hT, rfl⟩ := hj
  obtain ⟨F, hF, hFt⟩ := kinCameraToTargetJ_tan he cc tc _ _ hp hc T hT
  refine ⟨_, fun u => ?_, residual2E_tan intr k.inImage (hFt.apply (.const k.inTarget)) (hz _ (hF s))⟩
  unfold kinCost2
  rw [hF u]; rfl

theorem kinCost6J_tan {e : ℝ} (he : 0 ≤ e) (cc tc : DHChain) (w : ℝ) (m : KinMeas) {p : ℝ → Nat → Mem}
    {jp : Nat → JMem} (hp : TanMem p s jp) (hc : ∀ a, a = 3 ∨ a = 5 ∨ a = 7 → AngleClear e (p s a).v3)
    (hb : ∀ T, kinCameraToTarget cc tc m.cameraJoints m.targetJoints (p s) = .ok T →
      BranchClear T.R ∧ (m.cameraToTarget.R.toQuat * T.R.toQuat.conj).w ≠ 0 ∧
        (m.cameraToTarget.R.toQuat * T.R.toQuat.conj).vec ≠ 0)
    (hm : BranchClear m.cameraToTarget.R)
    (hfin : ∀ a k, FiniteJet (jp a k))
    (js : List Jet) (hj : kinCost6J e cc tc w m jp = .ok js) :
    ∃ F : ℝ → List ℝ, (∀ u, kinCost6 cc tc w m (p u) = .ok (F u)) ∧ TanList F s js := by
  unfold kinCost6J at hj
  simp only [Res.bind_ok_iff, Res.ok.injEq] at hj
  obtain ⟨T, hT, rfl⟩ := hj
  obtain ⟨F, hF, hFt⟩ := kinCameraToTargetJ_tan he cc tc _ _ hp hc T hT
  obtain ⟨h1, h2, h3⟩ := hb _ (hF s)
  have herr := (TanIso.const (s := s) m.cameraToTarget).mul hFt.inv
  have hq := toQuatJ_tan (TanM3.const (s := s) m.cameraToTarget.R) hm
  have hq' := toQuatJ_tan hFt.R h1
  have hd : TanQuat (fun u => m.cameraToTarget.R.toQuat * (F u).R.toQuat.conj) s
      ((JM3.const m.cameraToTarget.R).toQuat.mul T.R.toQuat.conj) := by
    obtain ⟨a1, a2, a3, a4⟩ := hq
    obtain ⟨b1, b2, b3, b4⟩ := hq'
    constructor <;> simp only [Quat.mul_def, Quat.conj, JQuat.mul, JQuat.conj] <;> tan
  have hang := angularDistanceJ_tan hq hq' (by rw [← hd.w.val]; exact h2)
  have hTf := kinCameraToTargetJ_finite he cc tc _ _ jp hfin T hT
  obtain ⟨v, hv⟩ := angularDistanceJ_finite (toQuatJ_finite (.const m.cameraToTarget.R)) (toQuatJ_finite hTf.R) (by
    rw [← hd.x.val, ← hd.y.val, ← hd.z.val]
    exact fun hh => h3 (V3.ext hh.1 hh.2.1 hh.2.2))
  refine ⟨fun u => [(m.cameraToTarget * (F u).inv).t.x, (m.cameraToTarget * (F u).inv).t.y,
    (m.cameraToTarget * (F u).inv).t.z, w * m.cameraToTarget.R.toQuat.angularDistance (F u).R.toQuat], fun u => ?_, ?_⟩
  · unfold kinCost6
    rw [hF u]; rfl
  · rw [if_neg (by rw [hv]; exact Option.some_ne_none v)]
    exact ⟨[fun u => (m.cameraToTarget * (F u).inv).t.x, fun u => (m.cameraToTarget * (F u).inv).t.y,
      fun u => (m.cameraToTarget * (F u).inv).t.z,
      fun u => w * m.cameraToTarget.R.toQuat.angularDistance (F u).R.toQuat], fun u => rfl,
      .cons herr.t.x (.cons herr.t.y (.cons herr.t.z (.cons ((Tan.const w s).mul hang) .nil)))⟩

end RCT
