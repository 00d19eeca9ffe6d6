import Verif.Props.Derivatives
import Verif.Props.KinematicRuns
import Verif.Props.Identify
import Verif.Spec.Steps

/-!
# C157-C160 What the solver can do at a guess

Automatic derivatives at the guess decide whether the solver can evaluate the problem at all, and which parameters it can
change.
-/

namespace RCT

open Spec

/-! ## C157 PnP starts from every guess

Full statement: at every guess the derivatives of all residuals of PnP are finite, so that the solver can start. It is
false for guesses without rotation (`C157_negation`, `C157_negation_run`, `C157_negation_run_3d`). -/

/-- Numbers and derivatives of a vector. -/
def JV3.at (p d : V3) : JV3 := ⟨⟨p.x, some d.x⟩, ⟨p.y, some d.y⟩, ⟨p.z, some d.z⟩⟩

theorem FinV3.at (p d : V3) : FinV3 (.at p d) := ⟨⟨_, rfl⟩, ⟨_, rfl⟩, ⟨_, rfl⟩⟩

/-- Missing: guesses without rotation. -/
theorem C157_partial (aa t da dt : V3) (h : aa ≠ 0) :
    (∀ intr pt obs, AllFinite (pnpCost2J intr pt obs (.at aa da) (.at t dt))) ∧
    ∀ pt obs, AllFinite (pnpCost3J pt obs (.at aa da) (.at t dt)) := by
  have hpos : 0 < ((JV3.at aa da).dot (.at aa da)).a := V3.dot_self_pos_of_ne h
  have hR : FinM3 (pnpTransformJ (.at aa da) (.at t dt)).R :=
    .ofAngleAxis ((FinV3.at aa da).norm hpos) ((FinV3.at aa da).normalized hpos)
  have hT : FinIso (pnpTransformJ (.at aa da) (.at t dt)) := ⟨hR, .at t dt⟩
  exact ⟨fun intr pt obs => residual2E_finite intr obs (hT.apply (.const pt)),
    fun pt obs => residual3_finite obs (hT.apply (.const pt))⟩

theorem pnpTransformJ_none (da : V3) (jt : JV3) (pt : V3) :
    ((pnpTransformJ (.at 0 da) jt).apply (.const pt)).x.v = none ∧
    ((pnpTransformJ (.at 0 da) jt).apply (.const pt)).y.v = none ∧
    ((pnpTransformJ (.at 0 da) jt).apply (.const pt)).z.v = none := by
  have hn : (JV3.at 0 da).norm.v = none := by
    apply Jet.sqrt_none
    show (0 : ℝ) * 0 + 0 * 0 + 0 * 0 = 0
    norm_num
  have hc := Jet.cos_none hn
  have h0 : (pnpTransformJ (.at 0 da) jt).R.m00.v = none := Jet.add_none hc
  have h1 : (pnpTransformJ (.at 0 da) jt).R.m11.v = none := Jet.add_none hc
  have h2 : (pnpTransformJ (.at 0 da) jt).R.m22.v = none := Jet.add_none hc
  refine ⟨?_, ?_, ?_⟩
  · exact Jet.none_add (Jet.none_add (Jet.none_add (Jet.none_mul h0)))
  · exact Jet.none_add (Jet.none_add (Jet.add_none (Jet.none_mul h1)))
  · exact Jet.none_add (Jet.add_none (Jet.none_mul h2))

/-- At a guess without rotation no derivative of any residual is finite, in no direction. -/
theorem C157_negation (t da dt : V3) :
    (∀ intr pt obs, ∀ j ∈ pnpCost2J intr pt obs (.at 0 da) (.at t dt), ¬ FiniteJet j) ∧
    ∀ pt obs, ∀ j ∈ pnpCost3J pt obs (.at 0 da) (.at t dt), ¬ FiniteJet j := by
  have nf : ∀ j : Jet, j.v = none → ¬ FiniteJet j := by
    rintro j h ⟨v, hv⟩; rw [h] at hv; cases hv
  constructor
  · intro intr pt obs j hj
    obtain ⟨hx, hy, hz⟩ := pnpTransformJ_none da (.at t dt) pt
    unfold pnpCost2J projectPointEJ at hj
    simp only [List.mem_cons, List.not_mem_nil, or_false] at hj
    apply nf
    split at hj
    · rcases hj with rfl | rfl
      · exact Jet.none_sub (Jet.none_add (Jet.none_add (Jet.mul_none (Jet.none_div hx))))
      · exact Jet.none_sub (Jet.none_add (Jet.none_add (Jet.mul_none (Jet.none_div hx))))
    · rcases hj with rfl | rfl
      · exact Jet.none_sub (Jet.none_add (Jet.none_add (Jet.mul_none hx)))
      · exact Jet.none_sub (Jet.none_add (Jet.none_add (Jet.mul_none hx)))
  · intro pt obs j hj
    obtain ⟨hx, hy, hz⟩ := pnpTransformJ_none da (.at t dt) pt
    unfold pnpCost3J at hj
    simp only [List.mem_cons, List.not_mem_nil, or_false] at hj
    apply nf
    rcases hj with rfl | rfl | rfl
    · exact Jet.none_sub hx
    · exact Jet.none_sub hy
    · exact Jet.none_sub hz

/-- Contract: if a derivative is not finite at the initial values, the solver reports failure and changes nothing. -/
def StopsIfNotFinite (s : Ceres V3) (pb : List (ResBlock V3)) (st : Nat → V3) (js : V3 → V3 → V3 → V3 → List (List Jet)) :
    Prop :=
  (∃ da dt, ∃ l ∈ js (st pnpRot) (st pnpTrans) da dt, ∃ j ∈ l, ¬ FiniteJet j) →
    s.solve pb st = st ∧ s.converged pb st = false

theorem pnpInit_zero {g : Iso} (h : g.R = 1) : pnpInit g pnpRot = 0 := by
  have h1 : rotAngle (1 : M3) = 0 := by
    simp [rotAngle, M3.one_def]
  have e : pnpInit g pnpRot = V3.smul g.R.toAngleAxis.angle g.R.toAngleAxis.axis := by
    simp [pnpInit, pnpRot, pnpTrans]
  rw [e, h, toAngleAxis_angle M3.IsRot.one, h1]
  ext <;> simp

theorem pnpFinish_fields {κ : Type} {s : Ceres V3} {p : PnPProblem κ} {pb : List (ResBlock V3)} {res : PnPResult}
    (h : pnpFinish s p pb = .ok res) : res.converged = s.converged pb (pnpInit p.guess) := by
  unfold pnpFinish at h
  simp only [Res.bind_ok_iff] at h
  obtain ⟨cov, hc, h⟩ := h
  cases h
  rfl

/-- A run from a guess without rotation fails and reports the guess, whatever the data. -/
theorem C157_negation_run (s : Ceres V3) (p : PnPProblem Corr2) (hne : p.correspondences ≠ []) (hg : p.guess.R = 1)
    (hs : StopsIfNotFinite s (pnpBuild2 p) (pnpInit p.guess) fun aa t da dt =>
      p.correspondences.map fun c => pnpCost2J p.intr c.inTarget c.inImage (.at aa da) (.at t dt))
    (res : PnPResult) (h : pnp2 s p = .ok res) : res.converged = false ∧ res.cameraToTarget = p.guess := by
  obtain ⟨c, l, hc⟩ := List.exists_cons_of_ne_nil hne
  obtain ⟨h1, h2⟩ := hs ⟨0, 0, _, List.mem_map.2 ⟨c, by rw [hc]; simp, rfl⟩, _, List.mem_cons_self, by
    rw [pnpInit_zero hg]
    exact (C157_negation _ 0 0).1 _ _ _ _ List.mem_cons_self⟩
  obtain ⟨-, e, -⟩ := pnpFinish_ok h
  have hr : p.guess.IsRigid := by
    show p.guess.R.IsRot
    rw [hg]; exact M3.IsRot.one
  rw [pnpFinish_fields h, e, h1, h2]
  exact ⟨rfl, pnpInit_transform hr⟩

theorem C157_negation_run_3d (s : Ceres V3) (p : PnPProblem Corr3) (hne : p.correspondences ≠ []) (hg : p.guess.R = 1)
    (hs : StopsIfNotFinite s (pnpBuild3 p) (pnpInit p.guess) fun aa t da dt =>
      p.correspondences.map fun c => pnpCost3J c.inTarget c.inImage (.at aa da) (.at t dt))
    (res : PnPResult) (h : pnp3 s p = .ok res) : res.converged = false ∧ res.cameraToTarget = p.guess := by
  obtain ⟨c, l, hc⟩ := List.exists_cons_of_ne_nil hne
  obtain ⟨h1, h2⟩ := hs ⟨0, 0, _, List.mem_map.2 ⟨c, by rw [hc]; simp, rfl⟩, _, List.mem_cons_self, by
    rw [pnpInit_zero hg]
    exact (C157_negation _ 0 0).2 _ _ _ List.mem_cons_self⟩
  obtain ⟨-, e, -⟩ := pnpFinish_ok h
  have hr : p.guess.IsRigid := by
    show p.guess.R.IsRot
    rw [hg]; exact M3.IsRot.one
  rw [pnpFinish_fields h, e, h1, h2]
  exact ⟨rfl, pnpInit_transform hr⟩

/-- A solver that gives up at once. -/
def givesUp : Ceres V3 := { idCeres V3 with converged := fun _ _ => false }

/-- Non-vacuity of the two runs, and of `C157_partial`. -/
example : (∃ res, pnp2 givesUp ⟨⟨1, 1, 0, 0⟩, [⟨⟨0, 0⟩, ⟨1, 0, 2⟩⟩], 1, "camera_to_target"⟩ = .ok res) ∧
    (∀ pb st js, StopsIfNotFinite givesUp pb st js) ∧ (1 : Iso).R = 1 ∧ (⟨1, 0, 0⟩ : V3) ≠ 0 := by
  refine ⟨?_, fun _ _ _ _ => ⟨rfl, rfl⟩, rfl, fun h => ?_⟩
  · obtain ⟨res, h⟩ := pnp2_id_returns ⟨⟨1, 1, 0, 0⟩, [⟨⟨0, 0⟩, ⟨1, 0, 2⟩⟩], 1, "camera_to_target"⟩ (by simp)
    unfold pnp2 pnpFinish at h ⊢
    simp only [Res.bind_ok_iff] at h ⊢
    obtain ⟨cov, hc, -⟩ := h
    exact ⟨_, cov, hc, rfl⟩
  · have := congrArg V3.x h
    norm_num at this

/-! ## Coordinates that cannot move -/

theorem still_move {fs : JFunctors} {st st' : Nat → Mem} {a k : Nat}
    (h : ∀ f ∈ fs, ∀ js, f (along st a k) = .ok js → ∀ j ∈ js, WStill j) (hm : DampedMove fs st st' a k) :
    st' a k = st a k := by
  obtain ⟨col, ⟨jss, hj, hcol⟩, D, hD, lin, he⟩ := hm
  have hall : ∀ x ∈ col, x = 0 := by
    intro x hx
    have : some x ∈ jss.flatten.map Jet.v := by rw [hcol]; exact List.mem_map.2 ⟨x, hx, rfl⟩
    obtain ⟨j, hjm, hv⟩ := List.mem_map.1 this
    obtain ⟨js, hjs, hjj⟩ := List.mem_flatten.1 hjm
    rw [Res.mapList_ok_iff] at hj
    obtain ⟨f, hf, hfj⟩ : ∃ f ∈ fs, f (along st a k) = .ok js := by
      obtain ⟨hl, hg⟩ := List.forall₂_iff_get.1 hj
      obtain ⟨n, hn, e⟩ := List.mem_iff_getElem.1 hjs
      refine ⟨fs[n]'(by omega), List.getElem_mem _, ?_⟩
      have := hg n (by omega) hn
      simp only [List.get_eq_getElem] at this
      rw [this, e]
    rcases h f hf js hfj j hjj with h' | h' <;> rw [hv] at h'
    · cases h'
    · exact Option.some.inj h'
  have hz : ∀ (c l : List ℝ), (∀ x ∈ c, x = 0) → (List.zipWith (· * ·) c l).sum = 0 := by
    intro c
    induction c with
    | nil => intro l _; simp
    | cons x c ih =>
      intro l hc
      cases l with
      | nil => simp
      | cons y l =>
        simp only [List.zipWith_cons_cons, List.sum_cons]
        rw [hc x (by simp), ih l fun x hx => hc x (by simp [hx])]
        ring
  rw [hz col lin hall, neg_zero] at he
  rcases mul_eq_zero.1 he with h' | h'
  · exact absurd h' hD.ne'
  · linarith

/-! ## C158 Orientations can be calibrated from identity guesses

Full statement: in a kinematic calibration the orientations of the three fixed transforms can be corrected from every
guess, in particular from the default guess, identity. It is false (`C158_negation`, `C158_negation_6d`): an orientation
that starts at identity is reported as identity, whatever the data. -/

/-- The functors of the priors on offsets, as the solver sees them. -/
noncomputable def kinPriorsJ (blocks : List Block) (a : Nat) (c : DHChain) (stdev : ℝ) : JFunctors :=
  if c.dof ≠ 0 ∧ isConstantBlock blocks a = .ok false then [kinPriorJ c a stdev] else []

/-- Contract: the solver ends in a state that it can reach with the derivatives that it is given. -/
def FollowsDerivatives (K : KCeres) (p : KinProblem) (costs : List ((Nat → Mem) → Res (List ℝ))) (jets : JFunctors) : Prop :=
  ∀ blocks p0 p1, kinPrior blocks 0 p.cameraChain p.cameraStdev = .ok p0 →
    kinPrior blocks 1 p.targetChain p.targetStdev = .ok p1 →
    Reachable (jets ++ kinPriorsJ blocks 0 p.cameraChain p.cameraStdev ++ kinPriorsJ blocks 1 p.targetChain p.targetStdev)
      (kinInit p) ((K.run blocks).solve (costs.map (fun f => ⟨List.range 8, evalKin f⟩) ++ p0 ++ p1) (kinInit p))

theorem along_still {st : Nat → Mem} {a k b : Nat} (h : b ≠ a) (l : Nat) : Still (along st a k b l) := by
  unfold along Still
  simp [h]

theorem stuck_orientation {e : ℝ} (he : 0 ≤ e) (p : KinProblem) (blocks : List Block) (jets : JFunctors) (b : Nat)
    (hb : b = 3 ∨ b = 5 ∨ b = 7)
    (hjets : ∀ f ∈ jets, ∀ jp : Nat → JMem, ((jp b).v3.x.a = 0 ∧ (jp b).v3.y.a = 0 ∧ (jp b).v3.z.a = 0) →
      (∀ a k, a ≠ b → Still (jp a k)) → ∀ js, f jp = .ok js → ∀ j ∈ js, WStill j)
    (st0 st : Nat → Mem) (h0 : (st0 b).v3 = 0)
    (h : Reachable (jets ++ kinPriorsJ blocks 0 p.cameraChain p.cameraStdev ++
      kinPriorsJ blocks 1 p.targetChain p.targetStdev) st0 st) : (st b).v3 = 0 := by
  induction h with
  | start => exact h0
  | @step st st' _ hmove ih =>
    have hstay : ∀ k, st' b k = st b k := by
      intro k
      rcases hmove b k with h' | h'
      · exact h'
      refine still_move ?_ h'
      intro f hf js hjs j hj
      have prior : ∀ a c sd, a ≠ b → f ∈ kinPriorsJ blocks a c sd → WStill j := by
        intro a c sd ha hfm
        unfold kinPriorsJ at hfm
        split at hfm
        · rw [List.mem_singleton] at hfm
          subst hfm
          unfold kinPriorJ at hjs
          rw [Res.ok.injEq] at hjs
          subst hjs
          obtain ⟨n, -, rfl⟩ := List.mem_map.1 hj
          exact ((WStill.of (along_still ha _)).sub (.const _)).div (.const _)
        · cases hfm
      rcases List.mem_append.1 hf with hf | hf
      · rcases List.mem_append.1 hf with hf | hf
        · refine hjets f hf _ ?_ (fun a l ha => along_still ha l) js hjs j hj
          exact ⟨congrArg V3.x ih, congrArg V3.y ih, congrArg V3.z ih⟩
        · exact prior 0 _ _ (by omega) hf
      · exact prior 1 _ _ (by omega) hf
    have : (st' b).v3 = (st b).v3 := by simp [Mem.v3, hstay]
    rw [this, ih]

theorem kinInit_orientation (p : KinProblem) (b : Nat) (T : Iso) (hT : T.R = 1)
    (h : b = 3 ∧ T = p.cmToC ∨ b = 5 ∧ T = p.tmToT ∨ b = 7 ∧ T = p.cbToTb) : (kinInit p b).v3 = 0 := by
  have key : aaOf T = 0 := by
    have h1 : rotAngle (1 : M3) = 0 := by simp [rotAngle, M3.one_def]
    unfold aaOf
    rw [hT, toAngleAxis_angle M3.IsRot.one, h1]
    ext <;> simp
  have e : ∀ v : V3, v.mem.v3 = v := fun v => rfl
  rcases h with ⟨rfl, rfl⟩ | ⟨rfl, rfl⟩ | ⟨rfl, rfl⟩
  · show (aaOf p.cmToC).mem.v3 = 0; rw [e, key]
  · show (aaOf p.tmToT).mem.v3 = 0; rw [e, key]
  · show (aaOf p.cbToTb).mem.v3 = 0; rw [e, key]

theorem kinTransform_zero (t : V3) {aa : V3} (h : aa = 0) : (kinTransform t aa).R = 1 := by
  rw [kinTransform_small (by rw [V3.norm_eq_zero.2 h]; exact not_lt.2 dblEps_pos.le)]

theorem kin_stuck {e : ℝ} (he : 0 ≤ e) (K : KCeres) (p : KinProblem) (costs : List ((Nat → Mem) → Res (List ℝ)))
    (jets : JFunctors) (hK : FollowsDerivatives K p costs jets)
    (hjets : ∀ b, b = 3 ∨ b = 5 ∨ b = 7 → ∀ f ∈ jets, ∀ jp : Nat → JMem,
      ((jp b).v3.x.a = 0 ∧ (jp b).v3.y.a = 0 ∧ (jp b).v3.z.a = 0) →
      (∀ a k, a ≠ b → Still (jp a k)) → ∀ js, f jp = .ok js → ∀ j ∈ js, WStill j)
    (res : KinResult) (h : kinOptimize K p costs = .ok res) :
    (p.cmToC.R = 1 → res.cmToC.R = 1) ∧ (p.tmToT.R = 1 → res.tmToT.R = 1) ∧ (p.cbToTb.R = 1 → res.cbToTb.R = 1) := by
  unfold kinOptimize at h
  simp only at h
  split at h
  · cases h
  simp only [Res.bind_ok_iff] at h
  obtain ⟨-, -, p0, h0, p1, h1, printed, -, -, -, cov, -, h⟩ := h
  have hr := hK _ _ _ h0 h1
  cases h
  refine ⟨fun h' => ?_, fun h' => ?_, fun h' => ?_⟩
  · exact kinTransform_zero _ (stuck_orientation he p _ jets 3 (.inl rfl) (hjets 3 (.inl rfl)) _ _
      (kinInit_orientation p 3 _ h' (.inl ⟨rfl, rfl⟩)) hr)
  · exact kinTransform_zero _ (stuck_orientation he p _ jets 5 (.inr (.inl rfl)) (hjets 5 (.inr (.inl rfl))) _ _
      (kinInit_orientation p 5 _ h' (.inr (.inl ⟨rfl, rfl⟩))) hr)
  · exact kinTransform_zero _ (stuck_orientation he p _ jets 7 (.inr (.inr rfl)) (hjets 7 (.inr (.inr rfl))) _ _
      (kinInit_orientation p 7 _ h' (.inr (.inr ⟨rfl, rfl⟩))) hr)

/-- The functors of the 2D-3D problem, as the solver sees them. -/
noncomputable def kinJets2 (e : ℝ) (p : KinProblem) (intr : Intr) (obs : List KinObs) : JFunctors :=
  obs.flatMap fun o => o.correspondences.map fun k => kinCost2J e p.cameraChain p.targetChain intr o k

/-- Mounts and base guessed without rotation are reported without rotation, whatever the data. -/
theorem C158_negation {e : ℝ} (he : 0 ≤ e) (K : KCeres) (p : KinProblem) (intr : Intr) (obs : List KinObs)
    (hK : FollowsDerivatives K p (kinCosts2 p intr obs) (kinJets2 e p intr obs)) (res : KinResult)
    (h : kinematic2 K p intr obs = .ok res) :
    (p.cmToC.R = 1 → res.cmToC.R = 1) ∧ (p.tmToT.R = 1 → res.tmToT.R = 1) ∧ (p.cbToTb.R = 1 → res.cbToTb.R = 1) := by
  refine kin_stuck he K p _ _ hK ?_ res h
  intro b hb f hf jp hz hs js hjs j hj
  obtain ⟨o, -, hf⟩ := List.mem_flatMap.1 hf
  obtain ⟨k, -, rfl⟩ := List.mem_map.1 hf
  unfold kinCost2J at hjs
  simp only [Res.bind_ok_iff, Res.ok.injEq] at hjs
  obtain ⟨T, hT, rfl⟩ := hjs
  have hst := (kinCameraToTargetJ_still he _ _ _ _ jp b hb hz hs T hT).apply (.const k.inTarget)
  generalize T.apply (.const k.inTarget) = c at *
  have wx := WStill.of hst.x
  have wy := WStill.of hst.y
  have wz := WStill.of hst.z
  unfold projectPointEJ at hj
  simp only [List.mem_cons, List.not_mem_nil, or_false] at hj
  split at hj
  · rcases hj with rfl | rfl
    · simp only [JM3.mulVec, JM3.const]; wstill
    · simp only [JM3.mulVec, JM3.const]; wstill
  · rcases hj with rfl | rfl
    · simp only [JM3.mulVec, JM3.const]; wstill
    · simp only [JM3.mulVec, JM3.const]; wstill

theorem C158_negation_6d {e : ℝ} (he : 0 ≤ e) (K : KCeres) (p : KinProblem) (w : ℝ) (obs : List KinMeas)
    (hK : FollowsDerivatives K p (obs.map fun m => kinCost6 p.cameraChain p.targetChain w m)
      (obs.map fun m => kinCost6J e p.cameraChain p.targetChain w m)) (res : KinResult)
    (h : kinematic6 K p w obs = .ok res) :
    (p.cmToC.R = 1 → res.cmToC.R = 1) ∧ (p.tmToT.R = 1 → res.tmToT.R = 1) ∧ (p.cbToTb.R = 1 → res.cbToTb.R = 1) := by
  refine kin_stuck he K p _ _ hK ?_ res h
  intro b hb f hf jp hz hs js hjs j hj
  obtain ⟨m, -, rfl⟩ := List.mem_map.1 hf
  unfold kinCost6J at hjs
  simp only [Res.bind_ok_iff, Res.ok.injEq] at hjs
  obtain ⟨T, hT, rfl⟩ := hjs
  have hst := kinCameraToTargetJ_still he _ _ _ _ jp b hb hz hs T hT
  have herr := (StillIso.const m.cameraToTarget).mul hst.inv
  have hang := angularDistanceJ_still (toQuatJ_still (StillM3.const m.cameraToTarget.R)) (toQuatJ_still hst.R)
  simp only [List.mem_cons, List.not_mem_nil, or_false] at hj
  rcases hj with rfl | rfl | rfl | rfl
  · exact .of herr.t.x
  · exact .of herr.t.y
  · exact .of herr.t.z
  · split
    · exact .inr rfl
    · exact (WStill.const w).mul hang

/-- Once the orientation is away from identity it can be corrected: turning it further about its own axis moves every
point at the velocity of that rotation. Missing: orientations guessed as identity. -/
theorem C158_partial {e th : ℝ} (he : 0 ≤ e) (h : e < th) (w t pt : V3) (hw : w.normSq = 1) :
    ((kinTransformJ e (.const t) (.at (V3.smul th w) w)).apply (.const pt)) =
      JV3.at (Iso.apply ⟨AngleAxis.toMat ⟨th, w⟩, t⟩ pt) (w.cross ((AngleAxis.toMat ⟨th, w⟩).mulVec pt)) := by
  have hth : 0 < th := lt_of_le_of_lt he h
  obtain ⟨x, y, z⟩ := w
  simp only [V3.normSq, V3.dot] at hw
  have hdot : (JV3.at (V3.smul th ⟨x, y, z⟩) ⟨x, y, z⟩).dot (.at (V3.smul th ⟨x, y, z⟩) ⟨x, y, z⟩) =
      ⟨th * th, some (2 * th)⟩ := by
    ext1
    · show th * x * (th * x) + th * y * (th * y) + th * z * (th * z) = th * th
      linear_combination th * th * hw
    · show some (th * x * x + x * (th * x) + (th * y * y + y * (th * y)) + (th * z * z + z * (th * z))) = some (2 * th)
      congr 1
      linear_combination 2 * th * hw
  have hsq : Real.sqrt (th * th) = th := Real.sqrt_mul_self hth.le
  have hnorm : (JV3.at (V3.smul th ⟨x, y, z⟩) ⟨x, y, z⟩).norm = ⟨th, some 1⟩ := by
    unfold JV3.norm
    rw [hdot]
    unfold Jet.sqrt
    rw [if_neg (not_le.2 (mul_pos hth hth)), hsq]
    ext1
    · rfl
    · show some (2 * th / (2 * th)) = some 1
      rw [div_self (by linarith)]
  have hdiv : ∀ c : ℝ, (⟨th * c, some c⟩ : Jet) / ⟨th, some 1⟩ = ⟨c, some 0⟩ := by
    intro c
    ext1
    · show th * c / th = c
      field_simp
    · show (if th = 0 then none else some ((c - th * c / th * 1) / th)) = some 0
      rw [if_neg hth.ne']
      congr 1
      field_simp
      ring
  have hnrm : (JV3.at (V3.smul th ⟨x, y, z⟩) ⟨x, y, z⟩).normalized = .const ⟨x, y, z⟩ := by
    unfold JV3.normalized
    rw [hdot, if_pos (mul_pos hth hth), hnorm]
    simp only [JV3.at, V3.smul, hdiv]
    rfl
  unfold kinTransformJ
  rw [hnorm, if_pos h, hnrm]
  have hcos : (Jet.mk th (some 1)).cos = ⟨Real.cos th, some (-Real.sin th)⟩ := by simp [Jet.cos]
  have hsin : (Jet.mk th (some 1)).sin = ⟨Real.sin th, some (Real.cos th)⟩ := by simp [Jet.sin]
  simp only [JIso.apply, JIso.rotateBy, JIso.translateBy, JIso.mul, JIso.const, JM3.ofAngleAxis, hcos, hsin]
  have ev : ∀ (a b : Jet), a.a = b.a → a.v = b.v → a = b := fun a b h1 h2 => Jet.ext h1 h2
  refine JV3.ext (ev _ _ ?_ ?_) (ev _ _ ?_ ?_) (ev _ _ ?_ ?_)
  all_goals
    simp [JM3.mulVec, JM3.mul, JV3.add, JM3.const, JV3.const, JV3.at, Iso.apply, AngleAxis.toMat, M3.mulVec, V3.cross,
      M3.one_def, Jet.add_v, Jet.mul_v, Jet.sub_v]
  · linear_combination (Real.sin th * pt.x) * hw
  · linear_combination (Real.sin th * pt.y) * hw
  · linear_combination (Real.sin th * pt.z) * hw

/-- Non-vacuity of `C158_partial`: a turn by one radian about z. -/
example : dblEps < 1 ∧ (⟨0, 0, 1⟩ : V3).normSq = 1 :=
  ⟨by unfold dblEps; norm_num, by simp [V3.normSq, V3.dot]⟩

/-- Non-vacuity of `C158_negation_6d`: a run that returns. -/
example : FollowsDerivatives idKCeres kinExProblem
      ([⟨1, [0], []⟩].map fun m => kinCost6 kinExProblem.cameraChain kinExProblem.targetChain 1 m)
      ([⟨1, [0], []⟩].map fun m => kinCost6J 0 kinExProblem.cameraChain kinExProblem.targetChain 1 m) ∧
    (∃ r, kinematic6 idKCeres kinExProblem 1 [⟨1, [0], []⟩] = .ok r) ∧ kinExProblem.cmToC.R = 1 :=
  ⟨fun _ _ _ _ _ => .start, kinEx_returns 1 0, rfl⟩

/-- Non-vacuity of the contract: a state is reachable in which the first element of a block has moved although the
second has not. -/
example : ∃ (f : (Nat → JMem) → Res (List Jet)) (st : Nat → Mem), Reachable [f] (fun _ _ => 0) st ∧ st 0 0 = 1 ∧ st 0 1 = 0 := by
  refine ⟨fun p => .ok [p 0 0 - Jet.const 1], fun a k => if a = 0 ∧ k = 0 then 1 else 0, .step .start ?_, by simp, by simp⟩
  intro a k
  by_cases h : a = 0 ∧ k = 0
  · right
    obtain ⟨rfl, rfl⟩ := h
    exact ⟨[1], ⟨[[along (fun _ _ => 0) 0 0 0 0 - Jet.const 1]], rfl, by
      simp [along, Jet.sub_v]⟩, 1, one_pos, [-1], by simp⟩
  · left; simp [h]

/-! ## C159 Calibrations with pose blocks start from every guess

Hand-eye, static camera, multi camera PnP and intrinsic calibrations: at every guess, including those without rotation,
the derivatives are finite, and a rotation away from a guess without rotation moves points as rotations do. -/

theorem C159_finite {cam tgt : JPose} (hc : FinPose cam) (ht : FinPose tgt) (A B : Iso) (intr : Intr) (obs : V2) (pt : V3) :
    AllFinite (handEyeCost2J obs A B pt intr cam tgt) ∧ (∀ o, AllFinite (handEyeCost3J o A B pt cam tgt)) ∧
    AllFinite (msCostJ obs intr A pt cam tgt) ∧ AllFinite (coFreeCostJ obs intr pt cam tgt) ∧
    AllFinite (coFixedCostJ obs intr A pt tgt) ∧ AllFinite (woCostJ obs intr A B pt cam tgt) ∧
    AllFinite (mcPnpCostJ obs intr A pt tgt) := by
  have h := targetPointInCameraJ_finite A B pt hc ht
  have hp := ht.transformPoint (.const pt)
  exact ⟨residual2_finite intr obs h, fun o => residual3_finite o h,
    residual2_finite intr obs (hc.transformPoint (poseTransformPointJ_finite _ hp)),
    residual2_finite intr obs (hc.transformPoint hp), residual2_finite intr obs (poseTransformPointJ_finite _ hp),
    residual2_finite intr obs (poseTransformPointJ_finite _ (hc.transformPoint (poseTransformPointJ_finite _ hp))),
    residual2_finite intr obs (poseTransformPointJ_finite _ hp)⟩

theorem C159_finite_intrinsics {pose intr : JMem} (hp : ∀ k, FiniteJet (pose k)) (hi : ∀ k, FiniteJet (intr k)) (pt : V3)
    (obs : V2) : AllFinite (intrinsicCostJ pt obs pose intr) := by
  have hpose : FinPose pose.pose := ⟨⟨hp 0, hp 1, hp 2⟩, ⟨hp 3, hp 4, hp 5⟩⟩
  have hintr : FinIntr9 intr.intr9 := ⟨hi 0, hi 1, hi 2, hi 3, hi 4, hi 5, hi 6, hi 7, hi 8⟩
  obtain ⟨h1, h2⟩ := projectPoints2J_finite hintr (hpose.transformPoint (.const pt))
  intro k hk
  unfold intrinsicCostJ at hk
  simp only [List.mem_cons, List.not_mem_nil, or_false] at hk
  rcases hk with rfl | rfl
  · exact h1.sub (.const _)
  · exact h2.sub (.const _)

/-- The kinematic calibrations, too, can be evaluated at every guess. -/
theorem C159_finite_kinematic {e : ℝ} (he : 0 ≤ e) (cc tc : DHChain) (p : Nat → JMem) (hp : ∀ a k, FiniteJet (p a k)) :
    (∀ intr o k js, kinCost2J e cc tc intr o k p = .ok js → AllFinite js) ∧
    ∀ w m js, kinCost6J e cc tc w m p = .ok js → AllFinite js := by
  constructor
  · intro intr o k js hj
    unfold kinCost2J at hj
    simp only [Res.bind_ok_iff, Res.ok.injEq] at hj
    obtain ⟨T, hT, rfl⟩ := hj
    exact residual2E_finite intr k.inImage ((kinCameraToTargetJ_finite he _ _ _ _ p hp T hT).apply (.const _))
  · intro w m js hj
    unfold kinCost6J at hj
    simp only [Res.bind_ok_iff, Res.ok.injEq] at hj
    obtain ⟨T, hT, rfl⟩ := hj
    have h := (FinIso.const m.cameraToTarget).mul (kinCameraToTargetJ_finite he _ _ _ _ p hp T hT).inv
    intro j hj
    simp only [List.mem_cons, List.not_mem_nil, or_false] at hj
    rcases hj with rfl | rfl | rfl | rfl
    · exact h.t.x
    · exact h.t.y
    · exact h.t.z
    · split
      · exact .zero
      · rename_i hv
        obtain ⟨v, hv⟩ := Option.ne_none_iff_exists'.1 hv
        exact (FiniteJet.const w).mul ⟨v, hv⟩

/-- A pose block without rotation that starts to turn with angular velocity `w` and to move with velocity `d`. -/
theorem C159_turn (t w d pt : V3) :
    transformPointJ (.at 0 w) (.at t d) (.const pt) = .at (pt + t) (w.cross pt + d) := by
  have h0 : ¬ ((JV3.at 0 w).dot (.at 0 w)).a > dblEps := by
    have : ((JV3.at 0 w).dot (.at 0 w)).a = 0 := by
      show (0 : ℝ) * 0 + 0 * 0 + 0 * 0 = 0
      norm_num
    rw [this]; exact not_lt.2 dblEps_pos.le
  unfold transformPointJ angleAxisRotatePointJ
  rw [if_neg h0]
  have ev : ∀ (a b : Jet), a.a = b.a → a.v = b.v → a = b := fun a b h1 h2 => Jet.ext h1 h2
  refine JV3.ext (ev _ _ ?_ ?_) (ev _ _ ?_ ?_) (ev _ _ ?_ ?_)
  all_goals simp [JV3.cross, JV3.at, JV3.const, V3.cross, Jet.add_v, Jet.mul_v, Jet.sub_v]

/-- Non-vacuity of `C159_finite` and `C159_finite_intrinsics`. -/
example : FinPose ⟨.at 0 ⟨1, 0, 0⟩, .at 0 0⟩ ∧ ∀ _ : Nat, FiniteJet ⟨0, some 1⟩ := ⟨⟨.at _ _, .at _ _⟩, fun _ => ⟨1, rfl⟩⟩

/-! ## C160 A circle fit finds the radius from every guess

Full statement: from every guess of the radius that is not negative the circle fit can change the radius. It is false for
zero (`C160_negation`). -/

/-- The functors of the circle fit, as the solver sees them. -/
def circleJets (p : CircleFitProblem) : JFunctors := p.observations.map fun o jp => .ok (circleCostJ o (jp 0))

/-- From radius zero the reported radius is zero, whatever the points. -/
theorem C160_negation (s : Ceres Mem) (p : CircleFitProblem) (h0 : p.radiusInitial = 0)
    (hs : Reachable (circleJets p) (circleInit p) (s.solve (circleBuild p) (circleInit p))) (res : CircleFitResult)
    (h : circleFit s p = .ok res) : res.radius = 0 := by
  have key : ∀ st, Reachable (circleJets p) (circleInit p) st → st 0 2 = 0 := by
    intro st hst
    induction hst with
    | start =>
      show Real.sqrt p.radiusInitial = 0
      rw [h0, Real.sqrt_zero]
    | @step st st' _ hmove ih =>
      rcases hmove 0 2 with h' | h'
      · rw [h', ih]
      rw [still_move ?_ h', ih]
      intro f hf js hjs j hj
      obtain ⟨o, -, rfl⟩ := List.mem_map.1 hf
      simp only [Res.ok.injEq] at hjs
      subst hjs
      simp only [circleCostJ, List.mem_singleton] at hj
      subst hj
      right
      simp [along, ih, Jet.sub_v, Jet.mul_v]
  unfold circleFit at h
  simp only [Res.bind_ok_iff] at h
  obtain ⟨cov, -, h⟩ := h
  cases h
  show s.solve (circleBuild p) (circleInit p) 0 2 ^ 2 = 0
  rw [key _ hs]; norm_num

/-- From a positive radius the residual of every point falls or rises with the radius. Missing: radius zero. -/
theorem C160_partial (p : CircleFitProblem) (h0 : 0 < p.radiusInitial) (o : V2) :
    ∃ a v, circleCostJ o (along (circleInit p) 0 2 0) = [⟨a, some v⟩] ∧ 0 < v := by
  have hs : 0 < Real.sqrt p.radiusInitial := Real.sqrt_pos.2 h0
  have key : ∀ j : Jet, j.v = some (4 * Real.sqrt p.radiusInitial ^ 3) → ∃ a v, [j] = [⟨a, some v⟩] ∧ 0 < v :=
    fun j hj => ⟨j.a, _, by rw [← hj], by positivity⟩
  unfold circleCostJ
  apply key
  simp [along, circleInit, Jet.sub_v, Jet.mul_v]
  ring

/-- Non-vacuity of `C160_negation`. -/
example : Reachable (circleJets ⟨[⟨1, 0⟩, ⟨0, 1⟩], 0, 0, 0⟩) (circleInit ⟨[⟨1, 0⟩, ⟨0, 1⟩], 0, 0, 0⟩)
      ((idCeres Mem).solve (circleBuild ⟨[⟨1, 0⟩, ⟨0, 1⟩], 0, 0, 0⟩) (circleInit ⟨[⟨1, 0⟩, ⟨0, 1⟩], 0, 0, 0⟩)) ∧
    ∃ res, circleFit (idCeres Mem) ⟨[⟨1, 0⟩, ⟨0, 1⟩], 0, 0, 0⟩ = .ok res := by
  exact ⟨.start, circleEx_returns_of 0⟩

end RCT
