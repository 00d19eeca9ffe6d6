import Verif.Props.KinematicReport
import Verif.Props.Guess
import Verif.Spec.KinematicFit
import Mathlib.Analysis.SpecialFunctions.Trigonometric.Bounds
import Mathlib.Analysis.SpecialFunctions.Trigonometric.Deriv
import Mathlib.Analysis.Calculus.Deriv.Slope
import Mathlib.Analysis.Calculus.LocalExtr.Basic

/-!
# C175, C176: kinematic calibration does not worsen the fit; the true offsets are not the best ones
-/

namespace RCT
open Spec

/-- The calibration that belongs to a state of the parameter blocks. -/
noncomputable def calibAt (p : KinProblem) (st : Nat → Mem) : Calib :=
  ⟨kinTransform (st 2).v3 (st 3).v3, kinTransform (st 4).v3 (st 5).v3, kinTransform (st 6).v3 (st 7).v3,
    kinOffsets p.cameraChain (st 0), kinOffsets p.targetChain (st 1)⟩

theorem calibAt_rigid (p : KinProblem) (st : Nat → Mem) : (calibAt p st).Rigid :=
  ⟨(rigid_iff _).1 (kinTransform_rigid _ _), (rigid_iff _).1 (kinTransform_rigid _ _), (rigid_iff _).1 (kinTransform_rigid _ _)⟩

theorem KinRun.calibAt {K : KCeres} {p : KinProblem} {costs : List ((Nat → Mem) → Res (List ℝ))} {r : KinResult}
    (R : KinRun K p costs r) : calibAt p R.st = calibOf r := by
  unfold RCT.calibAt calibOf
  rw [R.cameraOffsets, R.targetOffsets, R.cmToC, R.tmToT, R.cbToTb]

theorem kinOffsets_zero_eq (c : DHChain) : kinOffsets c (fun _ => 0) = List.replicate c.transforms.length 0 := by
  rw [kinOffsets_dhRows, List.eq_replicate_iff]
  exact ⟨by rw [dhRows_length]; rfl, fun v hv => kinOffsets_zero c v (by rwa [kinOffsets_dhRows])⟩

theorem calibAt_init {p : KinProblem} (h1 : KinRepresentable p.cmToC) (h2 : KinRepresentable p.tmToT)
    (h3 : KinRepresentable p.cbToTb) : calibAt p (kinInit p) = guessOf p := by
  unfold calibAt guessOf
  rw [← kinOffsets_zero_eq, ← kinOffsets_zero_eq]
  congr 1
  · exact kinTransform_aaOf h1 _
  · exact kinTransform_aaOf h2 _
  · exact kinTransform_aaOf h3 _

theorem predicts_rigid {cc tc : DHChain} (hcc : RigidMotion cc.base) (htc : RigidMotion tc.base) {k : Calib} (hk : k.Rigid)
    (qc qt : List ℝ) : (k.predicts cc tc qc qt).IsRigid :=
  ((endPose_rigid ((rigid_iff _).2 hcc) _ _).mul ((rigid_iff _).2 hk.1)).inv.mul
    ((((rigid_iff _).2 hk.2.2).mul (endPose_rigid ((rigid_iff _).2 htc) _ _)).mul ((rigid_iff _).2 hk.2.1))

theorem calibAt_predicts (p : KinProblem) (st : Nat → Mem) {qc qt : List ℝ} (h1 : qc.length ≤ p.cameraChain.dof)
    (h2 : qt.length ≤ p.targetChain.dof) : kinCameraToTarget p.cameraChain p.targetChain qc qt st =
      .ok ((calibAt p st).predicts p.cameraChain p.targetChain qc qt) := by
  rw [kinCameraToTarget_eq, if_pos ⟨h1, h2⟩]
  unfold Calib.predicts calibAt
  rw [kinOffsets_dhRows, kinOffsets_dhRows]

theorem sumSq_pb0 {costs : List ((Nat → Mem) → Res (List ℝ))} (st : Nat → Mem) :
    sumSq (residuals (costs.map fun f => (⟨List.range 8, evalKin f⟩ : ResBlock Mem)) st) =
      (costs.map fun f => sumSq (evalKin f ((List.range 8).map st))).sum := by
  unfold residuals
  rw [List.flatMap_map, sumSq_flatMap]
  rfl

/-- Cost functions at a state, for pose measurements. -/
theorem evalKin6 (p : KinProblem) (hcc : RigidMotion p.cameraChain.base) (htc : RigidMotion p.targetChain.base) (w : ℝ)
    (m : KinMeas) (hm : RigidMotion m.cameraToTarget) (h1 : m.cameraJoints.length ≤ p.cameraChain.dof)
    (h2 : m.targetJoints.length ≤ p.targetChain.dof) (st : Nat → Mem) :
    sumSq (evalKin (kinCost6 p.cameraChain p.targetChain w m) ((List.range 8).map st)) =
      poseMisfit w m.cameraToTarget ((calibAt p st).predicts p.cameraChain p.targetChain m.cameraJoints m.targetJoints) := by
  rw [evalKin_range _ (fun a b hab => by unfold kinCost6; rw [kinCameraToTarget_congr _ _ _ _ _ _ hab])]
  unfold kinCost6
  rw [calibAt_predicts p st h1 h2, Res.ok_bind]
  simp only
  rw [angularDistance_eq ((rigid_iff _).2 hm) (predicts_rigid hcc htc (calibAt_rigid p st) _ _)]
  unfold poseMisfit
  simp only [sumSq, List.map_cons, List.map_nil, List.sum_cons, List.sum_nil, V3.normSq, V3.dot]
  ring

/-- Cost functions at a state, for pixels. -/
theorem evalKin2 (p : KinProblem) (intr : Intr) (o : KinObs) (c : Corr2) (h1 : o.cameraJoints.length ≤ p.cameraChain.dof)
    (h2 : o.targetJoints.length ≤ p.targetChain.dof) (st : Nat → Mem)
    (hz : (((calibAt p st).predicts p.cameraChain p.targetChain o.cameraJoints o.targetJoints).apply c.inTarget).z > 1 / 10 ^ 10) :
    sumSq (evalKin (kinCost2 p.cameraChain p.targetChain intr o c) ((List.range 8).map st)) =
      pixelMisfit intr ((calibAt p st).predicts p.cameraChain p.targetChain o.cameraJoints o.targetJoints) c := by
  rw [evalKin_range _ (fun a b hab => by unfold kinCost2; rw [kinCameraToTarget_congr _ _ _ _ _ _ hab])]
  unfold kinCost2
  rw [calibAt_predicts p st h1 h2, Res.ok_bind]
  simp only
  rw [projectPointE_pinhole _ _ hz]
  unfold pixelMisfit
  simp only [sumSq, List.map_cons, List.map_nil, List.sum_cons, List.sum_nil]
  ring

/-- The objective of a run at the reported and at the initial parameters. -/
theorem KinRun.objective_le {K : KCeres} (hK : K.WF) {p : KinProblem} {costs : List ((Nat → Mem) → Res (List ℝ))} {r : KinResult}
    (R : KinRun K p costs r) :
    (costs.map fun f => sumSq (evalKin f ((List.range 8).map R.st))).sum +
        (calibOf r).offsetCosts p.cameraStdev p.targetStdev ≤
      (costs.map fun f => sumSq (evalKin f ((List.range 8).map (kinInit p)))).sum := by
  have h0 := kinPrior_residuals (st := R.st) R.h0 (R.const_zero hK 0 (Or.inl rfl))
  have h1 := kinPrior_residuals (st := R.st) R.h1 (R.const_zero hK 1 (Or.inr rfl))
  have i0 := kinPrior_residuals (st := kinInit p) R.h0 (fun _ _ _ _ _ => rfl)
  have i1 := kinPrior_residuals (st := kinInit p) R.h1 (fun _ _ _ _ _ => rfl)
  have z0 : offsetPenalty p.cameraStdev (kinOffsets p.cameraChain (kinInit p 0)) = 0 := by
    show offsetPenalty _ (kinOffsets _ fun _ => 0) = 0
    rw [kinOffsets_zero_eq]
    simp [offsetPenalty]
  have z1 : offsetPenalty p.targetStdev (kinOffsets p.targetChain (kinInit p 1)) = 0 := by
    show offsetPenalty _ (kinOffsets _ fun _ => 0) = 0
    rw [kinOffsets_zero_eq]
    simp [offsetPenalty]
  have hd := (hK.run_wf R.blocks).descent R.pb (kinInit p)
  rw [← R.st_eq] at hd
  unfold cost at hd
  change sumSq _ / 2 ≤ sumSq _ / 2 at hd
  rw [R.pb_eq, residuals_append, residuals_append, residuals_append, residuals_append, sumSq_append, sumSq_append,
    sumSq_append, sumSq_append, h0.1, h1.1, i0.1, i1.1, z0, z1, R.pb0_eq, sumSq_pb0, sumSq_pb0] at hd
  have e : (calibOf r).offsetCosts p.cameraStdev p.targetStdev =
      offsetPenalty p.cameraStdev (kinOffsets p.cameraChain (R.st 0)) +
        offsetPenalty p.targetStdev (kinOffsets p.targetChain (R.st 1)) := by
    rw [← R.cameraOffsets, ← R.targetOffsets]; rfl
  rw [e]
  linarith

theorem kin6_lengths {K : KCeres} {p : KinProblem} {w : ℝ} {obs : List KinMeas} {r : KinResult}
    (R : KinRun K p (obs.map fun m => kinCost6 p.cameraChain p.targetChain w m) r) :
    ∀ m ∈ obs, m.cameraJoints.length ≤ p.cameraChain.dof ∧ m.targetJoints.length ≤ p.targetChain.dof := by
  intro m hm
  obtain ⟨l, hl⟩ := R.eval _ (List.mem_map.2 ⟨m, hm, rfl⟩)
  unfold kinCost6 at hl
  rw [Res.bind_ok_iff] at hl
  obtain ⟨T, hT, -⟩ := hl
  exact kin_joint_lengths hT

theorem kin2_lengths {K : KCeres} {p : KinProblem} {intr : Intr} {obs : List KinObs} {r : KinResult}
    (R : KinRun K p (kinCosts2 p intr obs) r) : ∀ o ∈ obs, ∀ c ∈ o.correspondences,
      o.cameraJoints.length ≤ p.cameraChain.dof ∧ o.targetJoints.length ≤ p.targetChain.dof := by
  intro o ho c hc
  obtain ⟨l, hl⟩ := R.eval (kinCost2 p.cameraChain p.targetChain intr o c)
    (List.mem_flatMap.2 ⟨o, ho, List.mem_map.2 ⟨c, hc, rfl⟩⟩)
  unfold kinCost2 at hl
  rw [Res.bind_ok_iff] at hl
  obtain ⟨T, hT, -⟩ := hl
  exact kin_joint_lengths hT

theorem kin6_misfit (p : KinProblem) (hcc : RigidMotion p.cameraChain.base) (htc : RigidMotion p.targetChain.base) (w : ℝ)
    (obs : List KinMeas) (hm : ∀ m ∈ obs, RigidMotion m.cameraToTarget)
    (hl : ∀ m ∈ obs, m.cameraJoints.length ≤ p.cameraChain.dof ∧ m.targetJoints.length ≤ p.targetChain.dof) (st : Nat → Mem) :
    ((obs.map fun m => kinCost6 p.cameraChain p.targetChain w m).map fun f => sumSq (evalKin f ((List.range 8).map st))).sum =
      misfit6 p.cameraChain p.targetChain w obs (calibAt p st) := by
  rw [List.map_map]
  unfold misfit6
  congr 1
  exact List.map_congr_left fun m hm' => evalKin6 p hcc htc w m (hm m hm') (hl m hm').1 (hl m hm').2 st

theorem sum_flatMap_real {α : Type} (l : List α) (f : α → List ℝ) : (l.flatMap f).sum = (l.map fun o => (f o).sum).sum := by
  induction l with
  | nil => rfl
  | cons a l ih => simp [ih]

theorem kin2_misfit (p : KinProblem) (intr : Intr) (obs : List KinObs)
    (hl : ∀ o ∈ obs, ∀ c ∈ o.correspondences, o.cameraJoints.length ≤ p.cameraChain.dof ∧ o.targetJoints.length ≤ p.targetChain.dof)
    (st : Nat → Mem) (hz : ∀ o ∈ obs, ∀ c ∈ o.correspondences,
      (((calibAt p st).predicts p.cameraChain p.targetChain o.cameraJoints o.targetJoints).apply c.inTarget).z > 1 / 10 ^ 10) :
    ((kinCosts2 p intr obs).map fun f => sumSq (evalKin f ((List.range 8).map st))).sum =
      misfit2 p.cameraChain p.targetChain intr obs (calibAt p st) := by
  unfold kinCosts2 misfit2
  rw [List.map_flatMap, sum_flatMap_real]
  congr 1
  refine List.map_congr_left fun o ho => ?_
  rw [List.map_map]
  congr 1
  exact List.map_congr_left fun c hc => evalKin2 p intr o c (hl o ho c hc).1 (hl o ho c hc).2 st (hz o ho c hc)

/-- C175 for pose measurements: disagreement with the measurements plus squared offsets of the reported calibration do not
exceed the disagreement of the guesses with nominal chains. In particular the disagreement does not increase. -/
theorem C175_poses (K : KCeres) (hK : K.WF) (p : KinProblem) (w : ℝ) (obs : List KinMeas) (r : KinResult)
    (hcc : RigidMotion p.cameraChain.base) (htc : RigidMotion p.targetChain.base)
    (hm : ∀ m ∈ obs, RigidMotion m.cameraToTarget) (h1 : KinRepresentable p.cmToC) (h2 : KinRepresentable p.tmToT)
    (h3 : KinRepresentable p.cbToTb) (h : kinematic6 K p w obs = .ok r) :
    misfit6 p.cameraChain p.targetChain w obs (calibOf r) + (calibOf r).offsetCosts p.cameraStdev p.targetStdev ≤
      misfit6 p.cameraChain p.targetChain w obs (guessOf p) := by
  unfold kinematic6 at h
  obtain ⟨R⟩ := kinOptimize_ok hK h
  have := R.objective_le hK
  rwa [kin6_misfit p hcc htc w obs hm (kin6_lengths R), kin6_misfit p hcc htc w obs hm (kin6_lengths R), R.calibAt,
    calibAt_init h1 h2 h3] at this

/-- C175 for pixels, if all points are in front of the guessed and of the reported camera. -/
theorem C175_pixels (K : KCeres) (hK : K.WF) (p : KinProblem) (intr : Intr) (obs : List KinObs) (r : KinResult)
    (h1 : KinRepresentable p.cmToC) (h2 : KinRepresentable p.tmToT) (h3 : KinRepresentable p.cbToTb)
    (h : kinematic2 K p intr obs = .ok r)
    (hz : ∀ k ∈ [guessOf p, calibOf r], ∀ o ∈ obs, ∀ c ∈ o.correspondences,
      ((k.predicts p.cameraChain p.targetChain o.cameraJoints o.targetJoints).apply c.inTarget).z > 1 / 10 ^ 10) :
    misfit2 p.cameraChain p.targetChain intr obs (calibOf r) + (calibOf r).offsetCosts p.cameraStdev p.targetStdev ≤
      misfit2 p.cameraChain p.targetChain intr obs (guessOf p) := by
  unfold kinematic2 at h
  obtain ⟨R⟩ := kinOptimize_ok hK h
  have := R.objective_le hK
  rwa [kin2_misfit p intr obs (kin2_lengths R) _ (by rw [R.calibAt]; exact hz _ (by simp)),
    kin2_misfit p intr obs (kin2_lengths R) _ (by rw [calibAt_init h1 h2 h3]; exact hz _ (by simp)), R.calibAt,
    calibAt_init h1 h2 h3] at this

theorem offsetCost_nonneg (sd : ℝ) (offs : List V4) : 0 ≤ offsetCost sd offs :=
  List.sum_nonneg fun x hx => by
    obtain ⟨y, -, rfl⟩ := List.mem_map.1 hx
    positivity

theorem offsetCost_eq_zero {sd : ℝ} (hsd : sd ≠ 0) (offs : List V4) : offsetCost sd offs = 0 ↔ ∀ v ∈ offs, v = 0 := by
  unfold offsetCost
  induction offs with
  | nil => simp
  | cons v l ih =>
    rw [List.map_cons, List.sum_cons]
    have hl : 0 ≤ (l.map fun v : V4 => (v.d / sd) ^ 2 + (v.theta / sd) ^ 2 + (v.r / sd) ^ 2 + (v.alpha / sd) ^ 2).sum :=
      offsetCost_nonneg sd l
    have a := sq_nonneg (v.d / sd)
    have b := sq_nonneg (v.theta / sd)
    have c := sq_nonneg (v.r / sd)
    have d := sq_nonneg (v.alpha / sd)
    constructor
    · intro h x hx
      rcases List.mem_cons.1 hx with rfl | hx
      · have ha : (x.d / sd) ^ 2 = 0 := by linarith
        have hb : (x.theta / sd) ^ 2 = 0 := by linarith
        have hc : (x.r / sd) ^ 2 = 0 := by linarith
        have hd : (x.alpha / sd) ^ 2 = 0 := by linarith
        simp only [ne_eq, OfNat.ofNat_ne_zero, not_false_eq_true, pow_eq_zero_iff, div_eq_zero_iff, hsd, or_false] at ha hb hc hd
        ext <;> simp [ha, hb, hc, hd]
      · exact ih.1 (by linarith) x hx
    · intro h
      rw [ih.2 fun x hx => h x (List.mem_cons_of_mem _ hx), h v List.mem_cons_self]
      simp

theorem poseMisfit_eq_zero {X T : Iso} (hX : X.IsRigid) (hT : T.IsRigid) {w : ℝ} (hw : w ≠ 0) :
    poseMisfit w X T = 0 ↔ X = T := by
  rw [← eq_comm (a := T), ← kinPoseResidual_zero hX hT hw, angularDistance_eq hX hT]
  unfold poseMisfit V3.normSq V3.dot
  simp only [List.cons.injEq, and_true]
  constructor
  · intro h
    have a := mul_self_nonneg (X * T.inv).t.x
    have b := mul_self_nonneg (X * T.inv).t.y
    have c := mul_self_nonneg (X * T.inv).t.z
    have d := sq_nonneg (w * rotAngle (X.R * T.R.tr))
    refine ⟨mul_self_eq_zero.1 (by linarith), mul_self_eq_zero.1 (by linarith), mul_self_eq_zero.1 (by linarith), ?_⟩
    exact pow_eq_zero_iff (two_ne_zero) |>.1 (by linarith)
  · rintro ⟨h1, h2, h3, h4⟩
    rw [h1, h2, h3, h4]; ring

theorem poseMisfit_nonneg (w : ℝ) (X T : Iso) : 0 ≤ poseMisfit w X T := by
  unfold poseMisfit V3.normSq V3.dot
  have a := mul_self_nonneg (X * T.inv).t.x
  have b := mul_self_nonneg (X * T.inv).t.y
  have c := mul_self_nonneg (X * T.inv).t.z
  positivity

theorem list_sum_eq_zero {α : Type} {l : List α} {f : α → ℝ} (h : ∀ a ∈ l, 0 ≤ f a) :
    (l.map f).sum = 0 ↔ ∀ a ∈ l, f a = 0 := by
  induction l with
  | nil => simp
  | cons a l ih =>
    have h1 := h a List.mem_cons_self
    have h2 : 0 ≤ (l.map f).sum := List.sum_nonneg fun x hx => by
      obtain ⟨y, hy, rfl⟩ := List.mem_map.1 hx
      exact h y (List.mem_cons_of_mem _ hy)
    rw [List.map_cons, List.sum_cons, List.forall_mem_cons, ← ih fun b hb => h b (List.mem_cons_of_mem _ hb)]
    constructor
    · intro h'; exact ⟨by linarith, by linarith⟩
    · rintro ⟨h', h''⟩; linarith

theorem misfit6_eq_zero {cc tc : DHChain} (hcc : RigidMotion cc.base) (htc : RigidMotion tc.base) {w : ℝ} (hw : w ≠ 0)
    {ms : List KinMeas} (hm : ∀ m ∈ ms, RigidMotion m.cameraToTarget) {k : Calib} (hk : k.Rigid) :
    misfit6 cc tc w ms k = 0 ↔ Explains6 cc tc k ms := by
  unfold misfit6 Explains6
  rw [list_sum_eq_zero fun _ _ => poseMisfit_nonneg _ _ _]
  exact forall₂_congr fun m h => poseMisfit_eq_zero ((rigid_iff _).2 (hm m h)) (predicts_rigid hcc htc hk _ _) hw

/-- The reported final cost is zero exactly if the reported calibration explains all measured poses and has no offsets. -/
theorem C175_zero (K : KCeres) (hK : K.WF) (p : KinProblem) (w : ℝ) (obs : List KinMeas) (r : KinResult)
    (hcc : RigidMotion p.cameraChain.base) (htc : RigidMotion p.targetChain.base)
    (hm : ∀ m ∈ obs, RigidMotion m.cameraToTarget) (hw : w ≠ 0) (hs : p.cameraStdev ≠ 0) (hs' : p.targetStdev ≠ 0)
    (h : kinematic6 K p w obs = .ok r) :
    r.finalCost = some 0 ↔ Explains6 p.cameraChain p.targetChain (calibOf r) obs ∧ (calibOf r).Nominal := by
  obtain ⟨n, hn, -, hc⟩ := C47_cost6 K hK p w obs r hcc htc hm h
  have hrig : (calibOf r).Rigid := by
    unfold kinematic6 at h
    exact C47_rigid K hK p _ r h
  have hne : obs ≠ [] := by
    unfold kinematic6 at h
    obtain ⟨R⟩ := kinOptimize_ok hK h
    have := R.ne; intro h; rw [h] at this; exact this rfl
  have hpos : (0 : ℝ) < n := by
    have : 0 < obs.length := List.length_pos_iff.2 hne
    exact_mod_cast (by omega : 0 < n)
  have e0 : (obs.map fun m =>
      let T := targetInCamera p.cameraChain p.targetChain r m.cameraJoints m.targetJoints
      (m.cameraToTarget * T.inv).t.normSq + (w * rotAngle (m.cameraToTarget.R * T.R.tr)) ^ 2).sum =
    misfit6 p.cameraChain p.targetChain w obs (calibOf r) := rfl
  have e1 : offsetPenalty p.cameraStdev r.cameraOffsets = offsetCost p.cameraStdev (calibOf r).offC := rfl
  have e2 : offsetPenalty p.targetStdev r.targetOffsets = offsetCost p.targetStdev (calibOf r).offT := rfl
  rw [e0, e1, e2] at hc
  rw [hc, Option.some.injEq, div_eq_zero_iff, div_eq_zero_iff]
  have a : 0 ≤ misfit6 p.cameraChain p.targetChain w obs (calibOf r) := List.sum_nonneg fun x hx => by
    obtain ⟨y, -, rfl⟩ := List.mem_map.1 hx
    exact poseMisfit_nonneg _ _ _
  have b := offsetCost_nonneg p.cameraStdev (calibOf r).offC
  have c := offsetCost_nonneg p.targetStdev (calibOf r).offT
  rw [← misfit6_eq_zero hcc htc hw hm hrig]
  unfold Calib.Nominal
  rw [← offsetCost_eq_zero hs, ← offsetCost_eq_zero hs']
  constructor
  · rintro ((h | h) | h)
    · exact ⟨by linarith, by linarith, by linarith⟩
    · norm_num at h
    · exact absurd h hpos.ne'
  · rintro ⟨h1, h2, h3⟩
    left; left; rw [h1, h2, h3]; ring

/-- Non-vacuity of C175: a run for a measured pose, and one for a pixel whose point is in front of the guessed and the reported
camera. -/
example : (∃ r, kinematic6 idKCeres kinExProblem 1 [⟨1, [0], []⟩] = .ok r) ∧ idKCeres.WF ∧
    (∃ r, kinematic2 idKCeres kinExProblem ⟨1, 1, 0, 0⟩ [⟨[⟨⟨5, 0⟩, 0⟩], [0], []⟩] = .ok r ∧
      ∀ k ∈ [guessOf kinExProblem, calibOf r], ∀ o ∈ ([⟨[⟨⟨5, 0⟩, 0⟩], [0], []⟩] : List KinObs), ∀ c ∈ o.correspondences,
        ((k.predicts kinExProblem.cameraChain kinExProblem.targetChain o.cameraJoints o.targetJoints).apply c.inTarget).z >
          1 / 10 ^ 10) ∧
    RigidMotion kinExProblem.cameraChain.base ∧ RigidMotion kinExProblem.targetChain.base ∧
    kinExProblem.cameraStdev ≠ 0 ∧ kinExProblem.targetStdev ≠ 0 ∧ KinRepresentable kinExProblem.cmToC := by
  refine ⟨kinEx_returns 1 0, idKCeres_wf, ?_, (rigid_iff _).1 Iso.IsRigid.one, (rigid_iff _).1 M3.IsRot.one, ?_, ?_,
    kinRepresentable_one⟩
  · have hr : ∃ r, kinematic2 idKCeres kinExProblem ⟨1, 1, 0, 0⟩ [⟨[⟨⟨5, 0⟩, 0⟩], [0], []⟩] = .ok r := by
      apply C46_accepts idKCeres idKCeres_wf _ kinExProblem_sane
      · simp [kinCosts2]
      · intro a k hk
        simp only [kinExProblem] at hk
        split at hk
        · rename_i h
          simp at hk; subst hk; subst h
          simp [kinSize, kinRows, kinExProblem, kinExCamera, DHChain.dof]
        · split at hk
          · rename_i h
            subst h
            simp at hk; rcases hk with rfl | rfl | rfl <;> simp [kinSize]
          · cases hk
      · intro f hf
        simp only [kinCosts2, List.flatMap_cons, List.flatMap_nil, List.append_nil, List.map_cons, List.map_nil,
          List.mem_singleton] at hf
        subst hf
        unfold kinCost2
        rw [kinCameraToTarget_eq, if_pos (by simp [kinExProblem, kinExCamera, kinExTarget, DHChain.dof]), Res.ok_bind]
        exact ⟨_, rfl⟩
      · intro _ _ _ _; exact ⟨rfl, rfl⟩
    obtain ⟨r, hr⟩ := hr
    refine ⟨r, hr, ?_⟩
    have hg : calibOf r = guessOf kinExProblem := by
      unfold kinematic2 at hr
      obtain ⟨R⟩ := kinOptimize_ok idKCeres_wf hr
      have hst : R.st = kinInit kinExProblem := R.st_eq
      rw [← R.calibAt, hst]
      exact calibAt_init kinRepresentable_one kinRepresentable_one kinRepresentable_one
    rw [hg]
    intro k hk o ho c hc
    simp only [List.mem_cons, List.not_mem_nil, or_false, or_self] at hk ho
    subst hk; subst ho
    simp only [List.mem_singleton] at hc
    subst hc
    simp [Calib.predicts, guessOf, kinExProblem, kinExTarget, endPose, kinExCamera, DHTransform.mk4, chainPose, jointPose,
      dhMatrix, Iso.apply, Iso.inv, M3.tr, M3.mulVec, Iso.mul_def, M3.mul_def]
    norm_num
  · norm_num [kinExProblem]
  · norm_num [kinExProblem]

/-! ## C176 The true calibration is the best one

Full statement: if the measurements are exact, no calibration has a smaller cost than the true one. This holds for robots
without offsets (`C176_partial`, `C176_partial_pixels`). For every other robot it is false: since the offsets themselves are
part of the cost, slightly smaller offsets are better (`C176_negation`, `C176_negation_pixels`). -/

/-- All entries depend differentiably on the parameter. -/
structure DiffIso (F : ℝ → Iso) : Prop where
  m00 : Differentiable ℝ fun u => (F u).R.m00
  m01 : Differentiable ℝ fun u => (F u).R.m01
  m02 : Differentiable ℝ fun u => (F u).R.m02
  m10 : Differentiable ℝ fun u => (F u).R.m10
  m11 : Differentiable ℝ fun u => (F u).R.m11
  m12 : Differentiable ℝ fun u => (F u).R.m12
  m20 : Differentiable ℝ fun u => (F u).R.m20
  m21 : Differentiable ℝ fun u => (F u).R.m21
  m22 : Differentiable ℝ fun u => (F u).R.m22
  x : Differentiable ℝ fun u => (F u).t.x
  y : Differentiable ℝ fun u => (F u).t.y
  z : Differentiable ℝ fun u => (F u).t.z

theorem DiffIso.const (T : Iso) : DiffIso fun _ => T := by
  constructor <;> exact differentiable_const _

theorem DiffIso.mul {F G : ℝ → Iso} (hF : DiffIso F) (hG : DiffIso G) : DiffIso fun u => F u * G u := by
  obtain ⟨a0, a1, a2, a3, a4, a5, a6, a7, a8, ax, ay, az⟩ := hF
  obtain ⟨b0, b1, b2, b3, b4, b5, b6, b7, b8, bx, by', bz⟩ := hG
  constructor <;> simp only [Iso.mul_def, M3.mul_def, M3.mulVec, V3.add_x, V3.add_y, V3.add_z] <;> fun_prop

theorem DiffIso.inv {F : ℝ → Iso} (hF : DiffIso F) : DiffIso fun u => (F u).inv := by
  obtain ⟨a0, a1, a2, a3, a4, a5, a6, a7, a8, ax, ay, az⟩ := hF
  constructor <;> simp only [Iso.inv, M3.tr, M3.mulVec, V3.neg_x, V3.neg_y, V3.neg_z] <;> fun_prop

theorem DiffIso.joint (p : V4) (ty : JointType) (o : V4) (q : ℝ) :
    DiffIso fun u => jointPose p ty ⟨u * o.d, u * o.theta, u * o.r, u * o.alpha⟩ q := by
  cases ty <;> constructor <;> simp only [jointPose, dhMatrix] <;> fun_prop

theorem DiffIso.chain (js : List (V4 × JointType)) (os : List V4) (qs : List ℝ) {F : ℝ → Iso} (hF : DiffIso F) :
    DiffIso fun u => chainPose (F u) js (os.map fun o => ⟨u * o.d, u * o.theta, u * o.r, u * o.alpha⟩) qs := by
  induction js generalizing os qs F with
  | nil => simpa [chainPose] using hF
  | cons j js ih =>
    cases os with
    | nil => simpa [chainPose] using hF
    | cons o os =>
      cases qs with
      | nil => simpa [chainPose] using hF
      | cons q qs => exact ih os qs (hF.mul (DiffIso.joint j.1 j.2 o q))

theorem DiffIso.predicts (cc tc : DHChain) (k : Calib) (qc qt : List ℝ) :
    DiffIso fun u => (k.scaleOffsets u).predicts cc tc qc qt :=
  ((DiffIso.chain _ k.offC qc (DiffIso.const cc.base)).mul (DiffIso.const k.cm)).inv.mul
    (((DiffIso.const k.cb).mul (DiffIso.chain _ k.offT qt (DiffIso.const tc.base))).mul (DiffIso.const k.tm))

theorem scaleOffsets_one (k : Calib) : k.scaleOffsets 1 = k := by
  unfold Calib.scaleOffsets
  simp

theorem offsetCost_scale (sd s : ℝ) (offs : List V4) :
    offsetCost sd (offs.map fun v => ⟨s * v.d, s * v.theta, s * v.r, s * v.alpha⟩) = s ^ 2 * offsetCost sd offs := by
  unfold offsetCost
  rw [List.map_map, ← List.sum_map_mul_left]
  congr 1
  refine List.map_congr_left fun v _ => ?_
  simp only [Function.comp]
  ring

theorem offsetCosts_scale (k : Calib) (sdC sdT s : ℝ) :
    (k.scaleOffsets s).offsetCosts sdC sdT = s ^ 2 * k.offsetCosts sdC sdT := by
  unfold Calib.offsetCosts Calib.scaleOffsets
  rw [offsetCost_scale, offsetCost_scale]
  ring

theorem offsetCosts_pos {k : Calib} {sdC sdT : ℝ} (h1 : sdC ≠ 0) (h2 : sdT ≠ 0) (h : ¬ k.Nominal) :
    0 < k.offsetCosts sdC sdT := by
  have a := offsetCost_nonneg sdC k.offC
  have b := offsetCost_nonneg sdT k.offT
  rcases (add_nonneg a b).lt_or_eq with h' | h'
  · exact h'
  · exact absurd ⟨(offsetCost_eq_zero h1 _).1 (by linarith), (offsetCost_eq_zero h2 _).1 (by linarith)⟩ h

/-- A differentiable non-negative function that vanishes at one, against a positive multiple of the square. -/
theorem shrink_lt {D : ℝ → ℝ} {P : ℝ} (hP : 0 < P) {G : ℝ → ℝ} (hG : DifferentiableAt ℝ G 1) (h1 : G 1 = 0)
    (h0 : ∀ᶠ u in nhds (1 : ℝ), 0 ≤ G u) (hD : ∀ᶠ u in nhds (1 : ℝ), D u ≤ G u) :
    ∀ᶠ u in nhdsWithin (1 : ℝ) (Set.Iio 1), D u + u ^ 2 * P < P := by
  have hmin : IsLocalMin G 1 := by
    filter_upwards [h0] with u hu
    rw [h1]; exact hu
  have hd : HasDerivAt G 0 1 := by
    have := hG.hasDerivAt
    rwa [hmin.deriv_eq_zero] at this
  have hd2 : HasDerivAt (fun u => G u + u ^ 2 * P) (0 + 2 * P) 1 := by
    have := hd.add ((hasDerivAt_pow 2 (1 : ℝ)).mul_const P)
    have e : (0 : ℝ) + ((2 : ℕ) : ℝ) * 1 ^ (2 - 1) * P = 0 + 2 * P := by norm_num
    rw [e] at this
    exact this
  rw [zero_add] at hd2
  have hs := (hasDerivAt_iff_tendsto_slope.1 hd2).mono_left
    (nhdsWithin_mono (1 : ℝ) (s := Set.Iio 1) (t := {1}ᶜ) fun x hx => ne_of_lt hx)
  filter_upwards [hs.eventually (lt_mem_nhds (show (0 : ℝ) < 2 * P by linarith)), nhdsWithin_le_nhds hD,
    eventually_mem_nhdsWithin] with u hu hDu hlt
  rw [slope_def_field, h1] at hu
  have hlt' : u - 1 < 0 := sub_neg.2 hlt
  have : (G u + u ^ 2 * P) - (0 + 1 ^ 2 * P) < 0 := by
    by_contra hcon
    exact absurd hu (not_lt.2 (div_nonpos_of_nonneg_of_nonpos (not_lt.1 hcon) hlt'.le))
  linarith

/-- Factors slightly below one are positive. -/
theorem exists_factor {Q : ℝ → Prop} (h : ∀ᶠ u in nhdsWithin (1 : ℝ) (Set.Iio 1), Q u) : ∃ s, 0 < s ∧ s < 1 ∧ Q s := by
  have h2 : ∀ᶠ u in nhdsWithin (1 : ℝ) (Set.Iio 1), (0 : ℝ) < u := nhdsWithin_le_nhds (lt_mem_nhds one_pos)
  obtain ⟨s, ⟨a, b⟩, c⟩ := ((h.and h2).and (eventually_mem_nhdsWithin (a := (1 : ℝ)) (s := Set.Iio 1))).exists
  exact ⟨s, b, c, a⟩

theorem rot_trace {R : M3} (hR : R.IsRot) : ∃ a : ℝ, (R.m00 + R.m11 + R.m22 - 1) / 2 = Real.cos a := by
  obtain ⟨hu, -, he⟩ := hR.toAngleAxis
  refine ⟨R.toAngleAxis.angle, ?_⟩
  generalize hA : R.toAngleAxis = A at *
  rw [← he]
  simp only [AngleAxis.toMat]
  simp only [V3.normSq, V3.dot] at hu
  linear_combination ((1 - Real.cos A.angle) / 2) * hu

/-- The square of the angle of a rotation is bounded by its trace. -/
theorem rotAngle_sq_le {R : M3} (hR : R.IsRot) :
    rotAngle R ^ 2 ≤ Real.pi ^ 2 / 2 * (1 - (R.m00 + R.m11 + R.m22 - 1) / 2) := by
  obtain ⟨a, ha⟩ := rot_trace hR
  have hc : Real.cos (rotAngle R) = (R.m00 + R.m11 + R.m22 - 1) / 2 := by
    unfold rotAngle
    rw [Real.cos_arccos] <;> rw [ha]
    · exact Real.neg_one_le_cos a
    · exact Real.cos_le_one a
  have h0 : 0 ≤ rotAngle R := Real.arccos_nonneg _
  have h1 : rotAngle R ≤ Real.pi := Real.arccos_le_pi _
  rw [← hc]
  have hs := Real.mul_le_sin (x := rotAngle R / 2) (by linarith) (by linarith)
  have hcos : Real.cos (rotAngle R) = 1 - 2 * Real.sin (rotAngle R / 2) ^ 2 := by
    have := Real.cos_two_mul (rotAngle R / 2)
    rw [show 2 * (rotAngle R / 2) = rotAngle R by ring] at this
    rw [this, Real.cos_sq']; ring
  rw [hcos]
  have hpi := Real.pi_pos
  have hs' : rotAngle R / Real.pi ≤ Real.sin (rotAngle R / 2) := by
    calc rotAngle R / Real.pi = 2 / Real.pi * (rotAngle R / 2) := by ring
      _ ≤ _ := hs
  have h2 : rotAngle R ≤ Real.pi * Real.sin (rotAngle R / 2) := by
    rw [div_le_iff₀ hpi] at hs'; linarith
  calc rotAngle R ^ 2 ≤ (Real.pi * Real.sin (rotAngle R / 2)) ^ 2 := pow_le_pow_left₀ h0 h2 2
    _ = _ := by ring

/-- A differentiable bound of the disagreement. -/
noncomputable def poseBound (w : ℝ) (X T : Iso) : ℝ :=
  (X * T.inv).t.normSq + w ^ 2 * (Real.pi ^ 2 / 2 * (1 - ((X.R * T.R.tr).m00 + (X.R * T.R.tr).m11 + (X.R * T.R.tr).m22 - 1) / 2))

theorem poseMisfit_le (w : ℝ) {X T : Iso} (hX : X.IsRigid) (hT : T.IsRigid) : poseMisfit w X T ≤ poseBound w X T := by
  unfold poseMisfit poseBound
  have := mul_le_mul_of_nonneg_left (rotAngle_sq_le (M3.IsRot.mul hX (M3.IsRot.tr hT))) (sq_nonneg w)
  rw [mul_pow]
  linarith

theorem poseBound_self (w : ℝ) {T : Iso} (hT : T.IsRigid) : poseBound w T T = 0 := by
  unfold poseBound
  rw [Iso.mul_inv hT, M3.IsRot.mul_tr hT]
  simp [V3.normSq, V3.dot]

theorem poseBound_diff (w : ℝ) (X : Iso) {F : ℝ → Iso} (hF : DiffIso F) : Differentiable ℝ fun u => poseBound w X (F u) := by
  obtain ⟨a0, a1, a2, a3, a4, a5, a6, a7, a8, ax, ay, az⟩ := hF
  simp only [poseBound, Iso.mul_def, Iso.inv, M3.mul_def, M3.tr, M3.mulVec, V3.normSq, V3.dot, V3.add_x, V3.add_y, V3.add_z,
    V3.neg_x, V3.neg_y, V3.neg_z]
  fun_prop

theorem differentiable_list_sum {α : Type} (l : List α) (f : α → ℝ → ℝ) (x : ℝ) (h : ∀ a ∈ l, DifferentiableAt ℝ (f a) x) :
    DifferentiableAt ℝ (fun u => (l.map fun a => f a u).sum) x := by
  induction l with
  | nil => simp
  | cons a l ih =>
    simp only [List.map_cons, List.sum_cons]
    exact (h a List.mem_cons_self).add (ih fun b hb => h b (List.mem_cons_of_mem _ hb))

theorem shrink6 (cc tc : DHChain) (hcc : RigidMotion cc.base) (htc : RigidMotion tc.base) (w sdC sdT : ℝ) (h1 : sdC ≠ 0)
    (h2 : sdT ≠ 0) (ms : List KinMeas) (k : Calib) (hk : k.Rigid) (hex : Explains6 cc tc k ms) (hoff : ¬ k.Nominal) :
    ∀ᶠ s in nhdsWithin (1 : ℝ) (Set.Iio 1),
      misfit6 cc tc w ms (k.scaleOffsets s) + (k.scaleOffsets s).offsetCosts sdC sdT <
        misfit6 cc tc w ms k + k.offsetCosts sdC sdT := by
  have hT : ∀ u qc qt, ((k.scaleOffsets u).predicts cc tc qc qt).IsRigid := fun u qc qt =>
    predicts_rigid hcc htc (k := k.scaleOffsets u) hk qc qt
  have hT1 : ∀ m ∈ ms, m.cameraToTarget = (k.scaleOffsets 1).predicts cc tc m.cameraJoints m.targetJoints := by
    rw [scaleOffsets_one]; exact hex
  have hX : ∀ m ∈ ms, m.cameraToTarget.IsRigid := fun m hm => by rw [hT1 m hm]; exact hT _ _ _
  have hle : ∀ u, misfit6 cc tc w ms (k.scaleOffsets u) ≤ (ms.map fun m => poseBound w m.cameraToTarget
      ((k.scaleOffsets u).predicts cc tc m.cameraJoints m.targetJoints)).sum := fun u =>
    List.sum_le_sum fun m hm => poseMisfit_le w (hX m hm) (hT _ _ _)
  have hnn : ∀ u, 0 ≤ misfit6 cc tc w ms (k.scaleOffsets u) := fun u => List.sum_nonneg fun x hx => by
    obtain ⟨y, -, rfl⟩ := List.mem_map.1 hx
    exact poseMisfit_nonneg _ _ _
  have hG1 : (ms.map fun m => poseBound w m.cameraToTarget
      ((k.scaleOffsets 1).predicts cc tc m.cameraJoints m.targetJoints)).sum = 0 := by
    apply List.sum_eq_zero
    intro x hx
    obtain ⟨m, hm, rfl⟩ := List.mem_map.1 hx
    rw [← hT1 m hm]
    exact poseBound_self w (hX m hm)
  have hs := shrink_lt (D := fun u => misfit6 cc tc w ms (k.scaleOffsets u)) (offsetCosts_pos h1 h2 hoff)
    (differentiable_list_sum ms (fun m u => poseBound w m.cameraToTarget
      ((k.scaleOffsets u).predicts cc tc m.cameraJoints m.targetJoints)) 1 fun m _ =>
        (poseBound_diff w m.cameraToTarget (DiffIso.predicts cc tc k _ _)) 1) hG1
    (Filter.Eventually.of_forall fun u => (hnn u).trans (hle u)) (Filter.Eventually.of_forall hle)
  have h0 := hnn 1
  rw [scaleOffsets_one] at h0
  filter_upwards [hs] with s hs
  rw [offsetCosts_scale]
  linarith

theorem shrink2 (cc tc : DHChain) (intr : Intr) (sdC sdT : ℝ) (h1 : sdC ≠ 0) (h2 : sdT ≠ 0) (obs : List KinObs)
    (k : Calib) (hex : Explains2 cc tc intr k obs) (hoff : ¬ k.Nominal) :
    ∀ᶠ s in nhdsWithin (1 : ℝ) (Set.Iio 1),
      misfit2 cc tc intr obs (k.scaleOffsets s) + (k.scaleOffsets s).offsetCosts sdC sdT <
        misfit2 cc tc intr obs k + k.offsetCosts sdC sdT := by
  have hp : ∀ T c, 0 ≤ pixelMisfit intr T c := fun T c => by unfold pixelMisfit; positivity
  have hnn : ∀ u, 0 ≤ misfit2 cc tc intr obs (k.scaleOffsets u) := fun u => List.sum_nonneg fun x hx => by
    obtain ⟨o, -, rfl⟩ := List.mem_map.1 hx
    refine List.sum_nonneg fun y hy => ?_
    obtain ⟨c, -, rfl⟩ := List.mem_map.1 hy
    exact hp _ _
  have hG1 : misfit2 cc tc intr obs (k.scaleOffsets 1) = 0 := by
    rw [scaleOffsets_one]
    apply List.sum_eq_zero
    intro x hx
    obtain ⟨o, ho, rfl⟩ := List.mem_map.1 hx
    apply List.sum_eq_zero
    intro y hy
    obtain ⟨c, hc, rfl⟩ := List.mem_map.1 hy
    unfold pixelMisfit
    rw [(hex o ho c hc).2]
    ring
  have hs := shrink_lt (D := fun u => misfit2 cc tc intr obs (k.scaleOffsets u))
    (G := fun u => misfit2 cc tc intr obs (k.scaleOffsets u)) (offsetCosts_pos h1 h2 hoff)
    (by
      refine differentiable_list_sum obs (fun o u => (o.correspondences.map fun c =>
        pixelMisfit intr ((k.scaleOffsets u).predicts cc tc o.cameraJoints o.targetJoints) c).sum) 1 fun o ho => ?_
      refine differentiable_list_sum o.correspondences (fun c u =>
        pixelMisfit intr ((k.scaleOffsets u).predicts cc tc o.cameraJoints o.targetJoints) c) 1 fun c hc => ?_
      have hz : (((k.scaleOffsets 1).predicts cc tc o.cameraJoints o.targetJoints).apply c.inTarget).z ≠ 0 := by
        rw [scaleOffsets_one]; exact (hex o ho c hc).1.ne'
      obtain ⟨a0, a1, a2, a3, a4, a5, a6, a7, a8, ax, ay, az⟩ := DiffIso.predicts cc tc k o.cameraJoints o.targetJoints
      have dx : DifferentiableAt ℝ (fun u => (((k.scaleOffsets u).predicts cc tc o.cameraJoints o.targetJoints).apply c.inTarget).x) 1 := by
        simp only [Iso.apply, M3.mulVec, V3.add_x]; fun_prop
      have dy : DifferentiableAt ℝ (fun u => (((k.scaleOffsets u).predicts cc tc o.cameraJoints o.targetJoints).apply c.inTarget).y) 1 := by
        simp only [Iso.apply, M3.mulVec, V3.add_y]; fun_prop
      have dz : DifferentiableAt ℝ (fun u => (((k.scaleOffsets u).predicts cc tc o.cameraJoints o.targetJoints).apply c.inTarget).z) 1 := by
        simp only [Iso.apply, M3.mulVec, V3.add_z]; fun_prop
      have qx := dx.div dz hz
      have qy := dy.div dz hz
      unfold pixelMisfit pinhole
      simp only
      exact ((((qx.const_mul intr.fx).add_const intr.cx).sub_const c.inImage.x).pow 2).add
        ((((qy.const_mul intr.fy).add_const intr.cy).sub_const c.inImage.y).pow 2)) hG1
    (Filter.Eventually.of_forall hnn) (Filter.Eventually.of_forall fun _ => le_rfl)
  have h0 := hnn 1
  rw [scaleOffsets_one] at h0
  filter_upwards [hs] with s hs
  rw [offsetCosts_scale]
  linarith

/-- Exact measurements of a robot with any offsets: the true calibration costs more than one with all offsets reduced by the
same factor and the same transforms. Masked offsets stay zero. -/
theorem C176_negation (cc tc : DHChain) (hcc : RigidMotion cc.base) (htc : RigidMotion tc.base) (w sdC sdT : ℝ) (h1 : sdC ≠ 0)
    (h2 : sdT ≠ 0) (ms : List KinMeas) (k : Calib) (hk : k.Rigid) (hex : Explains6 cc tc k ms) (hoff : ¬ k.Nominal) :
    ∃ s, 0 < s ∧ s < 1 ∧
      misfit6 cc tc w ms (k.scaleOffsets s) + (k.scaleOffsets s).offsetCosts sdC sdT <
        misfit6 cc tc w ms k + k.offsetCosts sdC sdT :=
  exists_factor (shrink6 cc tc hcc htc w sdC sdT h1 h2 ms k hk hex hoff)

/-- The same for exact images with all points in front of the camera. -/
theorem C176_negation_pixels (cc tc : DHChain) (intr : Intr) (sdC sdT : ℝ) (h1 : sdC ≠ 0) (h2 : sdT ≠ 0) (obs : List KinObs)
    (k : Calib) (hex : Explains2 cc tc intr k obs) (hoff : ¬ k.Nominal) :
    ∃ s, 0 < s ∧ s < 1 ∧
      misfit2 cc tc intr obs (k.scaleOffsets s) + (k.scaleOffsets s).offsetCosts sdC sdT <
        misfit2 cc tc intr obs k + k.offsetCosts sdC sdT :=
  exists_factor (shrink2 cc tc intr sdC sdT h1 h2 obs k hex hoff)

/-! The costs of the last theorems are those of the code: whenever a run reports the true calibration of a robot with offsets,
another run of the same problem, with a solver that meets the same contract, reports smaller offsets, the same transforms and a
smaller final cost. -/

theorem kinPrior_length {blocks : List Block} {a : Nat} {c : DHChain} {sd : ℝ} {l : List (ResBlock Mem)}
    (h : kinPrior blocks a c sd = .ok l) (st st' : Nat → Mem) : (residuals l st).length = (residuals l st').length := by
  unfold kinPrior at h
  split at h
  · rw [Res.bind_ok_iff] at h
    obtain ⟨cst, -, h⟩ := h
    split at h
    · cases h; rfl
    · rw [Res.bind_ok_iff] at h
      obtain ⟨ml, hml, h⟩ := h
      unfold MaxLik.make at hml
      rw [if_neg (by simp)] at hml
      cases hml
      simp only [Res.ok.injEq] at h
      rw [← h]
      simp [residuals, ResBlock.residual, evalMem1, MaxLik.eval]
  · cases h; rfl

/-- The solver of a run, except that from the initial values of this run it arrives at `st'`. -/
noncomputable def KCeres.redirect (K : KCeres) (blocks : List Block) (pb : List (ResBlock Mem)) (init st st' : Nat → Mem) : KCeres :=
  open Classical in
  { order := K.order
    run := fun bs => { K.run bs with
      solve := fun pb' s => if bs = blocks ∧ pb' = pb ∧ s = init then st' else (K.run bs).solve pb' s
      covCompute := fun pb' s l => if s = st' then (K.run bs).covCompute pb' st l else (K.run bs).covCompute pb' s l
      covMatrix := fun pb' s l => if s = st' then (K.run bs).covMatrix pb' st l else (K.run bs).covMatrix pb' s l } }

theorem KCeres.redirect_wf {K : KCeres} (hK : K.WF) {blocks : List Block} {pb : List (ResBlock Mem)} {init st st' : Nat → Mem}
    (hf : ∀ a, a ∉ usedBlocks pb → st' a = init a) (hd : cost pb st' ≤ cost pb init)
    (hh : ∀ b ∈ blocks, ∀ k, b.Held k → st' b.addr k = init b.addr k) : (K.redirect blocks pb init st st').WF := by
  classical
  refine ⟨hK.order_perm, fun bs => ⟨?_, ?_, (hK.run_wf bs).order_perm, ?_⟩, ?_⟩
  · intro pb' s a ha
    simp only [KCeres.redirect]
    split
    · rename_i h; obtain ⟨-, rfl, rfl⟩ := h; exact hf a ha
    · exact (hK.run_wf bs).frame pb' s a ha
  · intro pb' s
    simp only [KCeres.redirect]
    split
    · rename_i h; obtain ⟨-, rfl, rfl⟩ := h; exact hd
    · exact (hK.run_wf bs).descent pb' s
  · intro pb' s l e
    simp only [KCeres.redirect]
    split
    · exact (hK.run_wf bs).compute_no_throw pb' _ l e
    · exact (hK.run_wf bs).compute_no_throw pb' _ l e
  · intro bs pb' s b hb k hk
    simp only [KCeres.redirect]
    split
    · rename_i h; obtain ⟨rfl, rfl, rfl⟩ := h; exact hh b hb k hk
    · exact hK.held bs pb' s b hb k hk

/-- Every state that respects the masks and is not worse than the initial values can be the end of a run. -/
theorem KinRun.other {K : KCeres} (hK : K.WF) {p : KinProblem} {costs : List ((Nat → Mem) → Res (List ℝ))} {r : KinResult}
    (R : KinRun K p costs r) {st' : Nat → Mem} (hf : ∀ a, a ∉ usedBlocks R.pb → st' a = kinInit p a)
    (hd : cost R.pb st' ≤ cost R.pb (kinInit p)) (hh : ∀ b ∈ R.blocks, ∀ k, b.Held k → st' b.addr k = kinInit p b.addr k) :
    ∃ K' r', K'.WF ∧ kinOptimize K' p costs = .ok r' ∧ RCT.calibAt p st' = calibOf r' ∧ r'.finalCost = costPerObs R.pb st' := by
  refine ⟨K.redirect R.blocks R.pb (kinInit p) R.st st',
    ⟨(K.run R.blocks).converged R.pb (kinInit p), costPerObs R.pb (kinInit p), costPerObs R.pb st',
      kinTransform (st' 2).v3 (st' 3).v3, kinTransform (st' 4).v3 (st' 5).v3, kinTransform (st' 6).v3 (st' 7).v3,
      kinOffsets p.cameraChain (st' 0), kinOffsets p.targetChain (st' 1), r.covariance, r.printed⟩,
    KCeres.redirect_wf hK hf hd hh, ?_, rfl, rfl⟩
  obtain ⟨ls, hls⟩ := Res.mapList_returns R.eval
  have hne : ((costs.map fun f => (⟨List.range 8, evalKin f⟩ : ResBlock Mem)).isEmpty) = false := by
    rw [List.isEmpty_eq_false_iff]
    simpa using R.ne
  have hm := R.masked
  have hpb := R.pb_eq
  have hcov := R.cov
  rw [R.pb0_eq] at hm hpb
  unfold kinOptimize
  simp only
  rw [if_neg (by rw [hne]; simp)]
  have ho : ∀ l, (K.redirect R.blocks R.pb (kinInit p) R.st st').order l = K.order l := fun _ => rfl
  simp only [ho]
  rw [hm]
  simp only [Res.ok_bind]
  rw [R.h0, Res.ok_bind, R.h1, Res.ok_bind, R.printed, Res.ok_bind, hls, Res.ok_bind]
  rw [← hpb]
  have hs : ((K.redirect R.blocks R.pb (kinInit p) R.st st').run R.blocks).solve R.pb (kinInit p) = st' := if_pos ⟨rfl, rfl, rfl⟩
  rw [hs]
  have hc : ((K.redirect R.blocks R.pb (kinInit p) R.st st').run R.blocks).covSolverF R.pb st' (kinSize p) =
      (K.run R.blocks).covSolverF R.pb R.st (kinSize p) := by
    simp [Ceres.covSolverF, KCeres.redirect]
  rw [hc, hcov, Res.ok_bind]
  rfl

/-- The cost of the code at any state that respects the masks. -/
theorem KinRun.cost_state {K : KCeres} {p : KinProblem} {costs : List ((Nat → Mem) → Res (List ℝ))} {r : KinResult}
    (R : KinRun K p costs r) {st : Nat → Mem} (h0 : ∀ b ∈ R.blocks, b.addr = 0 → b.constant = true → ∀ k, st 0 k = 0)
    (h1 : ∀ b ∈ R.blocks, b.addr = 1 → b.constant = true → ∀ k, st 1 k = 0) :
    2 * cost R.pb st = (costs.map fun f => sumSq (evalKin f ((List.range 8).map st))).sum +
      (RCT.calibAt p st).offsetCosts p.cameraStdev p.targetStdev := by
  have a := kinPrior_residuals (st := st) R.h0 h0
  have b := kinPrior_residuals (st := st) R.h1 h1
  have e : cost R.pb st = sumSq (residuals R.pb st) / 2 := rfl
  rw [e, R.pb_eq, residuals_append, residuals_append, sumSq_append, sumSq_append, a.1, b.1, R.pb0_eq, sumSq_pb0]
  have e : (RCT.calibAt p st).offsetCosts p.cameraStdev p.targetStdev =
      offsetPenalty p.cameraStdev (kinOffsets p.cameraChain (st 0)) +
        offsetPenalty p.targetStdev (kinOffsets p.targetChain (st 1)) := rfl
  rw [e]
  ring

/-- Offsets multiplied by `s`. -/
def scaleState (s : ℝ) (st : Nat → Mem) : Nat → Mem := fun a k => if a = 0 ∨ a = 1 then s * st a k else st a k

theorem calibAt_scale (p : KinProblem) (s : ℝ) (st : Nat → Mem) :
    calibAt p (scaleState s st) = (calibAt p st).scaleOffsets s := by
  have h : ∀ (c : DHChain) (m : Mem), kinOffsets c (fun k => s * m k) =
      (kinOffsets c m).map fun v => ⟨s * v.d, s * v.theta, s * v.r, s * v.alpha⟩ := fun c m => by
    rw [kinOffsets_dhRows, kinOffsets_dhRows]
    unfold Mem.dhRows
    rw [List.map_map]
    rfl
  unfold calibAt Calib.scaleOffsets
  simp only
  rw [← h, ← h]
  rfl

theorem costs_lt {pb : List (ResBlock Mem)} {st st' : Nat → Mem} (hl : (residuals pb st).length = (residuals pb st').length)
    (h : cost pb st' < cost pb st) : ∃ a b, costPerObs pb st' = some a ∧ costPerObs pb st = some b ∧ a < b := by
  have hne : (residuals pb st).length ≠ 0 := by
    intro h0
    have e1 : residuals pb st = [] := List.length_eq_zero_iff.1 h0
    have e2 : residuals pb st' = [] := List.length_eq_zero_iff.1 (hl ▸ h0)
    have c : ∀ s, cost pb s = sumSq (residuals pb s) / 2 := fun _ => rfl
    rw [c, c, e1, e2] at h
    exact lt_irrefl _ h
  refine ⟨cost pb st' / (residuals pb st').length, cost pb st / (residuals pb st).length, ?_, ?_, ?_⟩
  · unfold costPerObs; rw [if_neg (hl ▸ hne)]
  · unfold costPerObs; rw [if_neg hne]
  · rw [hl]
    exact div_lt_div_of_pos_right h (by rw [← hl]; exact_mod_cast Nat.pos_of_ne_zero hne)

theorem KinRun.shrink {K : KCeres} (hK : K.WF) {p : KinProblem} {costs : List ((Nat → Mem) → Res (List ℝ))} {r : KinResult}
    (R : KinRun K p costs r) (hlen : ∀ f ∈ costs, ∀ st st' : Nat → Mem,
      (evalKin f ((List.range 8).map st)).length = (evalKin f ((List.range 8).map st')).length) {s : ℝ}
    (hs : (costs.map fun f => sumSq (evalKin f ((List.range 8).map (scaleState s R.st)))).sum +
        ((calibOf r).scaleOffsets s).offsetCosts p.cameraStdev p.targetStdev <
      (costs.map fun f => sumSq (evalKin f ((List.range 8).map R.st))).sum +
        (calibOf r).offsetCosts p.cameraStdev p.targetStdev) :
    ∃ K' r', K'.WF ∧ kinOptimize K' p costs = .ok r' ∧ calibOf r' = (calibOf r).scaleOffsets s ∧
      ∃ a b, r'.finalCost = some a ∧ r.finalCost = some b ∧ a < b := by
  have hz : ∀ a, a = 0 ∨ a = 1 → ∀ k, kinInit p a k = 0 := by rintro a (rfl | rfl) k <;> rfl
  have hst := R.st_eq
  have hh : ∀ b ∈ R.blocks, ∀ k, b.Held k → scaleState s R.st b.addr k = kinInit p b.addr k := by
    intro b hb k hk
    have h := hK.held R.blocks R.pb (kinInit p) b hb k hk
    rw [← hst] at h
    unfold scaleState
    split
    · rename_i ha; rw [h, hz _ ha, mul_zero]
    · exact h
  have hf : ∀ a, a ∉ usedBlocks R.pb → scaleState s R.st a = kinInit p a := by
    intro a ha
    have h := (hK.run_wf R.blocks).frame R.pb (kinInit p) a ha
    rw [← hst] at h
    funext k
    unfold scaleState
    split
    · rename_i ha; rw [h, hz _ ha, mul_zero]
    · rw [h]
  have hc : cost R.pb (scaleState s R.st) < cost R.pb R.st := by
    have c1 := R.cost_state (R.const_zero hK 0 (Or.inl rfl)) (R.const_zero hK 1 (Or.inr rfl))
    have c2 := R.cost_state (st := scaleState s R.st)
      (fun b hb ha hc k => by unfold scaleState; rw [if_pos (Or.inl rfl), R.const_zero hK 0 (Or.inl rfl) b hb ha hc k, mul_zero])
      (fun b hb ha hc k => by unfold scaleState; rw [if_pos (Or.inr rfl), R.const_zero hK 1 (Or.inr rfl) b hb ha hc k, mul_zero])
    rw [calibAt_scale] at c2
    rw [R.calibAt] at c1 c2
    linarith
  have hd := (hK.run_wf R.blocks).descent R.pb (kinInit p)
  rw [← hst] at hd
  obtain ⟨K', r', hK', hr', hcal, hfin⟩ := R.other hK hf (hc.le.trans hd) hh
  refine ⟨K', r', hK', hr', by rw [← hcal, calibAt_scale, R.calibAt], ?_⟩
  have hl0 : (residuals R.pb0 R.st).length = (residuals R.pb0 (scaleState s R.st)).length := by
    have e : costs.map (fun f => ((⟨List.range 8, evalKin f⟩ : ResBlock Mem).residual R.st).length) =
        costs.map fun f => ((⟨List.range 8, evalKin f⟩ : ResBlock Mem).residual (scaleState s R.st)).length :=
      List.map_congr_left fun f hf => hlen f hf _ _
    rw [R.pb0_eq]
    unfold residuals
    rw [List.flatMap_map, List.flatMap_map, List.length_flatMap, List.length_flatMap, e]
  have hl : (residuals R.pb R.st).length = (residuals R.pb (scaleState s R.st)).length := by
    rw [R.pb_eq, residuals_append, residuals_append, residuals_append, residuals_append]
    simp only [List.length_append]
    rw [kinPrior_length R.h0 R.st (scaleState s R.st), kinPrior_length R.h1 R.st (scaleState s R.st), hl0]
  obtain ⟨a, b, ha, hb, hab⟩ := costs_lt hl hc
  exact ⟨a, b, hfin.trans ha, R.finalCost.trans hb, hab⟩

/-- If a run for measured poses reports a calibration with offsets that predicts all of them exactly, another run reports all
offsets reduced by the same factor, the same transforms, and a smaller final cost. -/
theorem C176_negation_run (K : KCeres) (hK : K.WF) (p : KinProblem) (w : ℝ) (obs : List KinMeas) (r : KinResult)
    (hcc : RigidMotion p.cameraChain.base) (htc : RigidMotion p.targetChain.base) (hs : p.cameraStdev ≠ 0)
    (hs' : p.targetStdev ≠ 0) (h : kinematic6 K p w obs = .ok r)
    (hex : Explains6 p.cameraChain p.targetChain (calibOf r) obs) (hoff : ¬ (calibOf r).Nominal) :
    ∃ K' r' s, K'.WF ∧ kinematic6 K' p w obs = .ok r' ∧ 0 < s ∧ s < 1 ∧ calibOf r' = (calibOf r).scaleOffsets s ∧
      ∃ a b, r'.finalCost = some a ∧ r.finalCost = some b ∧ a < b := by
  unfold kinematic6 at h ⊢
  obtain ⟨R⟩ := kinOptimize_ok hK h
  have hrig : (calibOf r).Rigid := R.calibAt ▸ calibAt_rigid p R.st
  have hm : ∀ m ∈ obs, RigidMotion m.cameraToTarget := fun m hm => by
    rw [hex m hm]; exact (rigid_iff _).1 (predicts_rigid hcc htc hrig _ _)
  obtain ⟨s, h0, h1, hlt⟩ := C176_negation p.cameraChain p.targetChain hcc htc w _ _ hs hs' obs _ hrig hex hoff
  have hl := kin6_lengths R
  obtain ⟨K', r', a, b, c, d⟩ := R.shrink hK (s := s) (fun f hf st st' => by
    obtain ⟨m, hm', rfl⟩ := List.mem_map.1 hf
    rw [evalKin_range _ (fun a b hab => by unfold kinCost6; rw [kinCameraToTarget_congr _ _ _ _ _ _ hab]),
      evalKin_range _ (fun a b hab => by unfold kinCost6; rw [kinCameraToTarget_congr _ _ _ _ _ _ hab])]
    unfold kinCost6
    rw [calibAt_predicts p st (hl m hm').1 (hl m hm').2, calibAt_predicts p st' (hl m hm').1 (hl m hm').2, Res.ok_bind, Res.ok_bind]
    rfl) (by
    rw [kin6_misfit p hcc htc w obs hm hl, kin6_misfit p hcc htc w obs hm hl, calibAt_scale, R.calibAt]
    exact hlt)
  exact ⟨K', r', s, a, b, h0, h1, c, d⟩

/-- The same for pixels. -/
theorem C176_negation_pixels_run (K : KCeres) (hK : K.WF) (p : KinProblem) (intr : Intr) (obs : List KinObs) (r : KinResult)
    (hs : p.cameraStdev ≠ 0) (hs' : p.targetStdev ≠ 0) (h : kinematic2 K p intr obs = .ok r)
    (hex : Explains2 p.cameraChain p.targetChain intr (calibOf r) obs)
    (hz : ∀ o ∈ obs, ∀ c ∈ o.correspondences, 1 / 10 ^ 10 <
      (((calibOf r).predicts p.cameraChain p.targetChain o.cameraJoints o.targetJoints).apply c.inTarget).z)
    (hoff : ¬ (calibOf r).Nominal) :
    ∃ K' r' s, K'.WF ∧ kinematic2 K' p intr obs = .ok r' ∧ 0 < s ∧ s < 1 ∧ calibOf r' = (calibOf r).scaleOffsets s ∧
      ∃ a b, r'.finalCost = some a ∧ r.finalCost = some b ∧ a < b := by
  unfold kinematic2 at h ⊢
  obtain ⟨R⟩ := kinOptimize_ok hK h
  have hfront : ∀ᶠ s in nhdsWithin (1 : ℝ) (Set.Iio 1), ∀ o ∈ obs, ∀ c ∈ o.correspondences, 1 / 10 ^ 10 <
      ((((calibOf r).scaleOffsets s).predicts p.cameraChain p.targetChain o.cameraJoints o.targetJoints).apply c.inTarget).z := by
    refine nhdsWithin_le_nhds ?_
    have fin : ∀ {α : Type} (l : List α) (Q : α → ℝ → Prop), (∀ x ∈ l, ∀ᶠ s in nhds (1 : ℝ), Q x s) →
        ∀ᶠ s in nhds (1 : ℝ), ∀ x ∈ l, Q x s := by
      intro α l Q hQ
      induction l with
      | nil => simp
      | cons x l ih =>
        filter_upwards [hQ x List.mem_cons_self, ih fun y hy => hQ y (List.mem_cons_of_mem _ hy)] with s a b
        simpa using ⟨a, b⟩
    refine fin obs _ fun o ho => fin o.correspondences _ fun c hc => ?_
    obtain ⟨a0, a1, a2, a3, a4, a5, a6, a7, a8, ax, ay, az⟩ :=
      DiffIso.predicts p.cameraChain p.targetChain (calibOf r) o.cameraJoints o.targetJoints
    have dz : Differentiable ℝ (fun u => ((((calibOf r).scaleOffsets u).predicts p.cameraChain p.targetChain o.cameraJoints
        o.targetJoints).apply c.inTarget).z) := by
      simp only [Iso.apply, M3.mulVec, V3.add_z]; fun_prop
    have := hz o ho c hc
    rw [← scaleOffsets_one (calibOf r)] at this
    exact dz.continuous.continuousAt.eventually (lt_mem_nhds this)
  obtain ⟨s, h0, h1, hlt, hfr⟩ := exists_factor
    ((shrink2 p.cameraChain p.targetChain intr _ _ hs hs' obs _ hex hoff).and hfront)
  have hl := kin2_lengths R
  obtain ⟨K', r', a, b, c, d⟩ := R.shrink hK (s := s) (fun f hf st st' => by
    obtain ⟨o, ho, hf⟩ := List.mem_flatMap.1 hf
    obtain ⟨c, hc, rfl⟩ := List.mem_map.1 hf
    rw [evalKin_range _ (fun a b hab => by unfold kinCost2; rw [kinCameraToTarget_congr _ _ _ _ _ _ hab]),
      evalKin_range _ (fun a b hab => by unfold kinCost2; rw [kinCameraToTarget_congr _ _ _ _ _ _ hab])]
    unfold kinCost2
    rw [calibAt_predicts p st (hl o ho c hc).1 (hl o ho c hc).2, calibAt_predicts p st' (hl o ho c hc).1 (hl o ho c hc).2,
      Res.ok_bind, Res.ok_bind]
    rfl) (by
    rw [kin2_misfit p intr obs hl _ (by rw [calibAt_scale, R.calibAt]; exact hfr),
      kin2_misfit p intr obs hl _ (by rw [R.calibAt]; exact hz), calibAt_scale, R.calibAt]
    exact hlt)
  exact ⟨K', r', s, a, b, h0, h1, c, d⟩

/-- Non-vacuity: a run reports exactly the calibration of a robot whose joint is shifted. -/
example : ∃ (K : KCeres) (p : KinProblem) (m : KinMeas) (r : KinResult), K.WF ∧ RigidMotion p.cameraChain.base ∧
    RigidMotion p.targetChain.base ∧ p.cameraStdev ≠ 0 ∧ p.targetStdev ≠ 0 ∧ kinematic6 K p 1 [m] = .ok r ∧
    Explains6 p.cameraChain p.targetChain (calibOf r) [m] ∧ ¬ (calibOf r).Nominal := by
  obtain ⟨p, hp⟩ : ∃ p : KinProblem, p = { kinExProblem with cameraStdev := 10, masks := fun _ => [] } := ⟨_, rfl⟩
  obtain ⟨k, hk⟩ : ∃ k : Calib, k = ⟨1, 1, 1, [⟨1, 0, 0, 0⟩], []⟩ := ⟨_, rfl⟩
  have hkr : k.Rigid := by
    rw [hk]
    exact ⟨(rigid_iff _).1 Iso.IsRigid.one, (rigid_iff _).1 Iso.IsRigid.one, (rigid_iff _).1 Iso.IsRigid.one⟩
  have hc : p.cameraChain = kinExCamera := by rw [hp]; rfl
  have ht : p.targetChain = kinExTarget := by rw [hp]; rfl
  have hcc : RigidMotion p.cameraChain.base := by rw [hc]; exact (rigid_iff _).1 Iso.IsRigid.one
  have htc : RigidMotion p.targetChain.base := by rw [ht]; exact (rigid_iff _).1 M3.IsRot.one
  obtain ⟨m, hm⟩ : ∃ m : KinMeas, m = ⟨k.predicts p.cameraChain p.targetChain [0] [], [0], []⟩ := ⟨_, rfl⟩
  have hmr : ∀ x ∈ [m], RigidMotion x.cameraToTarget := by
    intro x hx; rw [List.mem_singleton.1 hx, hm]
    exact (rigid_iff _).1 (predicts_rigid hcc htc hkr _ _)
  have hsane : KinSane p := by
    constructor
    · intro a k hk; rw [hp] at hk; cases hk
    · intro a
      rw [hp]
      unfold kinSize kinExProblem
      simp only [kinRows, DHChain.dof, kinExCamera, kinExTarget]
      split
      · simp
      · split <;> simp
  have hrun : ∃ r, kinematic6 idKCeres p 1 [m] = .ok r := by
    apply C46_accepts idKCeres idKCeres_wf _ hsane
    · simp
    · intro a k hk; rw [hp] at hk; cases hk
    · intro f hf
      simp only [List.map_cons, List.map_nil, List.mem_singleton] at hf
      subst hf
      unfold kinCost6
      rw [kinCameraToTarget_eq, if_pos (by rw [hc, ht, hm]; simp [kinExCamera, kinExTarget, DHChain.dof]), Res.ok_bind]
      exact ⟨_, rfl⟩
    · intro _ _ _ _; exact ⟨rfl, rfl⟩
  obtain ⟨r, hr⟩ := hrun
  unfold kinematic6 at hr
  obtain ⟨R⟩ := kinOptimize_ok idKCeres_wf hr
  obtain ⟨st', hst'⟩ : ∃ st' : Nat → Mem, st' = fun a i => if a = 0 ∧ i = 0 then 1 else kinInit p a i := ⟨_, rfl⟩
  have hguess : calibAt p (kinInit p) = guessOf p := by
    rw [hp]; exact calibAt_init kinRepresentable_one kinRepresentable_one kinRepresentable_one
  have hcal : calibAt p st' = k := by
    have e1 := congrArg Calib.cm hguess
    have e2 := congrArg Calib.tm hguess
    have e3 := congrArg Calib.cb hguess
    have e4 : kinOffsets p.cameraChain (st' 0) = [⟨1, 0, 0, 0⟩] := by
      rw [hc, kinOffsets_dhRows, hst']
      simp [Mem.dhRows, kinExCamera, DHChain.dof, kinInit]
    have e5 : kinOffsets p.targetChain (st' 1) = [] := by
      rw [ht, kinOffsets_dhRows]
      simp [Mem.dhRows, kinExTarget, DHChain.dof]
    rw [hk]
    have u : ∀ a, a ≠ 0 → st' a = kinInit p a := fun a ha => by rw [hst']; funext i; exact if_neg fun h => ha h.1
    unfold calibAt
    rw [e4, e5, u 2 (by norm_num), u 3 (by norm_num), u 4 (by norm_num), u 5 (by norm_num), u 6 (by norm_num), u 7 (by norm_num)]
    rw [hp] at e1 e2 e3 ⊢
    congr 1
  have hblk : ∀ b ∈ R.blocks, ∀ i, b.Held i → b.addr = 1 := by
    intro b hb i hi
    have hmk : ∀ b ∈ kinBlocks p (idKCeres.order R.pb0), ∃ a : Fin 8, b = ⟨a.val, kinSize p a.val,
        decide (a.val = 0 ∧ p.cameraChain.dof = 0) || decide (a.val = 1 ∧ p.targetChain.dof = 0), none⟩ ∧
        b.requested (kinMasks p) = p.masks a := by
      intro b hb; rw [R.pb0_eq] at hb; exact mem_kinBlocks idKCeres_wf R.ne hb
    have hq : ∀ b ∈ kinBlocks p (idKCeres.order R.pb0), b.requested (kinMasks p) = [] := fun b hb => by
      obtain ⟨a, -, h⟩ := hmk b hb
      rw [h, hp]
    have hrel := C17_frozen _ _ _ (fun b hb => by
      obtain ⟨a, rfl, hr⟩ := hmk b hb
      exact ⟨hsane.size a, by rw [hr]; exact hsane.int a⟩) (fun b hb => by rw [hq b hb]; intro i hi; cases hi) R.masked
    obtain ⟨b0, hb0, -, -, h, -⟩ := Forall₂.mem_right hrel hb
    rw [h (hq b0 hb0)] at hi ⊢
    obtain ⟨a, rfl, -⟩ := hmk b0 hb0
    rcases hi with hi | ⟨s, hs, -⟩
    · simp only [hc, kinExCamera, DHChain.dof, Bool.or_eq_true, decide_eq_true_eq] at hi
      rcases hi with hi | hi
      · simp at hi
      · exact (of_decide_eq_true hi).1
    · cases hs
  have hpred : [m].map (fun x => poseMisfit 1 x.cameraToTarget (k.predicts p.cameraChain p.targetChain x.cameraJoints x.targetJoints)) = [0] := by
    rw [hm]
    have hT := predicts_rigid hcc htc hkr [0] []
    simp only [List.map_cons, List.map_nil]
    rw [show poseMisfit 1 (k.predicts p.cameraChain p.targetChain [0] []) (k.predicts p.cameraChain p.targetChain [0] []) = 0 from
      le_antisymm ((poseMisfit_le 1 hT hT).trans_eq (poseBound_self 1 hT)) (poseMisfit_nonneg _ _ _)]
  have hcost : cost R.pb st' ≤ cost R.pb (kinInit p) := by
    have u1 : ∀ i, st' 1 i = 0 := fun i => by rw [hst']; rfl
    have c1 := R.cost_state (st := st') (fun b hb ha hc' => absurd (hblk b hb 0 (Or.inl hc')) (by rw [ha]; norm_num))
      (fun _ _ _ _ => u1)
    have c2 := R.cost_state (st := kinInit p) (fun _ _ _ _ _ => rfl) (fun _ _ _ _ _ => rfl)
    rw [kin6_misfit p hcc htc 1 [m] hmr (kin6_lengths R), hcal] at c1
    rw [kin6_misfit p hcc htc 1 [m] hmr (kin6_lengths R), hguess] at c2
    have e1 : misfit6 p.cameraChain p.targetChain 1 [m] k = 0 := by
      unfold misfit6; rw [hpred]; simp
    have e2 : k.offsetCosts p.cameraStdev p.targetStdev = 1 / 100 := by
      rw [hk, hp]; simp [Calib.offsetCosts, offsetCost]; norm_num
    have e3 : 0 ≤ (guessOf p).offsetCosts p.cameraStdev p.targetStdev :=
      add_nonneg (offsetCost_nonneg _ _) (offsetCost_nonneg _ _)
    have e4 : 1 ≤ misfit6 p.cameraChain p.targetChain 1 [m] (guessOf p) := by
      unfold misfit6 poseMisfit
      simp only [List.map_cons, List.map_nil, List.sum_cons, List.sum_nil, add_zero]
      refine le_add_of_le_of_nonneg ?_ (sq_nonneg _)
      rw [hm, hc, ht, hp, hk]
      simp [Calib.predicts, guessOf, kinExProblem, kinExTarget, endPose, kinExCamera, DHTransform.mk4, chainPose, jointPose,
        dhMatrix, Iso.inv, M3.tr, M3.mulVec, Iso.mul_def, M3.mul_def, V3.normSq, V3.dot]
    linarith
  obtain ⟨K', r', hK', hr', hcal', -⟩ := R.other idKCeres_wf (st' := st') (fun a ha => by
    rw [hst']; funext i
    refine if_neg fun h => ha ?_
    have h8 : (0 : Nat) ∈ usedBlocks R.pb0 := by
      rw [R.pb0_eq, (usedBlocks_kin R.ne).mem_iff]; simp
    rw [h.1, R.pb_eq]
    unfold usedBlocks at h8 ⊢
    rw [List.mem_dedup, List.flatMap_append, List.flatMap_append]
    exact List.mem_append_left _ (List.mem_append_left _ (List.mem_dedup.1 h8))) hcost (fun b hb i hi => by
    rw [hst']
    exact if_neg fun h => absurd (hblk b hb i hi) (by rw [h.1]; norm_num))
  refine ⟨K', p, m, r', hK', hcc, htc, by rw [hp]; norm_num, by rw [hp]; norm_num [kinExProblem], hr', ?_, ?_⟩
  · rw [← hcal', hcal]
    intro x hx
    rw [List.mem_singleton.1 hx, hm]
  · rw [← hcal', hcal, hk]
    intro h
    have := congrArg V4.d (h.1 _ List.mem_cons_self)
    simp at this

/-- For a robot without offsets the true calibration has no cost, so that no calibration is better. Missing: robots with
offsets. -/
theorem C176_partial (cc tc : DHChain) (hcc : RigidMotion cc.base) (htc : RigidMotion tc.base) (w sdC sdT : ℝ)
    (ms : List KinMeas) (k : Calib) (hk : k.Rigid) (hex : Explains6 cc tc k ms) (hoff : k.Nominal) (k' : Calib) :
    misfit6 cc tc w ms k + k.offsetCosts sdC sdT ≤ misfit6 cc tc w ms k' + k'.offsetCosts sdC sdT := by
  have h0 : misfit6 cc tc w ms k = 0 := by
    apply List.sum_eq_zero
    intro x hx
    obtain ⟨m, hm, rfl⟩ := List.mem_map.1 hx
    have hT := predicts_rigid hcc htc hk m.cameraJoints m.targetJoints
    rw [hex m hm]
    exact le_antisymm ((poseMisfit_le w hT hT).trans_eq (poseBound_self w hT)) (poseMisfit_nonneg _ _ _)
  have h1 : k.offsetCosts sdC sdT = 0 := by
    have z : ∀ sd (l : List V4), (∀ v ∈ l, v = 0) → offsetCost sd l = 0 := fun sd l h => by
      apply List.sum_eq_zero
      intro x hx
      obtain ⟨v, hv, rfl⟩ := List.mem_map.1 hx
      rw [h v hv]
      simp
    unfold Calib.offsetCosts
    rw [z _ _ hoff.1, z _ _ hoff.2, add_zero]
  have h2 : 0 ≤ misfit6 cc tc w ms k' := List.sum_nonneg fun x hx => by
    obtain ⟨y, -, rfl⟩ := List.mem_map.1 hx
    exact poseMisfit_nonneg _ _ _
  have h3 := add_nonneg (offsetCost_nonneg sdC k'.offC) (offsetCost_nonneg sdT k'.offT)
  change 0 ≤ k'.offsetCosts sdC sdT at h3
  linarith

/-- The same for exact images. Missing: robots with offsets. -/
theorem C176_partial_pixels (cc tc : DHChain) (intr : Intr) (sdC sdT : ℝ) (obs : List KinObs) (k : Calib)
    (hex : Explains2 cc tc intr k obs) (hoff : k.Nominal) (k' : Calib) :
    misfit2 cc tc intr obs k + k.offsetCosts sdC sdT ≤ misfit2 cc tc intr obs k' + k'.offsetCosts sdC sdT := by
  have h0 : misfit2 cc tc intr obs k = 0 := by
    apply List.sum_eq_zero
    intro x hx
    obtain ⟨o, ho, rfl⟩ := List.mem_map.1 hx
    apply List.sum_eq_zero
    intro y hy
    obtain ⟨c, hc, rfl⟩ := List.mem_map.1 hy
    unfold pixelMisfit
    rw [(hex o ho c hc).2]
    ring
  have h1 : k.offsetCosts sdC sdT = 0 := by
    have z : ∀ sd (l : List V4), (∀ v ∈ l, v = 0) → offsetCost sd l = 0 := fun sd l h => by
      apply List.sum_eq_zero
      intro x hx
      obtain ⟨v, hv, rfl⟩ := List.mem_map.1 hx
      rw [h v hv]
      simp
    unfold Calib.offsetCosts
    rw [z _ _ hoff.1, z _ _ hoff.2, add_zero]
  have h2 : 0 ≤ misfit2 cc tc intr obs k' := List.sum_nonneg fun x hx => by
    obtain ⟨o, -, rfl⟩ := List.mem_map.1 hx
    refine List.sum_nonneg fun y hy => ?_
    obtain ⟨c, -, rfl⟩ := List.mem_map.1 hy
    unfold pixelMisfit
    positivity
  have h3 := add_nonneg (offsetCost_nonneg sdC k'.offC) (offsetCost_nonneg sdT k'.offT)
  change 0 ≤ k'.offsetCosts sdC sdT at h3
  linarith

/-- Non-vacuity of C176: a joint with an offset, and exact measurements of two joint positions. -/
example (a b : ℝ) : (⟨1, 1, 1, [⟨0, 1, 0, 0⟩], []⟩ : Calib).Rigid ∧ ¬ (⟨1, 1, 1, [⟨0, 1, 0, 0⟩], []⟩ : Calib).Nominal ∧
    Explains6 kinExCamera kinExTarget ⟨1, 1, 1, [⟨0, 1, 0, 0⟩], []⟩
      ([a, b].map fun q => ⟨(⟨1, 1, 1, [⟨0, 1, 0, 0⟩], []⟩ : Calib).predicts kinExCamera kinExTarget [q] [], [q], []⟩) := by
  refine ⟨⟨(rigid_iff _).1 Iso.IsRigid.one, (rigid_iff _).1 Iso.IsRigid.one, (rigid_iff _).1 Iso.IsRigid.one⟩, ?_, ?_⟩
  · intro h
    have := congrArg V4.theta (h.1 _ List.mem_cons_self)
    simp at this
  · intro m hm
    obtain ⟨q, -, rfl⟩ := List.mem_map.1 hm
    rfl

example (intr : Intr) : Explains2 kinExCamera kinExTarget intr ⟨1, 1, 1, [⟨0, 1, 0, 0⟩], []⟩
    [⟨[⟨pinhole intr (((⟨1, 1, 1, [⟨0, 1, 0, 0⟩], []⟩ : Calib).predicts kinExCamera kinExTarget [0] []).apply 0), 0⟩],
      [0], []⟩] := by
  intro o ho c hc
  simp only [List.mem_singleton] at ho
  subst ho
  simp only [List.mem_singleton] at hc
  subst hc
  refine ⟨?_, rfl⟩
  simp [Calib.predicts, kinExTarget, endPose, kinExCamera, DHTransform.mk4, chainPose, jointPose, dhMatrix, Iso.apply, Iso.inv,
    M3.tr, M3.mulVec, Iso.mul_def, M3.mul_def]

end RCT
