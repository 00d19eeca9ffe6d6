import Verif.Spec.Unit
import Verif.Props.Order
import Verif.Props.Fit

/-!
# C225 The unit of length does not matter
-/

namespace RCT

open Spec

/-! ## A solver for the problem in the other unit -/

theorem sumSq_scaled (c : ℝ) (l : List ℝ) : ((l.map fun x => c * x).map fun r => r * r).sum = c ^ 2 * (l.map fun r => r * r).sum := by
  induction l with
  | nil => simp
  | cons a l ih => simp only [List.map_cons, List.sum_cons, ih]; ring

theorem cost_scaled {β : Type} {pb pb' : List (ResBlock β)} {st st' : Nat → β} {c : ℝ}
    (h : residuals pb' st' = (residuals pb st).map fun x => c * x) : cost pb' st' = c ^ 2 * cost pb st := by
  unfold cost
  rw [h, sumSq_scaled]; ring

theorem costPerObs_scaled {β : Type} {pb pb' : List (ResBlock β)} {st st' : Nat → β} {c : ℝ}
    (h : residuals pb' st' = (residuals pb st).map fun x => c * x) : costPerObs pb' st' = times (c ^ 2) (costPerObs pb st) := by
  unfold costPerObs times
  rw [cost_scaled h, h, List.length_map]
  split
  · rfl
  · rw [Option.map_some, mul_div_assoc]

/-- What the solver finds for `pb` can be carried over to a problem with proportional residuals. -/
theorem carry {β : Type} {s : Ceres β} (hs : s.WF) {pb pb' : List (ResBlock β)} {init init' fin' : Nat → β} (c : ℝ)
    (hb : pb'.map (·.blocks) = pb.map (·.blocks)) (hframe : ∀ a, a ∉ usedBlocks pb → fin' a = init' a)
    (hI : residuals pb' init' = (residuals pb init).map fun x => c * x)
    (hF : residuals pb' fin' = (residuals pb (s.solve pb init)).map fun x => c * x) :
    ∃ s' : Ceres β, s'.WF ∧ s'.solve pb' init' = fin' ∧ s'.converged pb' init' = s.converged pb init ∧ s'.order pb' = s.order pb ∧
      (∀ n, s'.covSolver pb' fin' n = s.covSolver pb (s.solve pb init) n) ∧
      costPerObs pb' init' = times (c ^ 2) (costPerObs pb init) ∧ costPerObs pb' fin' = times (c ^ 2) (costPerObs pb (s.solve pb init)) := by
  classical
  have hu : usedBlocks pb' = usedBlocks pb := by
    unfold usedBlocks
    have := congrArg (fun l : List (List Nat) => l.flatten.dedup) hb
    simpa only [List.flatMap_def] using this
  refine ⟨⟨fun q st => if q = pb' ∧ st = init' then fin' else st, fun _ _ => s.converged pb init,
    fun q => if q = pb' then s.order pb else usedBlocks q, fun _ _ => s.covCompute pb (s.solve pb init),
    fun _ _ => s.covMatrix pb (s.solve pb init)⟩, ⟨?_, ?_, ?_, ?_⟩, ?_, rfl, ?_, ?_, costPerObs_scaled hI, costPerObs_scaled hF⟩
  · intro q st a ha
    show (if q = pb' ∧ st = init' then fin' else st) a = st a
    split
    · rename_i h
      rw [h.1, hu] at ha
      rw [hframe a ha, h.2]
    · rfl
  · intro q st
    show cost q (if q = pb' ∧ st = init' then fin' else st) ≤ cost q st
    split
    · rename_i h
      rw [h.1, h.2, cost_scaled hI, cost_scaled hF]
      exact mul_le_mul_of_nonneg_left (hs.descent pb init) (sq_nonneg c)
    · exact le_refl _
  · intro q
    show (if q = pb' then s.order pb else usedBlocks q).Perm _
    split
    · rename_i h
      rw [h, hu]; exact hs.order_perm pb
    · exact .refl _
  · exact fun _ _ => hs.compute_no_throw _ _
  · exact if_pos ⟨rfl, rfl⟩
  · exact if_pos rfl
  · intro n
    unfold Ceres.covSolver
    simp only [hu]

/-- Residual blocks given one by one. -/
theorem residuals_map_scaled {ι β : Type} (l : List ι) (B B' : ι → ResBlock β) (st st' : Nat → β) (c : ℝ)
    (h : ∀ i ∈ l, (B' i).residual st' = ((B i).residual st).map fun x => c * x) :
    residuals (l.map B') st' = (residuals (l.map B) st).map fun x => c * x := by
  unfold residuals
  rw [List.flatMap_map, List.flatMap_map, List.map_flatMap]
  exact List.flatMap_congr h

/-! ## Poses and projections -/

/-- Six values in another unit. -/
def Pose6.inUnit (k : ℝ) (p : Pose6) : Pose6 := ⟨p.rx, p.ry, p.rz, k * p.x, k * p.y, k * p.z⟩

theorem poseEigenToCal_inUnit (k : ℝ) (T : Iso) : poseEigenToCal (Iso.inUnit k T) = (poseEigenToCal T).inUnit k := rfl

theorem poseCalToEigen_inUnit (k : ℝ) (p : Pose6) : poseCalToEigen (p.inUnit k) = Iso.inUnit k (poseCalToEigen p) := by
  unfold poseCalToEigen
  show (if p.rot.dot p.rot > dblEps then _ else _) = Iso.inUnit k (if p.rot.dot p.rot > dblEps then _ else _)
  split <;> rfl

theorem inUnit_inv (k : ℝ) (T : Iso) : (Iso.inUnit k T).inv = Iso.inUnit k T.inv := by
  unfold Iso.inUnit Iso.inv
  ext <;> simp [V3.smul, M3.mulVec] <;> ring

theorem inUnit_apply (k : ℝ) (T : Iso) (v : V3) : (Iso.inUnit k T).apply (V3.smul k v) = V3.smul k (T.apply v) := by
  unfold Iso.inUnit Iso.apply
  ext <;> simp [V3.smul, M3.mulVec] <;> ring

theorem inUnit_one (k : ℝ) : Iso.inUnit k 1 = 1 := by
  unfold Iso.inUnit
  ext <;> simp [V3.smul]

theorem transformPoint_inUnit (k : ℝ) (p : Pose6) (v : V3) :
    transformPoint (p.inUnit k).rot (p.inUnit k).trans (V3.smul k v) = V3.smul k (transformPoint p.rot p.trans v) := by
  rw [transformPoint_eq, transformPoint_eq, poseCalToEigen_inUnit, inUnit_apply]

theorem poseTransformPoint_inUnit (k : ℝ) (T : Iso) (v : V3) :
    poseTransformPoint (poseEigenToCal (Iso.inUnit k T)) (V3.smul k v) = V3.smul k (poseTransformPoint (poseEigenToCal T) v) := by
  rw [poseTransformPoint_eq, poseTransformPoint_eq, poseEigenToCal_inUnit, poseCalToEigen_inUnit, inUnit_apply]

theorem projectPoint_inUnit {k : ℝ} (hk : 0 < k) (i : Intr) {v : V3} (hv : v.z ≠ 0) : projectPoint i (V3.smul k v) = projectPoint i v := by
  have h : (V3.smul k v).z ≠ 0 := mul_ne_zero hk.ne' hv
  unfold projectPoint
  simp only [if_neg h, if_neg hv]
  simp only [V3.smul, mul_div_mul_left _ _ hk.ne']

theorem targetPointInCamera_inUnit (k : ℝ) (A B : Iso) (v : V3) (cam tgt : Pose6) :
    targetPointInCamera (Iso.inUnit k A) (Iso.inUnit k B) (V3.smul k v) (cam.inUnit k) (tgt.inUnit k) =
      V3.smul k (targetPointInCamera A B v cam tgt) := by
  unfold targetPointInCamera
  simp only [transformPoint_inUnit, poseTransformPoint_inUnit]

/-! ## Hand-eye calibration -/

theorem features_inUnit {κ : Type} (f : κ → κ) (k : ℝ) (obs : List (Obs κ)) :
    features (obs.map (Obs.inUnit f k)) = (features obs).map fun x => (Obs.inUnit f k x.1, f x.2) := by
  unfold features
  rw [List.flatMap_map, List.map_flatMap]
  refine List.flatMap_congr fun o _ => ?_
  simp only [Obs.inUnit, List.map_map]
  rfl

theorem heInit_inUnit {κ : Type} (f : κ → κ) (k : ℝ) (p : HandEyeProblem κ) (a : Nat) :
    heInit (HandEyeProblem.inUnit f k p) a = (heInit p a).inUnit k := by
  unfold heInit HandEyeProblem.inUnit
  simp only [inUnit_inv]
  split <;> rfl

theorem heFinish_inUnit {κ : Type} {s : Ceres Pose6} (hs : s.WF) (f : κ → κ) {k : ℝ} (c : ℝ) {p : HandEyeProblem κ}
    {pb pb' : List (ResBlock Pose6)} (hb : pb'.map (·.blocks) = pb.map (·.blocks))
    (hI : residuals pb' (fun a => (heInit p a).inUnit k) = (residuals pb (heInit p)).map fun x => c * x)
    (hF : residuals pb' (fun a => (s.solve pb (heInit p) a).inUnit k) = (residuals pb (s.solve pb (heInit p))).map fun x => c * x)
    {r : HandEyeResult} (hr : heFinish s p pb = .ok r) :
    ∃ r', Reaches (fun s => heFinish s (HandEyeProblem.inUnit f k p) pb') r' ∧ HandEyeResult.SameInUnit k (c ^ 2) r r' := by
  have hinit : heInit (HandEyeProblem.inUnit f k p) = fun a => (heInit p a).inUnit k := funext (heInit_inUnit f k p)
  obtain ⟨s', hs', h1, h2, h3, h4, h5, h6⟩ := carry hs c hb (fun a ha => by show Pose6.inUnit k _ = Pose6.inUnit k _; rw [hs.frame _ _ _ ha]) hI hF
  unfold heFinish at hr
  simp only [Res.bind_ok_iff] at hr
  obtain ⟨cov, hc, hr⟩ := hr
  cases hr
  refine ⟨⟨s.converged pb (heInit p), times (c ^ 2) (costPerObs pb (heInit p)), times (c ^ 2) (costPerObs pb (s.solve pb (heInit p))),
    poseCalToEigen ((s.solve pb (heInit p) heTgt).inUnit k), (poseCalToEigen ((s.solve pb (heInit p) heCam).inUnit k)).inv, cov⟩,
    ⟨s', hs', ?_⟩, rfl, rfl, rfl, ?_, poseCalToEigen_inUnit _ _⟩
  · simp only [heFinish, hinit, h1, h2, h3, h4, h5, h6]
    rw [show (HandEyeProblem.inUnit f k p).labels = p.labels from rfl, show (HandEyeProblem.inUnit f k p).labelCamera = p.labelCamera from rfl,
      show (HandEyeProblem.inUnit f k p).labelTarget = p.labelTarget from rfl, hc, Res.ok_bind]
  · show (poseCalToEigen _).inv = _
    rw [poseCalToEigen_inUnit, inUnit_inv]

/-- Hand-eye calibration from points: the same results with costs in the square of the new unit. -/
theorem C225_hand_eye_3d (p : HandEyeProblem Corr3) (k : ℝ) (r : HandEyeResult) (h : Reaches (fun s => handEye3 s p) r) :
    ∃ r', Reaches (fun s => handEye3 s (HandEyeProblem.inUnit (Corr3.inUnit k) k p)) r' ∧ HandEyeResult.SameInUnit k (k ^ 2) r r' := by
  obtain ⟨s, hs, hr⟩ := h
  have e : heBuild3 (HandEyeProblem.inUnit (Corr3.inUnit k) k p) =
      (features p.observations).map fun f => heBlock3 (Obs.inUnit (Corr3.inUnit k) k f.1, Corr3.inUnit k f.2) := by
    rw [heBuild3_eq]
    unfold HandEyeProblem.inUnit
    simp only [features_inUnit, List.map_map]
    rfl
  have key : ∀ st : Nat → Pose6, residuals (heBuild3 (HandEyeProblem.inUnit (Corr3.inUnit k) k p)) (fun a => (st a).inUnit k) =
      (residuals (heBuild3 p) st).map fun x => k * x := by
    intro st
    rw [e, heBuild3_eq]
    refine residuals_map_scaled _ _ _ _ _ _ fun f _ => ?_
    simp only [heBlock3, ResBlock.residual, List.map_cons, List.map_nil, eval2, handEyeCost3, Obs.inUnit, Corr3.inUnit, inUnit_inv,
      targetPointInCamera_inUnit]
    simp only [V3.smul, mul_sub]
  exact heFinish_inUnit hs (Corr3.inUnit k) k (by rw [e, heBuild3_eq, List.map_map, List.map_map]; rfl) (key _) (key _) hr

theorem heVisible_inUnit {k : ℝ} (hk : 0 < k) (p : HandEyeProblem Corr2) (f : Obs Corr2 × Corr2) :
    heVisible (HandEyeProblem.inUnit (Corr2.inUnit k) k p) (Obs.inUnit (Corr2.inUnit k) k f.1, Corr2.inUnit k f.2) ↔ heVisible p f := by
  unfold heVisible
  simp only [heInit_inUnit, Obs.inUnit, Corr2.inUnit, inUnit_inv, targetPointInCamera_inUnit]
  exact mul_pos_iff_of_pos_left hk

theorem heBlock2_inUnit {k : ℝ} (hk : 0 < k) (i : Intr) (f : Obs Corr2 × Corr2) (st : Nat → Pose6)
    (hz : (targetPointInCamera f.1.toCameraMount.inv f.1.toTargetMount f.2.inTarget (st heCam) (st heTgt)).z ≠ 0) :
    (heBlock2 i (Obs.inUnit (Corr2.inUnit k) k f.1, Corr2.inUnit k f.2)).residual (fun a => (st a).inUnit k) =
      ((heBlock2 i f).residual st).map fun x => 1 * x := by
  simp only [heBlock2, ResBlock.residual, List.map_cons, List.map_nil, eval2, handEyeCost2, Obs.inUnit, Corr2.inUnit, inUnit_inv,
    targetPointInCamera_inUnit, projectPoint_inUnit hk i hz, one_mul]

/-- Hand-eye calibration from pixels.

Full statement: for every problem and every result that is possible there is a possible result of the problem in another unit with the
same costs and rotations, and with the translations in the new unit.
Missing from the full claim: results with a feature in the plane through the optical centre (depth zero), for which the residual depends
on the unit, mount poses that the six values do not represent, and results whose camera pose is not rigid. -/
theorem C225_hand_eye_partial (p : HandEyeProblem Corr2) (hm : MountsRepresentable p.observations) {k : ℝ} (hk : 0 < k) (r : HandEyeResult)
    (h : Reaches (fun s => handEye2 s p) r) (hr : RigidMotion r.cameraMountToCamera)
    (hz : ∀ f ∈ features p.observations, (inCamera2 r.cameraMountToCamera r.targetMountToTarget f).z ≠ 0) :
    ∃ r', Reaches (fun s => handEye2 s (HandEyeProblem.inUnit (Corr2.inUnit k) k p)) r' ∧ HandEyeResult.SameInUnit k 1 r r' := by
  obtain ⟨s, hs, h⟩ := h
  simp only [handEye2] at h
  rcases heBuild2_cases p with ⟨hv, hb⟩ | ⟨-, hb⟩
  swap
  · rw [hb] at h; cases h
  rw [hb, Res.ok_bind] at h
  obtain ⟨-, e1, e2⟩ := heFinish_ok h
  have hb' : heBuild2 (HandEyeProblem.inUnit (Corr2.inUnit k) k p) =
      .ok ((features p.observations).map fun f => heBlock2 p.intr (Obs.inUnit (Corr2.inUnit k) k f.1, Corr2.inUnit k f.2)) := by
    have hf : features (HandEyeProblem.inUnit (Corr2.inUnit k) k p).observations =
        (features p.observations).map fun x => (Obs.inUnit (Corr2.inUnit k) k x.1, Corr2.inUnit k x.2) := features_inUnit _ _ _
    rcases heBuild2_cases (HandEyeProblem.inUnit (Corr2.inUnit k) k p) with ⟨-, hb'⟩ | ⟨⟨f, hf', hn⟩, -⟩
    · rw [hb', hf, List.map_map]; rfl
    · rw [hf] at hf'
      obtain ⟨g, hg, rfl⟩ := List.mem_map.1 hf'
      exact absurd ((heVisible_inUnit hk p g).2 (hv g hg)) hn
  have hcam : (poseCalToEigen (s.solve ((features p.observations).map (heBlock2 p.intr)) (heInit p) heCam)).IsRigid := by
    rw [e2] at hr
    exact Iso.IsRigid.of_inv ((rigid_iff _).2 hr)
  have hI := residuals_map_scaled (features p.observations) (heBlock2 p.intr)
    (fun f => heBlock2 p.intr (Obs.inUnit (Corr2.inUnit k) k f.1, Corr2.inUnit k f.2)) (heInit p) (fun a => (heInit p a).inUnit k) 1
    fun f hf => heBlock2_inUnit hk _ _ _ (ne_of_gt (hv f hf))
  have hF := residuals_map_scaled (features p.observations) (heBlock2 p.intr)
    (fun f => heBlock2 p.intr (Obs.inUnit (Corr2.inUnit k) k f.1, Corr2.inUnit k f.2))
    (s.solve ((features p.observations).map (heBlock2 p.intr)) (heInit p))
    (fun a => (s.solve ((features p.observations).map (heBlock2 p.intr)) (heInit p) a).inUnit k) 1 (fun f hf => by
      refine heBlock2_inUnit hk _ _ _ ?_
      have hz' := hz f hf
      rw [e1, e2] at hz'
      have hm' := hm f.1 (mem_features.1 hf).1
      rw [targetPointInCamera_spec hm'.1 hm'.2 _ _ _ hcam]
      exact hz')
  obtain ⟨r', ⟨s', hs', h'⟩, hsame⟩ := heFinish_inUnit hs (Corr2.inUnit k) 1 (by rw [List.map_map, List.map_map]; rfl) hI hF h
  rw [one_pow] at hsame
  refine ⟨r', ⟨s', hs', ?_⟩, hsame⟩
  simp only [handEye2]
  rw [hb', Res.ok_bind]
  exact h'

/-! ## PnP -/

/-- Values of the two blocks in another unit. -/
def pnpInUnit (k : ℝ) (st : Nat → V3) : Nat → V3 := fun a => if a = pnpTrans then V3.smul k (st a) else st a

theorem pnpInit_inUnit (k : ℝ) (T : Iso) : pnpInit (Iso.inUnit k T) = pnpInUnit k (pnpInit T) := by
  funext a
  by_cases h : a = pnpTrans <;> simp [pnpInit, pnpInUnit, Iso.inUnit, h]

theorem pnpTransform_inUnit (k : ℝ) (st : Nat → V3) :
    pnpTransform (pnpInUnit k st pnpRot) (pnpInUnit k st pnpTrans) = Iso.inUnit k (pnpTransform (st pnpRot) (st pnpTrans)) := by
  simp [pnpInUnit, pnpTransform, Iso.inUnit, pnpRot, pnpTrans]

theorem pnpFinish_inUnit {κ : Type} {s : Ceres V3} (hs : s.WF) (f : κ → κ) {k : ℝ} (c : ℝ) {p : PnPProblem κ}
    {pb pb' : List (ResBlock V3)} (hb : pb'.map (·.blocks) = pb.map (·.blocks))
    (hI : residuals pb' (pnpInUnit k (pnpInit p.guess)) = (residuals pb (pnpInit p.guess)).map fun x => c * x)
    (hF : residuals pb' (pnpInUnit k (s.solve pb (pnpInit p.guess))) = (residuals pb (s.solve pb (pnpInit p.guess))).map fun x => c * x)
    {r : PnPResult} (hr : pnpFinish s p pb = .ok r) :
    ∃ r', Reaches (fun s => pnpFinish s (PnPProblem.inUnit f k p) pb') r' ∧ PnPResult.SameInUnit k (c ^ 2) r r' := by
  have hinit : pnpInit (PnPProblem.inUnit f k p).guess = pnpInUnit k (pnpInit p.guess) := pnpInit_inUnit k p.guess
  obtain ⟨s', hs', h1, h2, h3, h4, h5, h6⟩ := carry hs c hb
    (fun a ha => by unfold pnpInUnit; rw [hs.frame _ _ _ ha]) hI hF
  unfold pnpFinish at hr
  simp only [Res.bind_ok_iff] at hr
  obtain ⟨cov, hc, hr⟩ := hr
  cases hr
  refine ⟨⟨s.converged pb (pnpInit p.guess), times (c ^ 2) (costPerObs pb (pnpInit p.guess)),
    times (c ^ 2) (costPerObs pb (s.solve pb (pnpInit p.guess))),
    pnpTransform (pnpInUnit k (s.solve pb (pnpInit p.guess)) pnpRot) (pnpInUnit k (s.solve pb (pnpInit p.guess)) pnpTrans), cov⟩,
    ⟨s', hs', ?_⟩, rfl, rfl, rfl, pnpTransform_inUnit _ _⟩
  simp only [pnpFinish, hinit, h1, h2, h4, h5, h6]
  rw [show (PnPProblem.inUnit f k p).label = p.label from rfl, hc, Res.ok_bind]

/-- PnP from points. -/
theorem C225_pnp_3d (p : PnPProblem Corr3) (k : ℝ) (r : PnPResult) (h : Reaches (fun s => pnp3 s p) r) :
    ∃ r', Reaches (fun s => pnp3 s (PnPProblem.inUnit (Corr3.inUnit k) k p)) r' ∧ PnPResult.SameInUnit k (k ^ 2) r r' := by
  obtain ⟨s, hs, hr⟩ := h
  have e : pnpBuild3 (PnPProblem.inUnit (Corr3.inUnit k) k p) = p.correspondences.map fun c =>
      ⟨[pnpRot, pnpTrans], evalV2 (pnpCost3 (Corr3.inUnit k c).inTarget (Corr3.inUnit k c).inImage)⟩ := by
    unfold pnpBuild3 PnPProblem.inUnit
    rw [List.map_map]
    rfl
  have key : ∀ st : Nat → V3, residuals (pnpBuild3 (PnPProblem.inUnit (Corr3.inUnit k) k p)) (pnpInUnit k st) =
      (residuals (pnpBuild3 p) st).map fun x => k * x := by
    intro st
    rw [e]
    refine residuals_map_scaled _ _ _ _ _ _ fun f _ => ?_
    simp only [ResBlock.residual, List.map_cons, List.map_nil, evalV2, pnpCost3, Corr3.inUnit, pnpTransform_inUnit, inUnit_apply]
    simp only [V3.smul, mul_sub]
  exact pnpFinish_inUnit hs (Corr3.inUnit k) k (by rw [e]; unfold pnpBuild3; rw [List.map_map, List.map_map]; rfl) (key _) (key _) hr

theorem projectPointE_inUnit {k : ℝ} (hk : 0 < k) (i : Intr) {v : V3} (hv : v.z > 1 / 10 ^ 10) (hv' : k * v.z > 1 / 10 ^ 10) :
    projectPointE i (V3.smul k v) = projectPointE i v := by
  have h : (V3.smul k v).z - 0 > 1 / 10 ^ 10 := by rw [sub_zero]; exact hv'
  have h0 : v.z - 0 > 1 / 10 ^ 10 := by rw [sub_zero]; exact hv
  unfold projectPointE
  rw [if_pos h, if_pos h0]
  simp only [V3.smul, mul_div_mul_left _ _ hk.ne']

theorem pnpBlock_inUnit {k : ℝ} (hk : 0 < k) (i : Intr) (c : Corr2) (st : Nat → V3)
    (hz : ((pnpTransform (st pnpRot) (st pnpTrans)).apply c.inTarget).z > 1 / 10 ^ 10)
    (hz' : k * ((pnpTransform (st pnpRot) (st pnpTrans)).apply c.inTarget).z > 1 / 10 ^ 10) :
    (⟨[pnpRot, pnpTrans], evalV2 (pnpCost2 i (Corr2.inUnit k c).inTarget (Corr2.inUnit k c).inImage)⟩ : ResBlock V3).residual (pnpInUnit k st) =
      ((⟨[pnpRot, pnpTrans], evalV2 (pnpCost2 i c.inTarget c.inImage)⟩ : ResBlock V3).residual st).map fun x => 1 * x := by
  simp only [ResBlock.residual, List.map_cons, List.map_nil, evalV2, pnpCost2, Corr2.inUnit, pnpTransform_inUnit, inUnit_apply,
    projectPointE_inUnit hk i hz hz', one_mul]

/-- PnP from pixels.

Full statement: as for hand-eye calibration.
Missing from the full claim: guesses and results with features whose depth does not exceed 1e-10 units in both units, for which the
image is not that of a pinhole camera and depends on the unit (`C225_negation`). -/
theorem C225_pnp_partial (p : PnPProblem Corr2) (hg : RigidMotion p.guess) {k : ℝ} (hk : 0 < k) (r : PnPResult)
    (h : Reaches (fun s => pnp2 s p) r)
    (hz : ∀ c ∈ p.correspondences, (p.guess.apply c.inTarget).z > 1 / 10 ^ 10 ∧ k * (p.guess.apply c.inTarget).z > 1 / 10 ^ 10)
    (hz' : ∀ c ∈ p.correspondences, (r.cameraToTarget.apply c.inTarget).z > 1 / 10 ^ 10 ∧ k * (r.cameraToTarget.apply c.inTarget).z > 1 / 10 ^ 10) :
    ∃ r', Reaches (fun s => pnp2 s (PnPProblem.inUnit (Corr2.inUnit k) k p)) r' ∧ PnPResult.SameInUnit k 1 r r' := by
  obtain ⟨s, hs, hr⟩ := h
  obtain ⟨-, e1, -⟩ := pnpFinish_ok hr
  have e : pnpBuild2 (PnPProblem.inUnit (Corr2.inUnit k) k p) = p.correspondences.map fun c =>
      ⟨[pnpRot, pnpTrans], evalV2 (pnpCost2 p.intr (Corr2.inUnit k c).inTarget (Corr2.inUnit k c).inImage)⟩ := by
    unfold pnpBuild2 PnPProblem.inUnit
    rw [List.map_map]
    rfl
  have key : ∀ st : Nat → V3, (∀ c ∈ p.correspondences, ((pnpTransform (st pnpRot) (st pnpTrans)).apply c.inTarget).z > 1 / 10 ^ 10 ∧
      k * ((pnpTransform (st pnpRot) (st pnpTrans)).apply c.inTarget).z > 1 / 10 ^ 10) →
      residuals (pnpBuild2 (PnPProblem.inUnit (Corr2.inUnit k) k p)) (pnpInUnit k st) = (residuals (pnpBuild2 p) st).map fun x => 1 * x := by
    intro st hst
    rw [e]
    exact residuals_map_scaled _ _ _ _ _ _ fun c hc => pnpBlock_inUnit hk _ _ _ (hst c hc).1 (hst c hc).2
  have hI := key (pnpInit p.guess) (by rw [pnpInit_transform ((rigid_iff _).2 hg)]; exact hz)
  have hF := key (s.solve (pnpBuild2 p) (pnpInit p.guess)) (by rw [← e1]; exact hz')
  have := pnpFinish_inUnit hs (Corr2.inUnit k) 1 (by rw [e]; unfold pnpBuild2; rw [List.map_map, List.map_map]; rfl) hI hF hr
  rw [one_pow] at this
  exact this

/-- A feature at depth 1e-11 units: in a unit a thousand times smaller no result has the same initial cost. -/
theorem C225_negation : ∃ (p : PnPProblem Corr2) (k : ℝ) (r : PnPResult), RigidMotion p.guess ∧ 0 < k ∧
    (∀ c ∈ p.correspondences, (p.guess.apply c.inTarget).z > 0) ∧ Reaches (fun s => pnp2 s p) r ∧
    ∀ r', Reaches (fun s => pnp2 s (PnPProblem.inUnit (Corr2.inUnit k) k p)) r' → r'.initialCost ≠ r.initialCost := by
  obtain ⟨p, hp⟩ : ∃ p : PnPProblem Corr2, p = ⟨⟨1, 1, 0, 0⟩, [⟨⟨0, 0⟩, ⟨1, 0, 1 / 10 ^ 11⟩⟩], 1, "camera_to_target"⟩ := ⟨_, rfl⟩
  obtain ⟨r, h⟩ : ∃ r, pnp2 (idCeres V3) p = .ok r := by
    rw [hp]
    exact pnpFinish_returns _ _ [(⟨⟨0, 0⟩, ⟨1, 0, 1 / 10 ^ 11⟩⟩ : Corr2)] (by simp)
      (fun c => ⟨[pnpRot, pnpTrans], evalV2 (pnpCost2 ⟨1, 1, 0, 0⟩ c.inTarget c.inImage)⟩) (fun _ _ => rfl) rfl rfl
  have hone : pnpTransform (pnpInit 1 pnpRot) (pnpInit 1 pnpTrans) = 1 := pnpInit_transform Iso.IsRigid.one
  refine ⟨p, 1000, r, ?_, by norm_num, ?_, ⟨_, idCeres_wf V3, h⟩, ?_⟩
  · rw [hp]; exact Representable.one.1
  · rw [hp]; intro c hc
    rw [List.mem_singleton] at hc
    rw [hc, Iso.apply_one]; norm_num
  · rintro r' ⟨s', -, h'⟩ heq
    have c1 := pnpFinish_costs h
    have c2 := pnpFinish_costs (show pnpFinish s' _ _ = _ from h')
    rw [c1, c2] at heq
    simp only [hp, PnPProblem.inUnit, inUnit_one, pnpBuild2, List.map_cons, List.map_nil, costPerObs, cost, residuals, ResBlock.residual,
      List.flatMap_cons, List.flatMap_nil, List.append_nil, evalV2, pnpCost2, hone, Iso.apply_one, Corr2.inUnit, V3.smul, projectPointE,
      M3.mulVec] at heq
    norm_num at heq

/-! ## Several static cameras -/

theorem getD_map {α β : Type} (f : α → β) (l : List α) (i : Nat) (d : α) : (l.map f).getD i (f d) = f (l.getD i d) := by
  simp only [List.getD_eq_getElem?_getD, List.getElem?_map]
  cases l[i]? <;> rfl

/-- A feature in another unit. -/
def Feature.inUnit (k : ℝ) (f : Feature) : Feature := ⟨f.cam, f.img, Corr2.inUnit k f.corr⟩

theorem featuresOf_inUnit (k : ℝ) (obs : List (List (List Corr2))) (c i : Nat) :
    featuresOf (obs.map fun c => c.map fun l => l.map (Corr2.inUnit k)) c i = (featuresOf obs c i).map (Feature.inUnit k) := by
  unfold featuresOf
  have h1 : (obs.map fun c => c.map fun l => l.map (Corr2.inUnit k)).getD c [] = (obs.getD c []).map fun l => l.map (Corr2.inUnit k) :=
    getD_map (fun c => c.map fun l => l.map (Corr2.inUnit k)) obs c []
  have h2 : ((obs.getD c []).map fun l => l.map (Corr2.inUnit k)).getD i [] = ((obs.getD c []).getD i []).map (Corr2.inUnit k) :=
    getD_map (fun l => l.map (Corr2.inUnit k)) (obs.getD c []) i []
  rw [h1, h2, List.map_map, List.map_map]
  rfl

theorem wristPoses_inUnit (k : ℝ) (p : MsProblem) (c : Nat) :
    (MsProblem.inUnit k p).wristPoses.getD c [] = (p.wristPoses.getD c []).map (Iso.inUnit k) :=
  getD_map (fun l : List Iso => l.map (Iso.inUnit k)) p.wristPoses c []

theorem msFeatures_inUnit (k : ℝ) (p : MsProblem) : msFeatures (MsProblem.inUnit k p) = (msFeatures p).map (Feature.inUnit k) := by
  unfold msFeatures byCamera
  rw [List.map_flatMap]
  have h1 : (MsProblem.inUnit k p).baseToCameraGuess.length = p.baseToCameraGuess.length := List.length_map _
  rw [h1]
  refine List.flatMap_congr fun c _ => ?_
  beta_reduce
  rw [wristPoses_inUnit, List.length_map, List.map_flatMap]
  exact List.flatMap_congr fun i _ => featuresOf_inUnit k p.observations c i

theorem msSizes_inUnit {k : ℝ} {p : MsProblem} (hp : MsSizes p) : MsSizes (MsProblem.inUnit k p) where
  wrist := by simp [MsProblem.inUnit, hp.wrist]
  obs := by simp [MsProblem.inUnit, hp.obs]
  intr := by simp [MsProblem.inUnit, hp.intr]
  images := by
    intro c oc wp h1 h2
    simp only [MsProblem.inUnit, List.getElem?_map, Option.map_eq_some_iff] at h1 h2
    obtain ⟨oc', h1, rfl⟩ := h1
    obtain ⟨wp', h2, rfl⟩ := h2
    rw [List.length_map, List.length_map]
    exact hp.images c _ _ h1 h2

theorem msInit_inUnit (k : ℝ) (p : MsProblem) : msInit (MsProblem.inUnit k p) = fun a => (msInit p a).inUnit k := by
  funext a
  unfold msInit MsProblem.inUnit
  split
  · rfl
  · simp only [List.getElem?_map]
    cases p.baseToCameraGuess[a - 1]? with
    | none => simp [Pose6.inUnit]
    | some g => simp only [Option.map_some, inUnit_inv]; rfl

/-- The target point of a feature in the frame of its camera, at given parameter values. -/
noncomputable def msPoint (p : MsProblem) (st : Nat → Pose6) (f : Feature) : V3 :=
  transformPoint (st (msCam f.cam)).rot (st (msCam f.cam)).trans
    (poseTransformPoint (poseEigenToCal ((p.wristPoses.getD f.cam []).getD f.img 1))
      (transformPoint (st msTgt).rot (st msTgt).trans f.corr.inTarget))

theorem msBlock_inUnit {k : ℝ} (hk : 0 < k) (p : MsProblem) (f : Feature) (st : Nat → Pose6) (hz : (msPoint p st f).z ≠ 0) :
    (msBlock (MsProblem.inUnit k p) (Feature.inUnit k f)).residual (fun a => (st a).inUnit k) =
      ((msBlock p f).residual st).map fun x => 1 * x := by
  have hw : ((MsProblem.inUnit k p).wristPoses.getD f.cam []).getD f.img 1 = Iso.inUnit k ((p.wristPoses.getD f.cam []).getD f.img 1) := by
    rw [wristPoses_inUnit, ← getD_map (Iso.inUnit k), inUnit_one]
  have hi : (MsProblem.inUnit k p).intr = p.intr := rfl
  simp only [msBlock, ResBlock.residual, List.map_cons, List.map_nil, eval2, msCost, Feature.inUnit, Corr2.inUnit, hw, hi,
    transformPoint_inUnit, poseTransformPoint_inUnit, one_mul]
  unfold msPoint at hz
  rw [projectPoint_inUnit hk _ hz]

theorem msPoint_depth {p : MsProblem} (hw : ∀ wp ∈ p.wristPoses, ∀ w ∈ wp, Representable w) (st : Nat → Pose6) (cams : List Iso) (T : Iso)
    (hcams : ∀ c : Nat, c < p.baseToCameraGuess.length → cams[c]? = some (poseCalToEigen (st (msCam c))).inv)
    (hT : poseCalToEigen (st msTgt) = T) (hr : ∀ c ∈ cams, RigidMotion c)
    (hz : NoZeroDepth cams (fun c i => (p.wristPoses.getD c []).getD i 1 * T) (msFeatures p)) (f : Feature) (hf : f ∈ msFeatures p) :
    (msPoint p st f).z ≠ 0 := by
  have hz' := hz f hf
  have hcam := hcams f.cam (mem_byCamera hf).1
  obtain ⟨wp, h1, h2⟩ := msFeatures_wrist hf
  have hrig := Iso.IsRigid.of_inv ((rigid_iff _).2 (hr _ (List.mem_of_getElem? hcam)))
  unfold staticDepth at hz'
  rw [getD_of_some hcam, Iso.inv_inv hrig, ← hT] at hz'
  unfold msPoint
  simp only [transformPoint_eq, (hw wp h1 _ h2).act]
  simpa only [Iso.apply_mul] using hz'

theorem msNames_inUnit (k : ℝ) (p : MsProblem) : msNames (MsProblem.inUnit k p) = msNames p := by
  unfold msNames MsProblem.inUnit
  simp only [List.length_map]

/-- Several static cameras and a target on the wrist.

Full statement: as for hand-eye calibration.
Missing from the full claim: guesses and results with a feature at depth zero, poses that the six values do not represent, and results
whose camera poses are not rigid. -/
theorem C225_static_partial (p : MsProblem) (hp : MsSizes p) (hw : ∀ wp ∈ p.wristPoses, ∀ w ∈ wp, Representable w)
    (hc : ∀ c ∈ p.baseToCameraGuess, Representable c) (ht : Representable p.wristToTargetGuess)
    (hz : NoZeroDepth p.baseToCameraGuess (fun c i => (p.wristPoses.getD c []).getD i 1 * p.wristToTargetGuess) (msFeatures p))
    {k : ℝ} (hk : 0 < k) (r : MsResult) (h : Reaches (fun s => multiStatic s p) r) (hr : ∀ c ∈ r.baseToCamera, RigidMotion c)
    (hz' : NoZeroDepth r.baseToCamera (fun c i => (p.wristPoses.getD c []).getD i 1 * r.wristToTarget) (msFeatures p)) :
    ∃ r', Reaches (fun s => multiStatic s (MsProblem.inUnit k p)) r' ∧ MsResult.SameInUnit k 1 r r' := by
  obtain ⟨s, hs, h⟩ := h
  obtain ⟨pb, hb⟩ := C41_built p hp.wrist hp.obs hp.intr hp.images
  have hp' := msSizes_inUnit (k := k) hp
  obtain ⟨pb', hb'⟩ := C41_built (MsProblem.inUnit k p) hp'.wrist hp'.obs hp'.intr hp'.images
  have e := msBuild_eq hb
  have e' := msBuild_eq hb'
  rw [msFeatures_inUnit, List.map_map] at e'
  beta_reduce at h
  unfold multiStatic at h
  rw [hb, Res.ok_bind] at h
  simp only [Res.bind_ok_iff] at h
  obtain ⟨cov, hcov, h⟩ := h
  cases h
  have hI : residuals pb' (fun a => (msInit p a).inUnit k) = (residuals pb (msInit p)).map fun x => 1 * x := by
    rw [e, e']
    refine residuals_map_scaled _ _ _ _ _ _ fun f hf => msBlock_inUnit hk p f _ ?_
    refine msPoint_depth hw _ p.baseToCameraGuess p.wristToTargetGuess ?_ ?_ (fun c hc' => (hc c hc').1) hz f hf
    · intro c hc'
      obtain ⟨g, hg⟩ : ∃ g, p.baseToCameraGuess[c]? = some g := ⟨_, List.getElem?_eq_getElem hc'⟩
      have hgr := hc g (List.mem_of_getElem? hg)
      have : msInit p (msCam c) = poseEigenToCal g.inv := by simp [msInit, msCam, msTgt, hg]
      rw [hg, this, hgr.inv.roundtrip, Iso.inv_inv hgr.rigid]
    · have : msInit p msTgt = poseEigenToCal p.wristToTargetGuess := by simp [msInit]
      rw [this, ht.roundtrip]
  have hF : residuals pb' (fun a => (s.solve pb (msInit p) a).inUnit k) = (residuals pb (s.solve pb (msInit p))).map fun x => 1 * x := by
    have key : ∀ f ∈ msFeatures p, (msPoint p (s.solve pb (msInit p)) f).z ≠ 0 :=
      msPoint_depth hw _ _ _ (fun c hc' => by rw [List.getElem?_map, List.getElem?_range hc']; rfl) rfl hr hz'
    generalize s.solve pb (msInit p) = st at key
    rw [e, e']
    exact residuals_map_scaled _ _ _ _ _ _ fun f hf => msBlock_inUnit hk p f _ (key f hf)
  obtain ⟨s', hs', h1, h2, h3, h4, h5, h6⟩ := carry hs 1 (by rw [e, e', List.map_map, List.map_map]; rfl)
    (fun a ha => by show Pose6.inUnit k _ = Pose6.inUnit k _; rw [hs.frame _ _ _ ha]) hI hF
  rw [one_pow] at h5 h6
  have hlen : (MsProblem.inUnit k p).baseToCameraGuess.length = p.baseToCameraGuess.length := List.length_map _
  refine ⟨⟨s.converged pb (msInit p), times 1 (costPerObs pb (msInit p)), times 1 (costPerObs pb (s.solve pb (msInit p))),
    poseCalToEigen ((s.solve pb (msInit p) msTgt).inUnit k),
    (List.range p.baseToCameraGuess.length).map (fun c => (poseCalToEigen ((s.solve pb (msInit p) (msCam c)).inUnit k)).inv), cov⟩,
    ⟨s', hs', ?_⟩, rfl, rfl, rfl, poseCalToEigen_inUnit _ _, ?_⟩
  · beta_reduce
    unfold multiStatic
    rw [hb', Res.ok_bind]
    simp only [msInit_inUnit, h1, h2, h4, h5, h6, hlen, msNames_inUnit]
    rw [hcov, Res.ok_bind]
  · simp only [List.map_map]
    refine List.map_congr_left fun c _ => ?_
    simp only [Function.comp, poseCalToEigen_inUnit, inUnit_inv]

/-- The target point of a feature in the frame of its camera. -/
theorem mcPnpBlock_inUnit {k : ℝ} (hk : 0 < k) (p : McPnpProblem) (hc : ∀ c ∈ p.baseToCamera, Representable c) (f : Feature)
    (hf : f.cam < p.baseToCamera.length) (st : Nat → Pose6)
    (hz : staticDepth (p.baseToCamera.getD f.cam 1) (poseCalToEigen (st 0)) f.corr ≠ 0) :
    (mcPnpBlock (McPnpProblem.inUnit k p) (Feature.inUnit k f)).residual (fun a => (st a).inUnit k) =
      ((mcPnpBlock p f).residual st).map fun x => 1 * x := by
  have hb : (McPnpProblem.inUnit k p).baseToCamera.getD f.cam 1 = Iso.inUnit k (p.baseToCamera.getD f.cam 1) := by
    show (p.baseToCamera.map (Iso.inUnit k)).getD f.cam 1 = _
    rw [← getD_map (Iso.inUnit k), inUnit_one]
  have hi : (McPnpProblem.inUnit k p).intr = p.intr := rfl
  have hcr : Representable (p.baseToCamera.getD f.cam 1) := by
    rw [getD_of_some (List.getElem?_eq_getElem hf)]
    exact hc _ (List.getElem_mem hf)
  simp only [mcPnpBlock, ResBlock.residual, List.map_cons, List.map_nil, eval1, mcPnpCost, Feature.inUnit, Corr2.inUnit, hb, hi, inUnit_inv,
    transformPoint_inUnit, poseTransformPoint_inUnit, one_mul]
  unfold staticDepth at hz
  rw [projectPoint_inUnit hk _ (by
    rw [transformPoint_eq, hcr.inv.act]
    simpa only [Iso.apply_mul] using hz)]

theorem oneImage_inUnit (k : ℝ) (p : McPnpProblem) : oneImage (McPnpProblem.inUnit k p).observations (McPnpProblem.inUnit k p).baseToCamera.length =
    (oneImage p.observations p.baseToCamera.length).map (Feature.inUnit k) := by
  have h1 : (McPnpProblem.inUnit k p).baseToCamera.length = p.baseToCamera.length := List.length_map _
  unfold oneImage
  rw [h1, List.map_flatMap]
  refine List.flatMap_congr fun c _ => ?_
  have h2 : (McPnpProblem.inUnit k p).observations.getD c [] = (p.observations.getD c []).map (Corr2.inUnit k) :=
    getD_map (fun l : List Corr2 => l.map (Corr2.inUnit k)) p.observations c []
  rw [h2, List.map_map, List.map_map]
  rfl

/-- Multi camera PnP.

Full statement: as for hand-eye calibration.
Missing from the full claim: guesses and results with a feature at depth zero, and camera poses and guesses that the six values do not
represent. -/
theorem C225_multi_pnp_partial (p : McPnpProblem) (h1 : p.baseToCamera.length ≤ p.intr.length)
    (h2 : p.baseToCamera.length ≤ p.observations.length) (hc : ∀ c ∈ p.baseToCamera, Representable c) (hg : Representable p.guess)
    (hz : NoZeroDepth p.baseToCamera (fun _ _ => p.guess) (oneImage p.observations p.baseToCamera.length)) {k : ℝ} (hk : 0 < k)
    (r : McPnpResult) (h : Reaches (fun s => mcPnp s p) r)
    (hz' : NoZeroDepth p.baseToCamera (fun _ _ => r.baseToTarget) (oneImage p.observations p.baseToCamera.length)) :
    ∃ r', Reaches (fun s => mcPnp s (McPnpProblem.inUnit k p)) r' ∧ McPnpResult.SameInUnit k 1 r r' := by
  obtain ⟨s, hs, h⟩ := h
  obtain ⟨pb, hb⟩ := mcPnp_built h1 h2
  obtain ⟨pb', hb'⟩ := mcPnp_built (p := McPnpProblem.inUnit k p) (by simpa [McPnpProblem.inUnit] using h1) (by simpa [McPnpProblem.inUnit] using h2)
  have e := mcPnpBuild_eq hb
  have e' := mcPnpBuild_eq hb'
  rw [oneImage_inUnit, List.map_map] at e'
  have hcam : ∀ f ∈ oneImage p.observations p.baseToCamera.length, f.cam < p.baseToCamera.length := by
    intro f hf
    obtain ⟨c, hc, hf⟩ := List.mem_flatMap.1 hf
    obtain ⟨k, -, rfl⟩ := List.mem_map.1 hf
    exact List.mem_range.1 hc
  beta_reduce at h
  unfold mcPnp at h
  rw [hb, Res.ok_bind] at h
  cases h
  have hI : residuals pb' (fun _ => (poseEigenToCal p.guess).inUnit k) = (residuals pb (fun _ => poseEigenToCal p.guess)).map fun x => 1 * x := by
    rw [e, e']
    refine residuals_map_scaled _ _ _ _ _ _ fun f hf => mcPnpBlock_inUnit hk p hc f (hcam f hf) (fun _ => poseEigenToCal p.guess) ?_
    rw [hg.roundtrip]
    exact hz f hf
  have hF : residuals pb' (fun a => (s.solve pb (fun _ => poseEigenToCal p.guess) a).inUnit k) =
      (residuals pb (s.solve pb (fun _ => poseEigenToCal p.guess))).map fun x => 1 * x := by
    simp only at hz'
    generalize s.solve pb (fun _ => poseEigenToCal p.guess) = st at hz'
    rw [e, e']
    exact residuals_map_scaled _ _ _ _ _ _ fun f hf => mcPnpBlock_inUnit hk p hc f (hcam f hf) st (hz' f hf)
  obtain ⟨s', hs', h1, h2, -, -, h5, h6⟩ := carry hs 1 (by rw [e, e', List.map_map, List.map_map]; rfl)
    (fun a ha => by show Pose6.inUnit k _ = Pose6.inUnit k _; rw [hs.frame _ _ _ ha]) hI hF
  rw [one_pow] at h5 h6
  refine ⟨⟨s.converged pb (fun _ => poseEigenToCal p.guess), times 1 (costPerObs pb (fun _ => poseEigenToCal p.guess)),
    times 1 (costPerObs pb (s.solve pb (fun _ => poseEigenToCal p.guess))),
    poseCalToEigen ((s.solve pb (fun _ => poseEigenToCal p.guess) 0).inUnit k)⟩, ⟨s', hs', ?_⟩, rfl, rfl, rfl, poseCalToEigen_inUnit _ _⟩
  beta_reduce
  unfold mcPnp
  rw [hb', Res.ok_bind]
  have hg' : poseEigenToCal (McPnpProblem.inUnit k p).guess = (poseEigenToCal p.guess).inUnit k := rfl
  simp only [hg', h1, h2, h5, h6]

/-! ## Circle fit -/

/-- The three values of a circle in another unit; the third is the square root of the radius. -/
noncomputable def circleInUnit (k : ℝ) (m : Mem) : Mem := fun o => match o with
  | 0 => k * m 0 | 1 => k * m 1 | 2 => Real.sqrt k * m 2 | o => m o

/-- Circle fit: the residuals are areas, so costs are multiplied by the fourth power. -/
theorem C225_circle (p : CircleFitProblem) {k : ℝ} (hk : 0 < k) (r : CircleFitResult) (h : Reaches (fun s => circleFit s p) r) :
    ∃ r', Reaches (fun s => circleFit s (CircleFitProblem.inUnit k p)) r' ∧ CircleFitResult.SameInUnit k (k ^ 4) r r' := by
  obtain ⟨s, hs, h⟩ := h
  have hsq : Real.sqrt k * Real.sqrt k = k := Real.mul_self_sqrt hk.le
  have e : circleBuild (CircleFitProblem.inUnit k p) = p.observations.map fun o => ⟨[0], evalMem1 (circleCost (V2.smul k o))⟩ := by
    unfold circleBuild CircleFitProblem.inUnit
    rw [List.map_map]
    rfl
  have key : ∀ st : Nat → Mem, residuals (circleBuild (CircleFitProblem.inUnit k p)) (fun a => circleInUnit k (st a)) =
      (residuals (circleBuild p) st).map fun x => k ^ 2 * x := by
    intro st
    rw [e]
    refine residuals_map_scaled _ _ _ _ _ _ fun o _ => ?_
    simp only [ResBlock.residual, List.map_cons, List.map_nil, evalMem1, circleCost, circleInUnit, V2.smul, List.cons.injEq, and_true]
    linear_combination (k + Real.sqrt k * Real.sqrt k) * st 0 2 ^ 4 * hsq
  have hinit : circleInit (CircleFitProblem.inUnit k p) = fun a => circleInUnit k (circleInit p a) := by
    funext a o
    unfold circleInit CircleFitProblem.inUnit
    split
    · match o with
      | 0 => rfl
      | 1 => rfl
      | 2 => exact Real.sqrt_mul hk.le _
      | n + 3 => rfl
    · match o with
      | 0 => simp [circleInUnit]
      | 1 => simp [circleInUnit]
      | 2 => simp [circleInUnit]
      | n + 3 => rfl
  obtain ⟨s', hs', h1, h2, h3, h4, h5, h6⟩ := carry hs (k ^ 2) (by rw [e]; unfold circleBuild; rw [List.map_map, List.map_map]; rfl)
    (fun a ha => by show circleInUnit k _ = circleInUnit k _; rw [hs.frame _ _ _ ha]) (key (circleInit p)) (key _)
  rw [← pow_mul] at h5 h6
  beta_reduce at h
  unfold circleFit at h
  simp only [Res.bind_ok_iff] at h
  obtain ⟨cov, hcov, h⟩ := h
  cases h
  refine ⟨⟨s.converged (circleBuild p) (circleInit p), times (k ^ 4) (costPerObs (circleBuild p) (circleInit p)),
    times (k ^ 4) (costPerObs (circleBuild p) (s.solve (circleBuild p) (circleInit p))), cov,
    circleInUnit k (s.solve (circleBuild p) (circleInit p) 0) 0, circleInUnit k (s.solve (circleBuild p) (circleInit p) 0) 1,
    circleInUnit k (s.solve (circleBuild p) (circleInit p) 0) 2 ^ 2⟩, ⟨s', hs', ?_⟩, rfl, rfl, rfl, rfl, rfl, ?_⟩
  · beta_reduce
    unfold circleFit
    simp only [hinit, h1, h2, h3, h4, h5, h6]
    rw [hcov, Res.ok_bind]
  · show (Real.sqrt k * _) ^ 2 = k * _
    rw [mul_pow, Real.sq_sqrt hk.le]

/-- Runs that meet the hypotheses, in metres and millimetres. -/
example : (∃ (p : PnPProblem Corr2) (r : PnPResult), RigidMotion p.guess ∧ p.correspondences ≠ [] ∧ Reaches (fun s => pnp2 s p) r ∧
    (∀ c ∈ p.correspondences, (p.guess.apply c.inTarget).z > 1 / 10 ^ 10 ∧ 1000 * (p.guess.apply c.inTarget).z > 1 / 10 ^ 10) ∧
    ∀ c ∈ p.correspondences, (r.cameraToTarget.apply c.inTarget).z > 1 / 10 ^ 10 ∧ 1000 * (r.cameraToTarget.apply c.inTarget).z > 1 / 10 ^ 10) ∧
    ∃ (p : HandEyeProblem Corr2) (r : HandEyeResult), MountsRepresentable p.observations ∧ features p.observations ≠ [] ∧
      Reaches (fun s => handEye2 s p) r ∧ RigidMotion r.cameraMountToCamera ∧
      ∀ f ∈ features p.observations, (inCamera2 r.cameraMountToCamera r.targetMountToTarget f).z ≠ 0 := by
  constructor
  · obtain ⟨r, h⟩ : ∃ r, pnp2 (idCeres V3) ⟨⟨1, 1, 0, 0⟩, [⟨⟨0, 0⟩, ⟨1, 0, 2⟩⟩], 1, "camera_to_target"⟩ = .ok r :=
      pnpFinish_returns _ _ [(⟨⟨0, 0⟩, ⟨1, 0, 2⟩⟩ : Corr2)] (by simp)
        (fun c => ⟨[pnpRot, pnpTrans], evalV2 (pnpCost2 ⟨1, 1, 0, 0⟩ c.inTarget c.inImage)⟩) (fun _ _ => rfl) rfl rfl
    have hg : RigidMotion (1 : Iso) := Representable.one.1
    have hT : r.cameraToTarget = 1 := C34_pnp (idCeres V3) ⟨⟨1, 1, 0, 0⟩, [⟨⟨0, 0⟩, ⟨1, 0, 2⟩⟩], 1, "camera_to_target"⟩ r
      (fun _ _ => rfl) hg h
    have hz : ∀ c ∈ [(⟨⟨0, 0⟩, ⟨1, 0, 2⟩⟩ : Corr2)], ((1 : Iso).apply c.inTarget).z > 1 / 10 ^ 10 ∧
        1000 * ((1 : Iso).apply c.inTarget).z > 1 / 10 ^ 10 := by
      intro c hc
      rw [List.mem_singleton] at hc
      subst hc
      rw [Iso.apply_one]; norm_num
    obtain ⟨p, hp⟩ : ∃ p : PnPProblem Corr2, p = ⟨⟨1, 1, 0, 0⟩, [⟨⟨0, 0⟩, ⟨1, 0, 2⟩⟩], 1, "camera_to_target"⟩ := ⟨_, rfl⟩
    have e1 : p.guess = 1 := by rw [hp]
    have e2 : p.correspondences = [⟨⟨0, 0⟩, ⟨1, 0, 2⟩⟩] := by rw [hp]
    rw [← hp] at h
    refine ⟨p, r, by rw [e1]; exact hg, by rw [e2]; simp, ⟨_, idCeres_wf V3, h⟩, by rw [e1, e2]; exact hz, by rw [hT, e2]; exact hz⟩
  · obtain ⟨r, h⟩ := exProblem_returns ⟨0, 0⟩
    obtain ⟨h1, h2⟩ := C34_hand_eye_2d (idCeres Pose6) (exProblem 1 1 ⟨0, 0⟩ ⟨0, 0, 1⟩ 1 1) r (fun _ _ => rfl) Representable.one Representable.one h
    refine ⟨exProblem 1 1 ⟨0, 0⟩ ⟨0, 0, 1⟩ 1 1, r, ?_, ?_, ⟨_, idCeres_wf Pose6, h⟩, ?_, ?_⟩
    · intro o ho
      simp only [exProblem, List.mem_singleton] at ho
      rw [ho]; exact ⟨Representable.one, Representable.one⟩
    · rw [exProblem_features]; simp
    · rw [h1]; exact Representable.one.1
    · intro f hf
      rw [exProblem_features, List.mem_singleton] at hf
      rw [h1, h2, hf]
      simp [inCamera2, Spec.targetInCamera, exProblem]

/-- Static cameras. -/
example : ∃ (p : MsProblem) (r : MsResult), MsSizes p ∧ (∀ wp ∈ p.wristPoses, ∀ w ∈ wp, Representable w) ∧
    (∀ c ∈ p.baseToCameraGuess, Representable c) ∧ Representable p.wristToTargetGuess ∧ msFeatures p ≠ [] ∧
    NoZeroDepth p.baseToCameraGuess (fun c i => (p.wristPoses.getD c []).getD i 1 * p.wristToTargetGuess) (msFeatures p) ∧
    Reaches (fun s => multiStatic s p) r ∧ (∀ c ∈ r.baseToCamera, RigidMotion c) ∧
    NoZeroDepth r.baseToCamera (fun c i => (p.wristPoses.getD c []).getD i 1 * r.wristToTarget) (msFeatures p) := by
  obtain ⟨r, h⟩ := msEx_returns
  obtain ⟨p, hp⟩ : ∃ p : MsProblem, p = ⟨[⟨1, 1, 0, 0⟩], [[1]], [[[⟨⟨0, 0⟩, ⟨0, 0, 1⟩⟩]]], 1, [1], "t", "c"⟩ := ⟨_, rfl⟩
  rw [← hp] at h
  have hc : ∀ c ∈ p.baseToCameraGuess, Representable c := by
    rw [hp]; intro c hc; rw [List.mem_singleton.1 hc]; exact Representable.one
  have ht : Representable p.wristToTargetGuess := by rw [hp]; exact Representable.one
  obtain ⟨e1, e2⟩ := multiStatic_id_poses h hc ht
  have hf : msFeatures p = [⟨0, 0, ⟨⟨0, 0⟩, ⟨0, 0, 1⟩⟩⟩] := by rw [hp]; rfl
  have hz : NoZeroDepth p.baseToCameraGuess (fun c i => (p.wristPoses.getD c []).getD i 1 * p.wristToTargetGuess) (msFeatures p) := by
    intro f hff
    rw [hf, List.mem_singleton] at hff
    rw [hff, hp]
    simp [staticDepth]
  refine ⟨p, r, ?_, ?_, hc, ht, by rw [hf]; simp, hz, ⟨_, idCeres_wf Pose6, h⟩, ?_, ?_⟩
  · rw [hp]
    refine ⟨rfl, rfl, rfl, ?_⟩
    intro c oc wp h1 h2
    match c with
    | 0 => simp at h1 h2; simp [← h1, ← h2]
    | n + 1 => simp at h2
  · rw [hp]
    intro wp h1 w h2
    rw [List.mem_singleton.1 h1, List.mem_singleton] at h2
    rw [h2]; exact Representable.one
  · rw [e1]; exact fun c hc' => (hc c hc').1
  · rw [e1, e2]; exact hz

end RCT
