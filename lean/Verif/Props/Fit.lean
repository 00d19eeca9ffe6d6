import Verif.Props.StaticCameras
import Verif.Spec.Fit

/-!
# C124 – C127: the reported costs are those of the reported transforms
-/

namespace RCT
open Spec

theorem costPerObs_eq_meanCost {β : Type} (pb : List (ResBlock β)) (st : Nat → β) :
    costPerObs pb st = meanCost (residuals pb st) := by
  unfold costPerObs meanCost cost sumSq
  by_cases h : residuals pb st = []
  · simp [h]
  · rw [if_neg h, if_neg (by simpa using h)]
    simp only [pow_two]

theorem cost_eq_sumSq {β : Type} (pb : List (ResBlock β)) (st : Nat → β) : cost pb st = sumSq (residuals pb st) / 2 := by
  unfold cost sumSq
  simp only [pow_two]

theorem sumSq_le_of_solved {β : Type} {s : Ceres β} (hs : s.WF) (pb : List (ResBlock β)) (init : Nat → β) :
    sumSq (residuals pb (s.solve pb init)) ≤ sumSq (residuals pb init) := by
  have := hs.descent pb init
  rw [cost_eq_sumSq, cost_eq_sumSq] at this
  linarith

theorem meanCost_zero {l : List ℝ} (h : ∀ e ∈ l, e = 0) (c : ℝ) (hc : meanCost l = some c) : c = 0 := by
  unfold meanCost at hc
  split_ifs at hc with h0
  cases hc
  have : l.map (fun e => e ^ 2) = List.replicate l.length 0 := by
    rw [List.eq_replicate_iff]
    refine ⟨by simp, ?_⟩
    intro x hx
    rw [List.mem_map] at hx
    obtain ⟨e, he, rfl⟩ := hx
    rw [h e he]; norm_num
  simp [sumSq, this]

/-! ## C124 PnP -/

theorem pnpBuild2_residuals (p : PnPProblem Corr2) (st : Nat → V3) (T : Iso)
    (hT : pnpTransform (st pnpRot) (st pnpTrans) = T)
    (hz : ∀ c ∈ p.correspondences, (T.apply c.inTarget).z > 1 / 10 ^ 10) :
    residuals (pnpBuild2 p) st = pixelErrors p.intr T p.correspondences := by
  rw [pnpBuild2, residuals_map]
  apply flatMap_congr'
  intro c hc
  have hz' := hz c hc
  have hne : (T.apply c.inTarget).z ≠ 0 := by intro h0; rw [h0] at hz'; norm_num at hz'
  simp only [ResBlock.residual, List.map_cons, List.map_nil, evalV2, pnpCost2, diff2, hT]
  rw [← (C01_partial p.intr _).2 (Or.inl hz'), C02_pinhole _ _ hne]

theorem pnpBuild3_residuals (p : PnPProblem Corr3) (st : Nat → V3) (T : Iso)
    (hT : pnpTransform (st pnpRot) (st pnpTrans) = T) :
    residuals (pnpBuild3 p) st = pointErrors T p.correspondences := by
  rw [← hT, pnpBuild3, residuals_map]; rfl

theorem pnpFinish_costs {κ : Type} {s : Ceres V3} {p : PnPProblem κ} {pb : List (ResBlock V3)} {res : PnPResult}
    (h : pnpFinish s p pb = .ok res) : res.initialCost = costPerObs pb (pnpInit p.guess) := by
  unfold pnpFinish at h
  simp only [Res.bind_ok_iff] at h
  obtain ⟨cov, hc, h⟩ := h
  cases h
  rfl

/-- The final cost per observation is half the mean squared reprojection error of the reported pose. -/
theorem C124_final (s : Ceres V3) (p : PnPProblem Corr2) (res : PnPResult) (h : pnp2 s p = .ok res)
    (hz : ∀ c ∈ p.correspondences, (res.cameraToTarget.apply c.inTarget).z > 1 / 10 ^ 10) :
    res.finalCost = meanCost (pixelErrors p.intr res.cameraToTarget p.correspondences) := by
  obtain ⟨-, h2, h3⟩ := pnpFinish_ok h
  rw [h3, costPerObs_eq_meanCost, pnpBuild2_residuals p _ _ h2.symm hz]

/-- The initial cost per observation is half the mean squared reprojection error of the guess. -/
theorem C124_initial (s : Ceres V3) (p : PnPProblem Corr2) (res : PnPResult) (h : pnp2 s p = .ok res)
    (hg : RigidMotion p.guess) (hz : ∀ c ∈ p.correspondences, (p.guess.apply c.inTarget).z > 1 / 10 ^ 10) :
    res.initialCost = meanCost (pixelErrors p.intr p.guess p.correspondences) := by
  rw [pnpFinish_costs h, costPerObs_eq_meanCost,
    pnpBuild2_residuals p _ _ (pnpInit_transform ((rigid_iff _).2 hg)) hz]

theorem C124_final_3d (s : Ceres V3) (p : PnPProblem Corr3) (res : PnPResult) (h : pnp3 s p = .ok res) :
    res.finalCost = meanCost (pointErrors res.cameraToTarget p.correspondences) := by
  obtain ⟨-, h2, h3⟩ := pnpFinish_ok h
  rw [h3, costPerObs_eq_meanCost, pnpBuild3_residuals p _ _ h2.symm]

theorem C124_initial_3d (s : Ceres V3) (p : PnPProblem Corr3) (res : PnPResult) (h : pnp3 s p = .ok res)
    (hg : RigidMotion p.guess) : res.initialCost = meanCost (pointErrors p.guess p.correspondences) := by
  rw [pnpFinish_costs h, costPerObs_eq_meanCost, pnpBuild3_residuals p _ _ (pnpInit_transform ((rigid_iff _).2 hg))]

/-- A run whose pose and guess have all features in front of the camera. -/
example : ∃ (p : PnPProblem Corr2) (res : PnPResult), pnp2 (idCeres V3) p = .ok res ∧ RigidMotion p.guess ∧
    p.correspondences ≠ [] ∧ (∀ c ∈ p.correspondences, (p.guess.apply c.inTarget).z > 1 / 10 ^ 10) ∧
    ∀ c ∈ p.correspondences, (res.cameraToTarget.apply c.inTarget).z > 1 / 10 ^ 10 := by
  obtain ⟨res, h⟩ : ∃ res, pnp2 (idCeres V3) ⟨⟨1, 1, 0, 0⟩, [⟨⟨0, 0⟩, ⟨1, 0, 2⟩⟩], 1, "camera_to_target"⟩ = .ok res :=
    pnpFinish_returns _ _ [(⟨⟨0, 0⟩, ⟨1, 0, 2⟩⟩ : Corr2)] (by simp)
      (fun c => ⟨[pnpRot, pnpTrans], evalV2 (pnpCost2 ⟨1, 1, 0, 0⟩ c.inTarget c.inImage)⟩) (fun _ _ => rfl) rfl rfl
  have hg : RigidMotion (1 : Iso) := Representable.one.1
  have hT : res.cameraToTarget = 1 := C34_pnp (idCeres V3) ⟨⟨1, 1, 0, 0⟩, [⟨⟨0, 0⟩, ⟨1, 0, 2⟩⟩], 1, "camera_to_target"⟩ res
    (fun _ _ => rfl) hg h
  have hz : ∀ c ∈ [(⟨⟨0, 0⟩, ⟨1, 0, 2⟩⟩ : Corr2)], ((1 : Iso).apply c.inTarget).z > 1 / 10 ^ 10 := by
    intro c hc
    rw [List.mem_singleton] at hc
    subst hc
    rw [Iso.apply_one]; norm_num
  exact ⟨⟨⟨1, 1, 0, 0⟩, [⟨⟨0, 0⟩, ⟨1, 0, 2⟩⟩], 1, "camera_to_target"⟩, res, h, hg, by simp, hz, fun c hc => by
    rw [hT]; exact hz c hc⟩

/-! ## C125 Multi camera PnP -/

theorem mcPnpBuild_blocks {p : McPnpProblem} {pb : List (ResBlock Pose6)} (h : mcPnpBuild p = .ok pb) :
    List.Forall₂ (fun f b => ∃ intr c, p.intr[f.cam]? = some intr ∧ p.baseToCamera[f.cam]? = some c ∧
      b = ⟨[0], eval1 (mcPnpCost f.corr.inImage intr c.inv f.corr.inTarget)⟩)
      (oneImage p.observations p.baseToCamera.length) pb := by
  unfold mcPnpBuild at h
  refine Res.flatMapList_forall₂ (fun c _ b hb => ?_) h
  simp only [Res.bind_ok_iff, Res.idxList_ok_iff] at hb
  obtain ⟨oc, h1, hb⟩ := hb
  rw [show p.observations.getD c [] = oc by simp [List.getD_eq_getElem?_getD, h1]]
  refine Res.mapList_forall₂ (fun k _ b hb => ?_) hb
  simp only [Res.bind_ok_iff, Res.idxList_ok_iff] at hb
  obtain ⟨g, h3, intr, h5, hb⟩ := hb
  cases hb
  exact ⟨intr, g, h5, h3, rfl⟩

theorem mcPnpBuild_residuals {p : McPnpProblem} {pb : List (ResBlock Pose6)} (h : mcPnpBuild p = .ok pb)
    (hc : ∀ c ∈ p.baseToCamera, Representable c) (st : Nat → Pose6)
    (hz : NoZeroDepth p.baseToCamera (fun _ _ => poseCalToEigen (st 0)) (oneImage p.observations p.baseToCamera.length)) :
    residuals pb st = staticErrors p.intr p.baseToCamera (fun _ _ => poseCalToEigen (st 0))
      (oneImage p.observations p.baseToCamera.length) := by
  refine residuals_forall₂ (Forall₂.imp_mem (mcPnpBuild_blocks h) ?_)
  rintro f hf b ⟨intr, c, h1, h2, rfl⟩
  have hz' := hz f hf
  have hcr := hc c (List.mem_of_getElem? h2)
  simp only [List.getD_eq_getElem?_getD, h1, h2, Option.getD_some] at hz' ⊢
  unfold staticDepth at hz'
  simp only [ResBlock.residual, List.map_cons, List.map_nil, eval1, mcPnpCost, staticError, diff2, transformPoint_eq,
    hcr.inv.act]
  simp only [Iso.apply_mul] at hz' ⊢
  rw [C02_pinhole _ _ hz']

/-- The final cost per observation is half the mean squared reprojection error, over the features of all cameras, with the
intrinsics and the pose of the camera that saw the feature and the reported pose of the target. -/
theorem C125_final (s : Ceres Pose6) (p : McPnpProblem) (res : McPnpResult) (h : mcPnp s p = .ok res)
    (hc : ∀ c ∈ p.baseToCamera, Representable c)
    (hz : NoZeroDepth p.baseToCamera (fun _ _ => res.baseToTarget) (oneImage p.observations p.baseToCamera.length)) :
    res.finalCost = meanCost (staticErrors p.intr p.baseToCamera (fun _ _ => res.baseToTarget)
      (oneImage p.observations p.baseToCamera.length)) := by
  unfold mcPnp at h
  rw [Res.bind_ok_iff] at h
  obtain ⟨pb, hb, h⟩ := h
  cases h
  simp only at hz ⊢
  rw [costPerObs_eq_meanCost, mcPnpBuild_residuals hb hc _ hz]

/-- The initial cost is that of the guess. -/
theorem C125_initial (s : Ceres Pose6) (p : McPnpProblem) (res : McPnpResult) (h : mcPnp s p = .ok res)
    (hc : ∀ c ∈ p.baseToCamera, Representable c) (hg : Representable p.guess)
    (hz : NoZeroDepth p.baseToCamera (fun _ _ => p.guess) (oneImage p.observations p.baseToCamera.length)) :
    res.initialCost = meanCost (staticErrors p.intr p.baseToCamera (fun _ _ => p.guess)
      (oneImage p.observations p.baseToCamera.length)) := by
  unfold mcPnp at h
  rw [Res.bind_ok_iff] at h
  obtain ⟨pb, hb, h⟩ := h
  cases h
  simp only
  rw [costPerObs_eq_meanCost, mcPnpBuild_residuals hb hc, hg.roundtrip]
  rw [hg.roundtrip]; exact hz

/-- Started at the true pose with images without error, the final cost is zero, whatever the number of cameras. -/
theorem C125_perfect (s : Ceres Pose6) (hs : s.WF) (p : McPnpProblem) (res : McPnpResult) (h : mcPnp s p = .ok res)
    (hc : ∀ c ∈ p.baseToCamera, Representable c) (hg : Representable p.guess)
    (hz : NoZeroDepth p.baseToCamera (fun _ _ => p.guess) (oneImage p.observations p.baseToCamera.length))
    (hdata : ∀ e ∈ staticErrors p.intr p.baseToCamera (fun _ _ => p.guess)
      (oneImage p.observations p.baseToCamera.length), e = 0) :
    ∀ c, res.finalCost = some c → c = 0 := by
  unfold mcPnp at h
  rw [Res.bind_ok_iff] at h
  obtain ⟨pb, hb, h⟩ := h
  cases h
  intro c hfc
  have hr := mcPnpBuild_residuals hb hc (fun _ => poseEigenToCal p.guess) (by rw [hg.roundtrip]; exact hz)
  rw [hg.roundtrip] at hr
  have h0 : cost pb (fun _ => poseEigenToCal p.guess) = 0 := cost_zero (by rw [hr]; exact hdata)
  have h1 := hs.descent pb (fun _ => poseEigenToCal p.guess)
  have h2 := cost_nonneg pb (s.solve pb fun _ => poseEigenToCal p.guess)
  have h3 : cost pb (s.solve pb fun _ => poseEigenToCal p.guess) = 0 := by linarith
  simp only [costPerObs] at hfc
  split_ifs at hfc
  cases hfc
  rw [h3, zero_div]

/-- The problem is built whenever there are intrinsics and observations for every camera. -/
theorem C125_returns (s : Ceres Pose6) (p : McPnpProblem) (h1 : p.baseToCamera.length ≤ p.intr.length)
    (h2 : p.baseToCamera.length ≤ p.observations.length) : ∃ res, mcPnp s p = .ok res := by
  obtain ⟨pb, hb⟩ : ∃ pb, mcPnpBuild p = .ok pb := by
    refine Res.flatMapList_returns fun c hc => ?_
    rw [List.mem_range] at hc
    obtain ⟨oc, ho⟩ : ∃ oc, p.observations[c]? = some oc := ⟨_, List.getElem?_eq_getElem (by omega)⟩
    obtain ⟨g, hg⟩ : ∃ g, p.baseToCamera[c]? = some g := ⟨_, List.getElem?_eq_getElem hc⟩
    obtain ⟨intr, hi⟩ : ∃ intr, p.intr[c]? = some intr := ⟨_, List.getElem?_eq_getElem (by omega)⟩
    rw [Res.idxList_ok_iff.2 ho, Res.ok_bind]
    refine Res.mapList_returns fun k _ => ?_
    rw [Res.idxList_ok_iff.2 hg, Res.ok_bind, Res.idxList_ok_iff.2 hi, Res.ok_bind]
    exact ⟨_, rfl⟩
  exact ⟨_, by rw [mcPnp, hb, Res.ok_bind]⟩

/-- Two cameras with different intrinsics that see one feature each. -/
example : ∃ p : McPnpProblem, p.baseToCamera.length = 2 ∧ (∀ c ∈ p.baseToCamera, Representable c) ∧
    Representable p.guess ∧ p.baseToCamera.length ≤ p.intr.length ∧ p.baseToCamera.length ≤ p.observations.length ∧
    NoZeroDepth p.baseToCamera (fun _ _ => p.guess) (oneImage p.observations p.baseToCamera.length) ∧
    ∀ e ∈ staticErrors p.intr p.baseToCamera (fun _ _ => p.guess) (oneImage p.observations p.baseToCamera.length), e = 0 := by
  refine ⟨⟨[⟨1, 1, 0, 0⟩, ⟨2, 2, 5, 5⟩], [1, ⟨1, ⟨0, 0, -1⟩⟩], [[⟨⟨1, 0⟩, ⟨1, 0, 1⟩⟩], [⟨⟨6, 5⟩, ⟨1, 0, 1⟩⟩]], 1⟩,
    rfl, ?_, .one, by simp, by simp, ?_, ?_⟩
  · intro c hc
    simp only [List.mem_cons, List.not_mem_nil, or_false] at hc
    rcases hc with rfl | rfl
    · exact .one
    · exact ⟨(rigid_iff _).1 M3.IsRot.one, Representable.one.2⟩
  · intro f hf
    simp [oneImage, List.range_succ] at hf
    rcases hf with rfl | rfl <;>
      simp [staticDepth, Iso.apply, Iso.inv, M3.tr, M3.mulVec]
  · intro e he
    simp [staticErrors, oneImage, List.range_succ, staticError, diff2, pinhole, Iso.apply, Iso.inv, M3.tr, M3.mulVec] at he
    norm_num at he
    exact he

/-! ## C126 Static cameras -/

theorem getD_of_some {α : Type} {l : List α} {i : Nat} {a d : α} (h : l[i]? = some a) : l.getD i d = a := by
  rw [List.getD_eq_getElem?_getD, h, Option.getD_some]

/-- The features of a calibration of static cameras and a moving target. -/
theorem msBuild_residuals {p : MsProblem} {pb : List (ResBlock Pose6)} (h : msBuild p = .ok pb)
    (hw : ∀ wp ∈ p.wristPoses, ∀ w ∈ wp, Representable w) (st : Nat → Pose6) (cams : List Iso) (T : Iso)
    (hcams : ∀ c : Nat, c < p.baseToCameraGuess.length → cams[c]? = some (poseCalToEigen (st (msCam c))).inv)
    (hT : poseCalToEigen (st msTgt) = T) (hr : ∀ c ∈ cams, RigidMotion c)
    (hz : NoZeroDepth cams (fun c i => (p.wristPoses.getD c []).getD i 1 * T)
      (byCamera p.observations p.baseToCameraGuess.length fun c => (p.wristPoses.getD c []).length)) :
    residuals pb st = staticErrors p.intr cams (fun c i => (p.wristPoses.getD c []).getD i 1 * T)
      (byCamera p.observations p.baseToCameraGuess.length fun c => (p.wristPoses.getD c []).length) := by
  refine residuals_forall₂ (Forall₂.imp_mem (msBuild_blocks h) ?_)
  rintro f hf b ⟨intr, wp, w, h1, h2, h3, rfl⟩
  have hlt : f.cam < p.baseToCameraGuess.length := by
    simp only [byCamera, featuresOf, List.mem_flatMap, List.mem_map, List.mem_range] at hf
    obtain ⟨c, hc, i, -, k, -, rfl⟩ := hf
    exact hc
  have hz' := hz f hf
  have hcam := hcams f.cam hlt
  simp only [getD_of_some h1, getD_of_some h2, getD_of_some h3, getD_of_some hcam] at hz' ⊢
  rw [← hT] at hz' ⊢
  exact msCost_eq f.corr.inImage intr (hw wp (List.mem_of_getElem? h2) w (List.mem_of_getElem? h3)) f.corr.inTarget _ _
    (Iso.IsRigid.of_inv ((rigid_iff _).2 (hr _ (List.mem_of_getElem? hcam)))) hz'

/-- Calibration of cameras and target mount: the final cost is that of the reported transforms. -/
theorem C126_multi_final (s : Ceres Pose6) (p : MsProblem) (res : MsResult) (h : multiStatic s p = .ok res)
    (hw : ∀ wp ∈ p.wristPoses, ∀ w ∈ wp, Representable w) (hr : ∀ c ∈ res.baseToCamera, RigidMotion c)
    (hz : NoZeroDepth res.baseToCamera (fun c i => (p.wristPoses.getD c []).getD i 1 * res.wristToTarget)
      (byCamera p.observations p.baseToCameraGuess.length fun c => (p.wristPoses.getD c []).length)) :
    res.finalCost = meanCost (staticErrors p.intr res.baseToCamera
      (fun c i => (p.wristPoses.getD c []).getD i 1 * res.wristToTarget)
      (byCamera p.observations p.baseToCameraGuess.length fun c => (p.wristPoses.getD c []).length)) := by
  unfold multiStatic at h
  simp only [Res.bind_ok_iff] at h
  obtain ⟨pb, hb, cov, -, h⟩ := h
  cases h
  simp only at hz hr ⊢
  rw [costPerObs_eq_meanCost, msBuild_residuals hb hw _ _ _ ?_ rfl hr hz]
  intro c hc
  rw [List.getElem?_map, List.getElem?_range hc]; rfl

/-- The initial cost is that of the guesses. -/
theorem C126_multi_initial (s : Ceres Pose6) (p : MsProblem) (res : MsResult) (h : multiStatic s p = .ok res)
    (hw : ∀ wp ∈ p.wristPoses, ∀ w ∈ wp, Representable w) (hr : ∀ c ∈ p.baseToCameraGuess, Representable c)
    (ht : Representable p.wristToTargetGuess)
    (hz : NoZeroDepth p.baseToCameraGuess (fun c i => (p.wristPoses.getD c []).getD i 1 * p.wristToTargetGuess)
      (byCamera p.observations p.baseToCameraGuess.length fun c => (p.wristPoses.getD c []).length)) :
    res.initialCost = meanCost (staticErrors p.intr p.baseToCameraGuess
      (fun c i => (p.wristPoses.getD c []).getD i 1 * p.wristToTargetGuess)
      (byCamera p.observations p.baseToCameraGuess.length fun c => (p.wristPoses.getD c []).length)) := by
  unfold multiStatic at h
  simp only [Res.bind_ok_iff] at h
  obtain ⟨pb, hb, cov, -, h⟩ := h
  cases h
  simp only
  rw [costPerObs_eq_meanCost, msBuild_residuals hb hw (msInit p) p.baseToCameraGuess p.wristToTargetGuess ?_ ?_
    (fun c hc => (hr c hc).1) hz]
  · intro c hc
    obtain ⟨g, hg⟩ : ∃ g, p.baseToCameraGuess[c]? = some g := ⟨_, List.getElem?_eq_getElem hc⟩
    have hgr := hr g (List.mem_of_getElem? hg)
    have : msInit p (msCam c) = poseEigenToCal g.inv := by simp [msInit, msCam, msTgt, hg]
    rw [hg, this, hgr.inv.roundtrip, Iso.inv_inv hgr.rigid]
  · have : msInit p msTgt = poseEigenToCal p.wristToTargetGuess := by simp [msInit]
    rw [this, ht.roundtrip]

theorem coBuild_residuals {p : CoProblem} {pb : List (ResBlock Pose6)} (h : coBuild p = .ok pb) (st : Nat → Pose6)
    (cams tgts : List Iso) (hr : ∀ c ∈ cams, RigidMotion c)
    (hcams : ∀ c : Nat, c < p.baseToCameraGuess.length → cams[c]? = some (poseCalToEigen (st (coCam c))).inv)
    (htgts : ∀ i : Nat, i < p.baseToTargetGuess.length → tgts[i]? = some (poseCalToEigen (st (coTgt i))))
    (h0 : p.fixFirst = true → ∀ g, p.baseToCameraGuess[0]? = some g → Representable g ∧ cams[0]? = some g)
    (hz : NoZeroDepth cams (fun _ i => tgts.getD i 1)
      (byImage p.observations p.baseToCameraGuess.length p.baseToTargetGuess.length)) :
    residuals pb st = staticErrors p.intr cams (fun _ i => tgts.getD i 1)
      (byImage p.observations p.baseToCameraGuess.length p.baseToTargetGuess.length) := by
  refine residuals_forall₂ (Forall₂.imp_mem (coBuild_blocks h) ?_)
  rintro f hf b ⟨intr, h1, hb⟩
  obtain ⟨hci, hii⟩ : f.cam < p.baseToCameraGuess.length ∧ f.img < p.baseToTargetGuess.length := by
    simp only [byImage, featuresOf, List.mem_flatMap, List.mem_map, List.mem_range] at hf
    obtain ⟨i, hi, c, hc, k, -, rfl⟩ := hf
    exact ⟨hc, hi⟩
  have hz' := hz f hf
  have hcam := hcams f.cam hci
  have htgt := htgts f.img hii
  simp only [getD_of_some h1, getD_of_some htgt] at hz' ⊢
  rcases hb with ⟨hfix, hc0, g, hg, rfl⟩ | ⟨-, rfl⟩
  · rw [hc0] at hg hz' ⊢
    obtain ⟨hgr, hg0⟩ := h0 hfix g hg
    rw [getD_of_some hg0] at hz' ⊢
    exact (C40_reprojection f.corr.inImage intr g hgr f.corr.inTarget _ hz').1
  · rw [getD_of_some hcam] at hz' ⊢
    have hrig : (poseCalToEigen (st (coCam f.cam))).IsRigid :=
      Iso.IsRigid.of_inv ((rigid_iff _).2 (hr _ (List.mem_of_getElem? hcam)))
    unfold staticDepth at hz'
    simp only [ResBlock.residual, List.map_cons, List.map_nil, eval2, coFreeCost, staticError, diff2, transformPoint_eq]
    rw [Iso.inv_inv hrig] at hz' ⊢
    simp only [Iso.apply_mul] at hz' ⊢
    rw [C02_pinhole _ _ hz']

/-- Calibration of the cameras and of the target pose of every image: the final cost is that of the reported transforms. -/
theorem C126_camera_only_final (s : Ceres Pose6) (hs : s.WF) (p : CoProblem) (res : CoResult) (h : cameraOnly s p = .ok res)
    (hfix : p.fixFirst = true → ∀ g, p.baseToCameraGuess[0]? = some g → Representable g)
    (hi : p.baseToTargetGuess ≠ []) (hr : ∀ c ∈ res.baseToCamera, RigidMotion c)
    (hz : NoZeroDepth res.baseToCamera (fun _ i => res.baseToTarget.getD i 1)
      (byImage p.observations p.baseToCameraGuess.length p.baseToTargetGuess.length)) :
    res.finalCost = meanCost (staticErrors p.intr res.baseToCamera (fun _ i => res.baseToTarget.getD i 1)
      (byImage p.observations p.baseToCameraGuess.length p.baseToTargetGuess.length)) := by
  have h39 : p.fixFirst = true → ∀ g, p.baseToCameraGuess[0]? = some g → Representable g ∧ res.baseToCamera[0]? = some g :=
    fun hf g hg => ⟨hfix hf g hg, C39_partial s hs p res h hf hi g hg (hfix hf g hg)⟩
  unfold cameraOnly at h
  simp only [Res.bind_ok_iff] at h
  obtain ⟨pb, hb, h⟩ := h
  cases h
  simp only at hz hr h39 ⊢
  rw [costPerObs_eq_meanCost, coBuild_residuals hb _ _ _ hr ?_ ?_ h39 hz]
  · intro c hc
    rw [List.getElem?_map, List.getElem?_range hc]; rfl
  · intro c hc
    rw [List.getElem?_map, List.getElem?_range hc]; rfl

/-- The initial cost is that of the guesses. -/
theorem C126_camera_only_initial (s : Ceres Pose6) (p : CoProblem) (res : CoResult) (h : cameraOnly s p = .ok res)
    (hr : ∀ c ∈ p.baseToCameraGuess, Representable c) (ht : ∀ t ∈ p.baseToTargetGuess, Representable t)
    (hi : p.baseToTargetGuess ≠ [])
    (hz : NoZeroDepth p.baseToCameraGuess (fun _ i => p.baseToTargetGuess.getD i 1)
      (byImage p.observations p.baseToCameraGuess.length p.baseToTargetGuess.length)) :
    res.initialCost = meanCost (staticErrors p.intr p.baseToCameraGuess (fun _ i => p.baseToTargetGuess.getD i 1)
      (byImage p.observations p.baseToCameraGuess.length p.baseToTargetGuess.length)) := by
  unfold cameraOnly at h
  simp only [Res.bind_ok_iff] at h
  obtain ⟨pb, hb, h⟩ := h
  cases h
  simp only
  rw [costPerObs_eq_meanCost, coBuild_residuals hb (coInit p) p.baseToCameraGuess p.baseToTargetGuess
    (fun c hc => (hr c hc).1) ?_ ?_ (fun _ g hg => ⟨hr g (List.mem_of_getElem? hg), hg⟩) hz]
  · intro c hc
    obtain ⟨g, hg⟩ : ∃ g, p.baseToCameraGuess[c]? = some g := ⟨_, List.getElem?_eq_getElem hc⟩
    have hgr := hr g (List.mem_of_getElem? hg)
    have : coInit p (coCam c) = poseEigenToCal g.inv := by
      have e1 : (2 * c + 1) % 2 ≠ 0 := by omega
      have e2 : (2 * c + 1) / 2 = c := by omega
      simp only [coInit, coCam, e1, e2, if_false, List.length_eq_zero_iff, hi, hg]
    rw [hg, this, hgr.inv.roundtrip, Iso.inv_inv hgr.rigid]
  · intro i hii
    obtain ⟨g, hg⟩ : ∃ g, p.baseToTargetGuess[i]? = some g := ⟨_, List.getElem?_eq_getElem hii⟩
    have hgr := ht g (List.mem_of_getElem? hg)
    have : coInit p (coTgt i) = poseEigenToCal g := by
      have e1 : (2 * i) % 2 = 0 := by omega
      have e2 : (2 * i) / 2 = i := by omega
      simp only [coInit, coTgt, e1, e2, if_true, hg]
    rw [hg, this, hgr.roundtrip]

theorem woBuild_residuals {p : WoProblem} {pb : List (ResBlock Pose6)} (h : woBuild p = .ok pb)
    (hw : ∀ w ∈ p.wristPoses, Representable w) (hg : ∀ g ∈ p.baseToCameraGuess, Representable g) (st : Nat → Pose6)
    (cams : List Iso) (T : Iso) (hcams : cams = p.baseToCameraGuess.map fun g => (poseCalToEigen (st woCorr)).inv * g)
    (hT : poseCalToEigen (st woTgt) = T) (hr : ∀ c ∈ cams, RigidMotion c)
    (hz : NoZeroDepth cams (fun _ i => p.wristPoses.getD i 1 * T)
      (byCamera p.observations p.baseToCameraGuess.length fun _ => p.wristPoses.length)) :
    residuals pb st = staticErrors p.intr cams (fun _ i => p.wristPoses.getD i 1 * T)
      (byCamera p.observations p.baseToCameraGuess.length fun _ => p.wristPoses.length) := by
  refine residuals_forall₂ (Forall₂.imp_mem (woBuild_blocks h) ?_)
  rintro f hf b ⟨intr, w, g, h1, h2, h3, rfl⟩
  have hz' := hz f hf
  have hcam : cams[f.cam]? = some ((poseCalToEigen (st woCorr)).inv * g) := by
    rw [hcams, List.getElem?_map, h3]; rfl
  simp only [getD_of_some h1, getD_of_some h2, getD_of_some hcam] at hz' ⊢
  rw [← hT] at hz' ⊢
  have hgr := hg g (List.mem_of_getElem? h3)
  have hrig : (poseCalToEigen (st woCorr)).IsRigid := by
    apply Iso.IsRigid.of_inv
    have h4 := (rigid_iff _).2 (hr _ (List.mem_of_getElem? hcam))
    have h5 := h4.mul hgr.rigid.inv
    rwa [Iso.mul_assoc, Iso.mul_inv hgr.rigid, Iso.mul_one] at h5
  exact woCost_eq f.corr.inImage intr (hw w (List.mem_of_getElem? h2)) hgr f.corr.inTarget _ _ hrig hz'

/-- Calibration of a common correction of all cameras and of the target mount: the final cost is that of the reported
transforms. -/
theorem C126_wrist_only_final (s : Ceres Pose6) (p : WoProblem) (res : WoResult) (h : wristOnly s p = .ok res)
    (hw : ∀ w ∈ p.wristPoses, Representable w) (hg : ∀ g ∈ p.baseToCameraGuess, Representable g)
    (hr : ∀ c ∈ res.baseToCamera, RigidMotion c)
    (hz : NoZeroDepth res.baseToCamera (fun _ i => p.wristPoses.getD i 1 * res.wristToTarget)
      (byCamera p.observations p.baseToCameraGuess.length fun _ => p.wristPoses.length)) :
    res.finalCost = meanCost (staticErrors p.intr res.baseToCamera
      (fun _ i => p.wristPoses.getD i 1 * res.wristToTarget)
      (byCamera p.observations p.baseToCameraGuess.length fun _ => p.wristPoses.length)) := by
  unfold wristOnly at h
  simp only [Res.bind_ok_iff] at h
  obtain ⟨pb, hb, h⟩ := h
  cases h
  simp only at hz hr ⊢
  rw [costPerObs_eq_meanCost, woBuild_residuals hb hw hg _ _ _ rfl rfl hr hz]

/-- The initial cost is that of the guesses. -/
theorem C126_wrist_only_initial (s : Ceres Pose6) (p : WoProblem) (res : WoResult) (h : wristOnly s p = .ok res)
    (hw : ∀ w ∈ p.wristPoses, Representable w) (hg : ∀ g ∈ p.baseToCameraGuess, Representable g)
    (ht : Representable p.wristToTargetGuess)
    (hz : NoZeroDepth p.baseToCameraGuess (fun _ i => p.wristPoses.getD i 1 * p.wristToTargetGuess)
      (byCamera p.observations p.baseToCameraGuess.length fun _ => p.wristPoses.length)) :
    res.initialCost = meanCost (staticErrors p.intr p.baseToCameraGuess
      (fun _ i => p.wristPoses.getD i 1 * p.wristToTargetGuess)
      (byCamera p.observations p.baseToCameraGuess.length fun _ => p.wristPoses.length)) := by
  unfold wristOnly at h
  simp only [Res.bind_ok_iff] at h
  obtain ⟨pb, hb, h⟩ := h
  cases h
  simp only
  have hc : p.baseToCameraGuess = p.baseToCameraGuess.map fun g => (poseCalToEigen (woInit p woCorr)).inv * g := by
    have : woInit p woCorr = poseEigenToCal 1 := by simp [woInit, woCorr, woTgt]
    rw [this, Representable.one.roundtrip]
    simp
  have hT : poseCalToEigen (woInit p woTgt) = p.wristToTargetGuess := by
    have : woInit p woTgt = poseEigenToCal p.wristToTargetGuess := by simp [woInit]
    rw [this, ht.roundtrip]
  rw [costPerObs_eq_meanCost, woBuild_residuals hb hw hg (woInit p) p.baseToCameraGuess p.wristToTargetGuess hc hT
    (fun c hc => (hg c hc).1) hz]

theorem exShift_representable (v : V3) : Representable ⟨1, v⟩ := ⟨(rigid_iff _).1 M3.IsRot.one, Representable.one.2⟩

/-- Two cameras, two images, and a solver that leaves the guesses alone. -/
example : ∃ (p : WoProblem) (res : WoResult), wristOnly (idCeres Pose6) p = .ok res ∧
    (∀ w ∈ p.wristPoses, Representable w) ∧ (∀ g ∈ p.baseToCameraGuess, Representable g) ∧
    Representable p.wristToTargetGuess ∧ (∀ c ∈ res.baseToCamera, RigidMotion c) ∧
    byCamera p.observations p.baseToCameraGuess.length (fun _ => p.wristPoses.length) ≠ [] ∧
    NoZeroDepth res.baseToCamera (fun _ i => p.wristPoses.getD i 1 * res.wristToTarget)
      (byCamera p.observations p.baseToCameraGuess.length fun _ => p.wristPoses.length) ∧
    NoZeroDepth p.baseToCameraGuess (fun _ i => p.wristPoses.getD i 1 * p.wristToTargetGuess)
      (byCamera p.observations p.baseToCameraGuess.length fun _ => p.wristPoses.length) := by
  obtain ⟨p, hp⟩ : ∃ p : WoProblem, p = ⟨[⟨1, 1, 0, 0⟩, ⟨2, 2, 5, 5⟩], [1, ⟨1, ⟨0, 0, 1⟩⟩],
    [[[⟨⟨1, 0⟩, ⟨1, 0, 1⟩⟩], []], [[], [⟨⟨6, 5⟩, ⟨1, 0, 1⟩⟩]]], 1, [1, ⟨1, ⟨0, 0, -1⟩⟩]⟩ := ⟨_, rfl⟩
  have hone : poseCalToEigen (poseEigenToCal 1) = 1 := Representable.one.roundtrip
  have hw : ∀ w ∈ p.wristPoses, Representable w := by
    rw [hp]; intro c hc
    simp only [List.mem_cons, List.not_mem_nil, or_false] at hc
    rcases hc with rfl | rfl
    · exact .one
    · exact exShift_representable _
  have hg : ∀ w ∈ p.baseToCameraGuess, Representable w := by
    rw [hp]; intro c hc
    simp only [List.mem_cons, List.not_mem_nil, or_false] at hc
    rcases hc with rfl | rfl
    · exact .one
    · exact exShift_representable _
  have hz : NoZeroDepth p.baseToCameraGuess (fun _ i => p.wristPoses.getD i 1 * p.wristToTargetGuess)
      (byCamera p.observations p.baseToCameraGuess.length fun _ => p.wristPoses.length) := by
    intro f hf
    rw [hp] at hf ⊢
    simp [byCamera, featuresOf, List.range_succ] at hf
    rcases hf with rfl | rfl <;> simp [staticDepth, Iso.apply, Iso.inv, M3.tr, M3.mulVec, M3.mul_def] <;> norm_num
  obtain ⟨pb, hb⟩ : ∃ pb, woBuild p = .ok pb := by rw [hp]; exact ⟨_, rfl⟩
  have hT : p.wristToTargetGuess = 1 := by rw [hp]
  refine ⟨p, _, by rw [wristOnly, hb, Res.ok_bind], hw, hg, by rw [hT]; exact .one, ?_, ?_, ?_, hz⟩
  · simp only [idCeres, woInit, woCorr, woTgt, zero_ne_one, if_false, hone, Iso.inv_one, Iso.one_mul, List.map_id']
    exact fun c hc => (hg c hc).1
  · rw [hp]; simp [byCamera, featuresOf, List.range_succ]
  · simp only [idCeres, woInit, woCorr, woTgt, zero_ne_one, if_false, if_true, hT, hone, Iso.inv_one, Iso.one_mul,
      List.map_id']
    rw [hT] at hz
    exact hz

/-! ## C127 A calibration does not worsen the fit -/

theorem C127_pnp (s : Ceres V3) (hs : s.WF) (p : PnPProblem Corr2) (res : PnPResult) (h : pnp2 s p = .ok res)
    (hg : RigidMotion p.guess) (hz : ∀ c ∈ p.correspondences, (p.guess.apply c.inTarget).z > 1 / 10 ^ 10)
    (hz' : ∀ c ∈ p.correspondences, (res.cameraToTarget.apply c.inTarget).z > 1 / 10 ^ 10) :
    sumSq (pixelErrors p.intr res.cameraToTarget p.correspondences) ≤
      sumSq (pixelErrors p.intr p.guess p.correspondences) := by
  obtain ⟨-, h2, -⟩ := pnpFinish_ok h
  rw [← pnpBuild2_residuals p _ _ h2.symm hz',
    ← pnpBuild2_residuals p _ _ (pnpInit_transform ((rigid_iff _).2 hg)) hz]
  exact sumSq_le_of_solved hs _ _

theorem C127_pnp_3d (s : Ceres V3) (hs : s.WF) (p : PnPProblem Corr3) (res : PnPResult) (h : pnp3 s p = .ok res)
    (hg : RigidMotion p.guess) :
    sumSq (pointErrors res.cameraToTarget p.correspondences) ≤ sumSq (pointErrors p.guess p.correspondences) := by
  obtain ⟨-, h2, -⟩ := pnpFinish_ok h
  rw [← pnpBuild3_residuals p _ _ h2.symm, ← pnpBuild3_residuals p _ _ (pnpInit_transform ((rigid_iff _).2 hg))]
  exact sumSq_le_of_solved hs _ _

theorem C127_multi_camera_pnp (s : Ceres Pose6) (hs : s.WF) (p : McPnpProblem) (res : McPnpResult)
    (h : mcPnp s p = .ok res) (hc : ∀ c ∈ p.baseToCamera, Representable c) (hg : Representable p.guess)
    (hz : NoZeroDepth p.baseToCamera (fun _ _ => p.guess) (oneImage p.observations p.baseToCamera.length))
    (hz' : NoZeroDepth p.baseToCamera (fun _ _ => res.baseToTarget) (oneImage p.observations p.baseToCamera.length)) :
    sumSq (staticErrors p.intr p.baseToCamera (fun _ _ => res.baseToTarget)
        (oneImage p.observations p.baseToCamera.length)) ≤
      sumSq (staticErrors p.intr p.baseToCamera (fun _ _ => p.guess) (oneImage p.observations p.baseToCamera.length)) := by
  unfold mcPnp at h
  rw [Res.bind_ok_iff] at h
  obtain ⟨pb, hb, h⟩ := h
  cases h
  simp only at hz' ⊢
  have h1 := mcPnpBuild_residuals hb hc (fun _ => poseEigenToCal p.guess) (by rw [hg.roundtrip]; exact hz)
  rw [hg.roundtrip] at h1
  rw [← h1, ← mcPnpBuild_residuals hb hc _ hz']
  exact sumSq_le_of_solved hs _ _

theorem C127_hand_eye (s : Ceres Pose6) (hs : s.WF) (p : HandEyeProblem Corr2) (res : HandEyeResult)
    (h : handEye2 s p = .ok res) (hm : MountsRepresentable p.observations) (hc : Representable p.cameraGuess)
    (ht : Representable p.targetGuess) (hr : RigidMotion res.cameraMountToCamera)
    (hz : ∀ f ∈ features p.observations, (inCamera2 p.cameraGuess p.targetGuess f).z ≠ 0)
    (hz' : ∀ f ∈ features p.observations, (inCamera2 res.cameraMountToCamera res.targetMountToTarget f).z ≠ 0) :
    sumSq (reprojErrors2 p.intr res.cameraMountToCamera res.targetMountToTarget p.observations) ≤
      sumSq (reprojErrors2 p.intr p.cameraGuess p.targetGuess p.observations) := by
  unfold handEye2 at h
  rw [Res.bind_ok_iff] at h
  obtain ⟨pb, hb, h⟩ := h
  obtain ⟨-, h1, h2⟩ := heFinish_ok h
  rw [h1, h2] at hz' ⊢
  rw [h2] at hr
  have e0 : heInit p heCam = poseEigenToCal p.cameraGuess.inv := by simp [heInit, heCam, heTgt]
  have e1 : heInit p heTgt = poseEigenToCal p.targetGuess := by simp [heInit]
  have i0 : (poseCalToEigen (heInit p heCam)).inv = p.cameraGuess := by
    rw [e0, hc.inv.roundtrip, Iso.inv_inv hc.rigid]
  have i1 : poseCalToEigen (heInit p heTgt) = p.targetGuess := by rw [e1, ht.roundtrip]
  have k0 := C28_partial p pb hb hm (heInit p) ((poseCalToEigen_rigid_iff _).1 (by
    rw [e0, hc.inv.roundtrip]; exact hc.inv.rigid)) (by rw [i0, i1]; exact hz)
  have k1 := C28_partial p pb hb hm (s.solve pb (heInit p)) ((poseCalToEigen_rigid_iff _).1
    (Iso.IsRigid.of_inv ((rigid_iff _).2 hr))) hz'
  rw [i0, i1] at k0
  rw [← k0, ← k1]
  exact sumSq_le_of_solved hs _ _

theorem C127_hand_eye_3d (s : Ceres Pose6) (hs : s.WF) (p : HandEyeProblem Corr3) (res : HandEyeResult)
    (h : handEye3 s p = .ok res) (hm : MountsRepresentable p.observations) (hc : Representable p.cameraGuess)
    (ht : Representable p.targetGuess) (hr : RigidMotion res.cameraMountToCamera) :
    sumSq (reprojErrors3 res.cameraMountToCamera res.targetMountToTarget p.observations) ≤
      sumSq (reprojErrors3 p.cameraGuess p.targetGuess p.observations) := by
  obtain ⟨-, h1, h2⟩ := heFinish_ok h
  rw [h2] at hr
  rw [h1, h2]
  have e0 : heInit p heCam = poseEigenToCal p.cameraGuess.inv := by simp [heInit, heCam, heTgt]
  have e1 : heInit p heTgt = poseEigenToCal p.targetGuess := by simp [heInit]
  have i0 : (poseCalToEigen (heInit p heCam)).inv = p.cameraGuess := by
    rw [e0, hc.inv.roundtrip, Iso.inv_inv hc.rigid]
  have i1 : poseCalToEigen (heInit p heTgt) = p.targetGuess := by rw [e1, ht.roundtrip]
  have k0 := C28_partial_3d p hm (heInit p) ((poseCalToEigen_rigid_iff _).1 (by
    rw [e0, hc.inv.roundtrip]; exact hc.inv.rigid))
  have k1 := C28_partial_3d p hm (s.solve (heBuild3 p) (heInit p)) ((poseCalToEigen_rigid_iff _).1
    (Iso.IsRigid.of_inv ((rigid_iff _).2 hr)))
  rw [i0, i1] at k0
  rw [← k0, ← k1]
  exact sumSq_le_of_solved hs _ _

theorem meanCost_le {a b : List ℝ} (hl : a.length = b.length) (h : sumSq a ≤ sumSq b) (x y : ℝ)
    (hx : meanCost a = some x) (hy : meanCost b = some y) : x ≤ y := by
  unfold meanCost at hx hy
  split_ifs at hx hy with h1 h2
  cases hx; cases hy
  rw [hl]
  have : (0 : ℝ) < b.length := by
    have : 0 < b.length := List.length_pos_of_ne_nil h2
    exact_mod_cast this
  gcongr

theorem costPerObs_le {β : Type} {s : Ceres β} (hs : s.WF) (pb : List (ResBlock β)) (init : Nat → β)
    (hl : (residuals pb (s.solve pb init)).length = (residuals pb init).length) (x y : ℝ)
    (hx : costPerObs pb (s.solve pb init) = some x) (hy : costPerObs pb init = some y) : x ≤ y := by
  rw [costPerObs_eq_meanCost] at hx hy
  exact meanCost_le hl (sumSq_le_of_solved hs pb init) x y hx hy

theorem residuals_length {α β : Type} {l : List α} {pb : List (ResBlock β)} {n : Nat} {st : Nat → β}
    (h : List.Forall₂ (fun _ b => (b.residual st).length = n) l pb) : (residuals pb st).length = l.length * n := by
  induction h with
  | nil => simp [residuals]
  | cons hab _ ih =>
    simp only [residuals, List.flatMap_cons, List.length_append, List.length_cons] at ih ⊢
    rw [ih, hab]; ring

/-- The three calibrations of static cameras: the reported final cost does not exceed the reported initial cost, whatever
the transforms. (By C126 these are half the mean squared errors of the reported transforms and of the guesses.) -/
theorem C127_static (s : Ceres Pose6) (hs : s.WF) (x y : ℝ) :
    (∀ (p : MsProblem) (res : MsResult), multiStatic s p = .ok res → res.finalCost = some x → res.initialCost = some y →
      x ≤ y) ∧
    (∀ (p : CoProblem) (res : CoResult), cameraOnly s p = .ok res → res.finalCost = some x → res.initialCost = some y →
      x ≤ y) ∧
    (∀ (p : WoProblem) (res : WoResult), wristOnly s p = .ok res → res.finalCost = some x → res.initialCost = some y →
      x ≤ y) := by
  refine ⟨fun p res h hx hy => ?_, fun p res h hx hy => ?_, fun p res h hx hy => ?_⟩
  · unfold multiStatic at h
    simp only [Res.bind_ok_iff] at h
    obtain ⟨pb, hb, cov, -, h⟩ := h
    cases h
    have hlen : ∀ st, (residuals pb st).length = _ * 2 := fun st => residuals_length ((msBuild_blocks hb).imp (by
      rintro f b ⟨intr, wp, w, -, -, -, rfl⟩
      simp [ResBlock.residual, eval2, msCost]))
    exact costPerObs_le hs pb _ (by rw [hlen, hlen]) x y hx hy
  · unfold cameraOnly at h
    simp only [Res.bind_ok_iff] at h
    obtain ⟨pb, hb, h⟩ := h
    cases h
    have hlen : ∀ st, (residuals pb st).length = _ * 2 := fun st => residuals_length ((coBuild_blocks hb).imp (by
      rintro f b ⟨intr, -, ⟨-, -, g, -, rfl⟩ | ⟨-, rfl⟩⟩
      · simp [ResBlock.residual, eval1, coFixedCost]
      · simp [ResBlock.residual, eval2, coFreeCost]))
    exact costPerObs_le hs pb _ (by rw [hlen, hlen]) x y hx hy
  · unfold wristOnly at h
    simp only [Res.bind_ok_iff] at h
    obtain ⟨pb, hb, h⟩ := h
    cases h
    have hlen : ∀ st, (residuals pb st).length = _ * 2 := fun st => residuals_length ((woBuild_blocks hb).imp (by
      rintro f b ⟨intr, w, g, -, -, -, rfl⟩
      simp [ResBlock.residual, eval2, woCost]))
    exact costPerObs_le hs pb _ (by rw [hlen, hlen]) x y hx hy

/-- Costs of the same number of errors are ordered as the sums of the squared errors. -/
theorem sumSq_le_of_meanCost {a b : List ℝ} (hlen : a.length = b.length) {c c' : Option ℝ} (hc : c = meanCost a)
    (hc' : c' = meanCost b) (h : ∀ x y, c = some x → c' = some y → x ≤ y) : sumSq a ≤ sumSq b := by
  by_cases ha : a = []
  · have hb : b = [] := by rw [← List.length_eq_zero_iff, ← hlen, ha]; rfl
    rw [ha, hb]
  · have hb : b ≠ [] := by
      rintro rfl
      exact ha (List.length_eq_zero_iff.1 hlen)
    rw [meanCost, if_neg ha] at hc
    rw [meanCost, if_neg hb] at hc'
    have := h _ _ hc hc'
    rw [hlen] at this
    have hpos : (0 : ℝ) < b.length := by exact_mod_cast List.length_pos_iff.2 hb
    rw [div_le_div_iff_of_pos_right hpos] at this
    linarith

theorem staticErrors_length (intr : List Intr) (cams : List Iso) (tgt : Nat → Nat → Iso) (fs : List Feature) :
    (staticErrors intr cams tgt fs).length = fs.length * 2 := by
  unfold staticErrors
  induction fs with
  | nil => rfl
  | cons f l ih => rw [List.flatMap_cons, List.length_append, ih]; simp [staticError, diff2]; ring

/-- The calibration of static cameras with known wrist poses does not increase the sum of the squared errors. -/
theorem C127_multi_static (s : Ceres Pose6) (hs : s.WF) (p : MsProblem) (res : MsResult) (h : multiStatic s p = .ok res)
    (hw : ∀ wp ∈ p.wristPoses, ∀ w ∈ wp, Representable w) (hg : ∀ c ∈ p.baseToCameraGuess, Representable c)
    (ht : Representable p.wristToTargetGuess) (hr : ∀ c ∈ res.baseToCamera, RigidMotion c)
    (hz : NoZeroDepth p.baseToCameraGuess (fun c i => (p.wristPoses.getD c []).getD i 1 * p.wristToTargetGuess)
      (byCamera p.observations p.baseToCameraGuess.length fun c => (p.wristPoses.getD c []).length))
    (hz' : NoZeroDepth res.baseToCamera (fun c i => (p.wristPoses.getD c []).getD i 1 * res.wristToTarget)
      (byCamera p.observations p.baseToCameraGuess.length fun c => (p.wristPoses.getD c []).length)) :
    sumSq (staticErrors p.intr res.baseToCamera (fun c i => (p.wristPoses.getD c []).getD i 1 * res.wristToTarget)
        (byCamera p.observations p.baseToCameraGuess.length fun c => (p.wristPoses.getD c []).length)) ≤
      sumSq (staticErrors p.intr p.baseToCameraGuess
        (fun c i => (p.wristPoses.getD c []).getD i 1 * p.wristToTargetGuess)
        (byCamera p.observations p.baseToCameraGuess.length fun c => (p.wristPoses.getD c []).length)) :=
  sumSq_le_of_meanCost (by rw [staticErrors_length, staticErrors_length]) (C126_multi_final s p res h hw hr hz')
    (C126_multi_initial s p res h hw hg ht hz) fun x y hx hy => (C127_static s hs x y).1 p res h hx hy

/-- The calibration of static cameras without known target poses. -/
theorem C127_camera_only (s : Ceres Pose6) (hs : s.WF) (p : CoProblem) (res : CoResult) (h : cameraOnly s p = .ok res)
    (hg : ∀ c ∈ p.baseToCameraGuess, Representable c) (ht : ∀ t ∈ p.baseToTargetGuess, Representable t)
    (hi : p.baseToTargetGuess ≠ []) (hr : ∀ c ∈ res.baseToCamera, RigidMotion c)
    (hz : NoZeroDepth p.baseToCameraGuess (fun _ i => p.baseToTargetGuess.getD i 1)
      (byImage p.observations p.baseToCameraGuess.length p.baseToTargetGuess.length))
    (hz' : NoZeroDepth res.baseToCamera (fun _ i => res.baseToTarget.getD i 1)
      (byImage p.observations p.baseToCameraGuess.length p.baseToTargetGuess.length)) :
    sumSq (staticErrors p.intr res.baseToCamera (fun _ i => res.baseToTarget.getD i 1)
        (byImage p.observations p.baseToCameraGuess.length p.baseToTargetGuess.length)) ≤
      sumSq (staticErrors p.intr p.baseToCameraGuess (fun _ i => p.baseToTargetGuess.getD i 1)
        (byImage p.observations p.baseToCameraGuess.length p.baseToTargetGuess.length)) :=
  sumSq_le_of_meanCost (by rw [staticErrors_length, staticErrors_length])
    (C126_camera_only_final s hs p res h (fun _ g h0 => hg g (List.mem_of_getElem? h0)) hi hr hz')
    (C126_camera_only_initial s p res h hg ht hi hz) fun x y hx hy => (C127_static s hs x y).2.1 p res h hx hy

/-- The calibration of the wrist with static cameras that keep their relative poses. -/
theorem C127_wrist_only (s : Ceres Pose6) (hs : s.WF) (p : WoProblem) (res : WoResult) (h : wristOnly s p = .ok res)
    (hw : ∀ w ∈ p.wristPoses, Representable w) (hg : ∀ g ∈ p.baseToCameraGuess, Representable g)
    (ht : Representable p.wristToTargetGuess) (hr : ∀ c ∈ res.baseToCamera, RigidMotion c)
    (hz : NoZeroDepth p.baseToCameraGuess (fun _ i => p.wristPoses.getD i 1 * p.wristToTargetGuess)
      (byCamera p.observations p.baseToCameraGuess.length fun _ => p.wristPoses.length))
    (hz' : NoZeroDepth res.baseToCamera (fun _ i => p.wristPoses.getD i 1 * res.wristToTarget)
      (byCamera p.observations p.baseToCameraGuess.length fun _ => p.wristPoses.length)) :
    sumSq (staticErrors p.intr res.baseToCamera (fun _ i => p.wristPoses.getD i 1 * res.wristToTarget)
        (byCamera p.observations p.baseToCameraGuess.length fun _ => p.wristPoses.length)) ≤
      sumSq (staticErrors p.intr p.baseToCameraGuess (fun _ i => p.wristPoses.getD i 1 * p.wristToTargetGuess)
        (byCamera p.observations p.baseToCameraGuess.length fun _ => p.wristPoses.length)) :=
  sumSq_le_of_meanCost (by rw [staticErrors_length, staticErrors_length]) (C126_wrist_only_final s p res h hw hg hr hz')
    (C126_wrist_only_initial s p res h hw hg ht hz) fun x y hx hy => (C127_static s hs x y).2.2 p res h hx hy

end RCT
