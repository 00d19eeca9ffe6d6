import Verif.Props.Agreeing

/-! # C244 A calibration that is started again from its own result -/

namespace RCT

open Spec

/-- The state `fin` in the parameter blocks of the problem, the state `init` elsewhere. -/
def patched {β : Type} (pb : List (ResBlock β)) (init fin : Nat → β) : Nat → β :=
  fun a => if a ∈ usedBlocks pb then fin a else init a

theorem patched_used {β : Type} {pb : List (ResBlock β)} {init fin : Nat → β} {a : Nat} (h : a ∈ usedBlocks pb) : patched pb init fin a = fin a := by
  unfold patched; exact if_pos h

theorem patched_residuals {β : Type} (pb : List (ResBlock β)) (init fin : Nat → β) : residuals pb (patched pb init fin) = residuals pb fin := by
  unfold residuals
  refine flatMap_congr' fun b hb => ?_
  unfold ResBlock.residual
  congr 1
  exact List.map_congr_left fun a ha => patched_used (mem_usedBlocks.2 ⟨b, hb, ha⟩)

/-- A solver can do at once what two solvers do one after the other, if the second starts with the residuals the first ended with. -/
theorem restart_core {β : Type} {s s2 : Ceres β} (hs : s.WF) (hs2 : s2.WF) (pb : List (ResBlock β)) (i j : Nat → β)
    (e : residuals pb j = residuals pb (s.solve pb i)) (conv : Bool) : (Ceres.jump pb i (patched pb i (s2.solve pb j)) conv).WF := by
  refine Ceres.jump_wf _ (fun a ha => ?_) ?_
  · unfold patched; exact if_neg ha
  · rw [(cost_of_residuals (patched_residuals pb i (s2.solve pb j))).1]
    refine le_trans (hs2.descent pb j) ?_
    rw [(cost_of_residuals e).1]
    exact hs.descent pb i

/-- The poses that the second solver ends with are those of the patched state, also for blocks that no residual uses. -/
theorem patched_pose {s s2 : Ceres Pose6} (hs : s.WF) (hs2 : s2.WF) (pb : List (ResBlock Pose6)) (i j : Nat → Pose6) {a : Nat}
    (h : poseCalToEigen (j a) = poseCalToEigen (s.solve pb i a)) :
    poseCalToEigen (patched pb i (s2.solve pb j) a) = poseCalToEigen (s2.solve pb j a) := by
  by_cases ha : a ∈ usedBlocks pb
  · rw [patched_used ha]
  · rw [hs2.frame pb j a ha, h, hs.frame pb i a ha]
    unfold patched
    rw [if_neg ha]

/-! ## PnP -/

theorem pnpFinish_restart {κ : Type} (p : PnPProblem κ) {l : List κ} (hl : l ≠ []) (g : κ → ResBlock V3) (hb : ∀ a, (g a).blocks = [pnpRot, pnpTrans])
    (hloc : ∀ (a : κ) (st st' : Nat → V3), pnpTransform (st pnpRot) (st pnpTrans) = pnpTransform (st' pnpRot) (st' pnpTrans) →
      (g a).residual st = (g a).residual st') {s s2 : Ceres V3} (hs : s.WF) (hs2 : s2.WF) {r r2 : PnPResult}
    (hr : pnpFinish s p (l.map g) = .ok r) (hr2 : pnpFinish s2 { p with guess := r.cameraToTarget } (l.map g) = .ok r2) :
    r2.initialCost = r.finalCost ∧ ∃ s' : Ceres V3, s'.WF ∧ ∃ r', pnpFinish s' p (l.map g) = .ok r' ∧ r'.converged = r2.converged ∧
      r'.initialCost = r.initialCost ∧ r'.finalCost = r2.finalCost ∧ r'.cameraToTarget = r2.cameraToTarget := by
  unfold pnpFinish at hr hr2
  simp only [Res.bind_ok_iff] at hr hr2
  obtain ⟨cov, -, hr⟩ := hr
  obtain ⟨cov2, -, hr2⟩ := hr2
  cases hr
  cases hr2
  simp only
  have e : residuals (l.map g) (pnpInit (pnpTransform (s.solve (l.map g) (pnpInit p.guess) pnpRot) (s.solve (l.map g) (pnpInit p.guess) pnpTrans))) =
      residuals (l.map g) (s.solve (l.map g) (pnpInit p.guess)) := by
    rw [residuals_map, residuals_map]
    refine flatMap_congr' fun a _ => hloc a _ _ ?_
    exact pnpInit_transform (pnpTransform_rigid _ _)
  obtain ⟨j, hj⟩ : ∃ j, j = pnpInit (pnpTransform (s.solve (l.map g) (pnpInit p.guess) pnpRot) (s.solve (l.map g) (pnpInit p.guess) pnpTrans)) := ⟨_, rfl⟩
  rw [← hj] at e ⊢
  have wf := restart_core hs hs2 (l.map g) (pnpInit p.guess) j e (s2.converged (l.map g) j)
  have hp := usedBlocks_const l hl g [pnpRot, pnpTrans] (by decide) (fun a _ => hb a)
  obtain ⟨r', hr'⟩ := pnpFinish_returns (Ceres.jump (l.map g) (pnpInit p.guess) (patched (l.map g) (pnpInit p.guess) (s2.solve (l.map g) j))
    (s2.converged (l.map g) j)) p l hl g (fun a _ => hb a) rfl rfl
  refine ⟨(cost_of_residuals e).2, _, wf, r', hr', ?_⟩
  unfold pnpFinish at hr'
  simp only [Res.bind_ok_iff, Ceres.jump_solve] at hr'
  obtain ⟨cov', -, hr'⟩ := hr'
  cases hr'
  refine ⟨rfl, rfl, (cost_of_residuals (patched_residuals _ _ _)).2, ?_⟩
  simp only
  rw [patched_used (hp.symm.subset (by simp)), patched_used (hp.symm.subset (by simp))]

/-- PnP started again from its result: it begins with the final cost of the first run, and the first run could have returned the same. -/
theorem C244_pnp (p : PnPProblem Corr2) (r r2 : PnPResult) (hr : Reaches (fun s => pnp2 s p) r)
    (hr2 : Reaches (fun s => pnp2 s { p with guess := r.cameraToTarget }) r2) :
    r2.initialCost = r.finalCost ∧ ∃ r', Reaches (fun s => pnp2 s p) r' ∧ r'.converged = r2.converged ∧ r'.initialCost = r.initialCost ∧
      r'.finalCost = r2.finalCost ∧ r'.cameraToTarget = r2.cameraToTarget := by
  obtain ⟨s, hs, hr⟩ := hr
  obtain ⟨s2, hs2, hr2⟩ := hr2
  beta_reduce at hr hr2
  have hne : p.correspondences ≠ [] := by
    intro h
    rw [pnp2_empty s p h] at hr
    cases hr
  unfold pnp2 pnpBuild2 at hr hr2
  obtain ⟨h1, s', wf, r', h2, h3⟩ := pnpFinish_restart p hne
    (fun c => ⟨[pnpRot, pnpTrans], evalV2 (pnpCost2 p.intr c.inTarget c.inImage)⟩) (fun _ => rfl) (by
      intro a st st' h
      simp only [ResBlock.residual, List.map_cons, List.map_nil, evalV2, pnpCost2, h]) hs hs2 hr hr2
  exact ⟨h1, r', ⟨s', wf, h2⟩, h3⟩

theorem C244_pnp_3d (p : PnPProblem Corr3) (r r2 : PnPResult) (hr : Reaches (fun s => pnp3 s p) r)
    (hr2 : Reaches (fun s => pnp3 s { p with guess := r.cameraToTarget }) r2) :
    r2.initialCost = r.finalCost ∧ ∃ r', Reaches (fun s => pnp3 s p) r' ∧ r'.converged = r2.converged ∧ r'.initialCost = r.initialCost ∧
      r'.finalCost = r2.finalCost ∧ r'.cameraToTarget = r2.cameraToTarget := by
  obtain ⟨s, hs, hr⟩ := hr
  obtain ⟨s2, hs2, hr2⟩ := hr2
  beta_reduce at hr hr2
  have hne : p.correspondences ≠ [] := by
    intro h
    rw [pnp3_empty s p h] at hr
    cases hr
  unfold pnp3 pnpBuild3 at hr hr2
  obtain ⟨h1, s', wf, r', h2, h3⟩ := pnpFinish_restart p hne
    (fun c => ⟨[pnpRot, pnpTrans], evalV2 (pnpCost3 c.inTarget c.inImage)⟩) (fun _ => rfl) (by
      intro a st st' h
      simp only [ResBlock.residual, List.map_cons, List.map_nil, evalV2, pnpCost3, h]) hs hs2 hr hr2
  exact ⟨h1, r', ⟨s', wf, h2⟩, h3⟩

/-! ## PnP with several cameras -/

theorem C244_multi_pnp (p : McPnpProblem) (r r2 : McPnpResult) (hr : Reaches (fun s => mcPnp s p) r) (hrep : Representable r.baseToTarget)
    (hr2 : Reaches (fun s => mcPnp s { p with guess := r.baseToTarget }) r2) :
    r2.initialCost = r.finalCost ∧ ∃ r', Reaches (fun s => mcPnp s p) r' ∧ r'.converged = r2.converged ∧ r'.initialCost = r.initialCost ∧
      r'.finalCost = r2.finalCost ∧ r'.baseToTarget = r2.baseToTarget := by
  obtain ⟨s, hs, hr⟩ := hr
  obtain ⟨s2, hs2, hr2⟩ := hr2
  beta_reduce at hr hr2
  unfold mcPnp at hr hr2
  obtain ⟨pb, hb, hr⟩ := (Res.bind_ok_iff _ _ _).1 hr
  have hb2 : mcPnpBuild { p with guess := r.baseToTarget } = .ok pb := hb
  rw [hb2, Res.ok_bind] at hr2
  cases hr
  cases hr2
  simp only at hrep ⊢
  have hpb := mcPnpBuild_eq hb
  have e : residuals pb (fun _ => poseEigenToCal (poseCalToEigen (s.solve pb (fun _ => poseEigenToCal p.guess) 0))) =
      residuals pb (s.solve pb fun _ => poseEigenToCal p.guess) := by
    obtain ⟨fin, hfin⟩ : ∃ fin, fin = s.solve pb fun _ => poseEigenToCal p.guess := ⟨_, rfl⟩
    rw [← hfin] at hrep ⊢
    rw [hpb, residuals_map, residuals_map]
    refine flatMap_congr' fun f _ => ?_
    simp only [ResBlock.residual, mcPnpBlock, List.map_cons, List.map_nil, eval1, mcPnpCost, transformPoint_eq, hrep.roundtrip]
  obtain ⟨j, hj⟩ : ∃ j : Nat → Pose6, j = fun _ => poseEigenToCal (poseCalToEigen (s.solve pb (fun _ => poseEigenToCal p.guess) 0)) := ⟨_, rfl⟩
  rw [← hj] at e ⊢
  have wf := restart_core hs hs2 pb (fun _ => poseEigenToCal p.guess) j e (s2.converged pb j)
  have hr' : mcPnp (Ceres.jump pb (fun _ => poseEigenToCal p.guess) (patched pb (fun _ => poseEigenToCal p.guess) (s2.solve pb j)) (s2.converged pb j)) p =
      .ok ⟨s2.converged pb j, costPerObs pb fun _ => poseEigenToCal p.guess, costPerObs pb (patched pb (fun _ => poseEigenToCal p.guess) (s2.solve pb j)),
        poseCalToEigen (patched pb (fun _ => poseEigenToCal p.guess) (s2.solve pb j) 0)⟩ := by
    unfold mcPnp
    rw [hb, Res.ok_bind]
    simp only [Ceres.jump_solve]
    rfl
  refine ⟨(cost_of_residuals e).2, _, ⟨_, wf, hr'⟩, rfl, rfl, (cost_of_residuals (patched_residuals _ _ _)).2, patched_pose hs hs2 _ _ _ ?_⟩
  rw [hj]
  exact hrep.roundtrip

/-! ## Circle fit -/

theorem C244_circle (p : CircleFitProblem) (r r2 : CircleFitResult) (hr : Reaches (fun s => circleFit s p) r)
    (hr2 : Reaches (fun s => circleFit s { p with xInitial := r.xCenter, yInitial := r.yCenter, radiusInitial := r.radius }) r2) :
    r2.initialCost = r.finalCost ∧ ∃ r', Reaches (fun s => circleFit s p) r' ∧ r'.converged = r2.converged ∧ r'.initialCost = r.initialCost ∧
      r'.finalCost = r2.finalCost ∧ r'.xCenter = r2.xCenter ∧ r'.yCenter = r2.yCenter ∧ r'.radius = r2.radius := by
  obtain ⟨s, hs, hr⟩ := hr
  obtain ⟨s2, hs2, hr2⟩ := hr2
  beta_reduce at hr hr2
  unfold circleFit at hr
  simp only [Res.bind_ok_iff] at hr
  obtain ⟨cov, hcov, hr⟩ := hr
  have hne : p.observations ≠ [] := by
    intro h
    have hs1 := (C26_returns _ _ _ _ _ hcov).1
    unfold circleBuild at hs1
    rw [h, List.map_nil, (hs.order_perm []).length_eq, usedBlocks_nil] at hs1
    exact absurd (show (1 : Nat) = 0 from hs1) (by decide)
  have hu : (usedBlocks (circleBuild p)).Perm [0] := usedBlocks_const p.observations hne _ _ (by decide) (fun _ _ => rfl)
  obtain ⟨q, hq⟩ : ∃ q, q = { p with xInitial := r.xCenter, yInitial := r.yCenter, radiusInitial := r.radius } := ⟨_, rfl⟩
  rw [← hq] at hr2
  unfold circleFit at hr2
  simp only [Res.bind_ok_iff] at hr2
  obtain ⟨cov2, -, hr2⟩ := hr2
  have hpb : circleBuild q = circleBuild p := by rw [hq]; rfl
  rw [hpb] at hr2
  cases hr
  cases hr2
  simp only
  obtain ⟨fin, hfin⟩ : ∃ fin, fin = s.solve (circleBuild p) (circleInit p) := ⟨_, rfl⟩
  have hq0 : circleInit q 0 0 = fin 0 0 ∧ circleInit q 0 1 = fin 0 1 ∧ circleInit q 0 2 = |fin 0 2| := by
    rw [hq, hfin]
    exact ⟨rfl, rfl, Real.sqrt_sq_eq_abs _⟩
  have e : residuals (circleBuild p) (circleInit q) = residuals (circleBuild p) (s.solve (circleBuild p) (circleInit p)) := by
    rw [← hfin]
    unfold circleBuild
    rw [residuals_map, residuals_map]
    refine flatMap_congr' fun o _ => ?_
    simp only [ResBlock.residual, List.map_cons, List.map_nil, evalMem1, circleCost, hq0, abs_mul_abs_self]
  have wf := restart_core hs hs2 (circleBuild p) (circleInit p) (circleInit q) e (s2.converged (circleBuild p) (circleInit q))
  obtain ⟨fin2, hfin2⟩ : ∃ fin2, fin2 = patched (circleBuild p) (circleInit p) (s2.solve (circleBuild p) (circleInit q)) := ⟨_, rfl⟩
  have h0 : fin2 0 = s2.solve (circleBuild p) (circleInit q) 0 := by rw [hfin2, patched_used (hu.symm.subset (by simp))]
  have hc2 : costPerObs (circleBuild p) fin2 = costPerObs (circleBuild p) (s2.solve (circleBuild p) (circleInit q)) := by
    rw [hfin2]; exact (cost_of_residuals (patched_residuals _ _ _)).2
  rw [← hfin2] at wf
  obtain ⟨J, hJ⟩ : ∃ J, J = Ceres.jump (circleBuild p) (circleInit p) fin2 (s2.converged (circleBuild p) (circleInit q)) := ⟨_, rfl⟩
  have hsol : J.solve (circleBuild p) (circleInit p) = fin2 := by rw [hJ]; exact Ceres.jump_solve _ _ _ _
  obtain ⟨cov', hc'⟩ := computeCovariance_returns (cs := J.covSolver (circleBuild p) fin2 3) (blocks := J.order (circleBuild p))
    (names := SMap.insert [] 0 circleLabels) (masks := [])
    (by rw [hJ]; show SMap.size _ = (usedBlocks _).length; rw [hu.length_eq]; rfl)
    (by
      intro b hb
      have hb' : b ∈ usedBlocks (circleBuild p) := by rw [hJ] at hb; exact hb
      have h0 := hu.subset hb'
      simp only [List.mem_singleton] at h0
      subst h0
      exact ⟨circleLabels, by rw [SMap.find_insert, if_pos rfl], by simp [Ceres.covSolver, hb', circleLabels]⟩) (by rw [hJ]; rfl) (by rw [hJ]; rfl)
  rw [← hJ] at wf
  have hr' : circleFit J p = .ok ⟨s2.converged (circleBuild p) (circleInit q), costPerObs (circleBuild p) (circleInit p), costPerObs (circleBuild p) fin2, cov',
      fin2 0 0, fin2 0 1, fin2 0 2 ^ 2⟩ := by
    unfold circleFit
    simp only
    rw [hsol, hc', Res.ok_bind, hJ]
    rfl
  exact ⟨(cost_of_residuals e).2, _, ⟨J, wf, hr'⟩, rfl, rfl, hc2, by rw [h0], by rw [h0], by rw [h0]⟩

/-! ## Hand-eye calibration -/

theorem heFinish_restart {κ α : Type} (p : HandEyeProblem κ) (hlen : p.labels.length = 6) {l : List α} (g : α → ResBlock Pose6)
    (hb : ∀ a, (g a).blocks = [heCam, heTgt])
    (hloc : ∀ (a : α) (st st' : Nat → Pose6), poseCalToEigen (st heCam) = poseCalToEigen (st' heCam) → poseCalToEigen (st heTgt) = poseCalToEigen (st' heTgt) →
      (g a).residual st = (g a).residual st') {s s2 : Ceres Pose6} (hs : s.WF) (hs2 : s2.WF) {r r2 : HandEyeResult}
    (hr : heFinish s p (l.map g) = .ok r) (h1 : Representable r.cameraMountToCamera) (h2 : Representable r.targetMountToTarget)
    (hr2 : heFinish s2 { p with cameraGuess := r.cameraMountToCamera, targetGuess := r.targetMountToTarget } (l.map g) = .ok r2) :
    r2.initialCost = r.finalCost ∧ ∃ s' : Ceres Pose6, s'.WF ∧ ∃ r', heFinish s' p (l.map g) = .ok r' ∧ r'.converged = r2.converged ∧
      r'.initialCost = r.initialCost ∧ r'.finalCost = r2.finalCost ∧ r'.cameraMountToCamera = r2.cameraMountToCamera ∧
      r'.targetMountToTarget = r2.targetMountToTarget := by
  obtain ⟨q, hq⟩ : ∃ q, q = { p with cameraGuess := r.cameraMountToCamera, targetGuess := r.targetMountToTarget } := ⟨_, rfl⟩
  rw [← hq] at hr2
  have e0 : heInit q heCam = poseEigenToCal r.cameraMountToCamera.inv := by rw [hq]; simp [heInit, heCam, heTgt]
  have e1 : heInit q heTgt = poseEigenToCal r.targetMountToTarget := by rw [hq]; simp [heInit]
  have d0 : poseCalToEigen (heInit q heCam) = r.cameraMountToCamera.inv := by rw [e0]; exact h1.inv.roundtrip
  have d1 : poseCalToEigen (heInit q heTgt) = r.targetMountToTarget := by rw [e1]; exact h2.roundtrip
  unfold heFinish at hr hr2
  simp only [Res.bind_ok_iff] at hr hr2
  obtain ⟨cov, hcov, hr⟩ := hr
  obtain ⟨cov2, -, hr2⟩ := hr2
  have hl : l ≠ [] := by
    rintro rfl
    have hs1 := (C26_returns _ _ _ _ _ hcov).1
    rw [List.map_nil, (hs.order_perm []).length_eq, usedBlocks_nil] at hs1
    exact absurd (show (2 : Nat) = 0 from hs1) (by decide)
  cases hr
  cases hr2
  simp only at h1 h2 d0 d1 ⊢
  have e : residuals (l.map g) (heInit q) = residuals (l.map g) (s.solve (l.map g) (heInit p)) := by
    rw [residuals_map, residuals_map]
    refine flatMap_congr' fun a _ => hloc a _ _ ?_ d1
    rw [d0]
    exact Iso.inv_inv (rigid_of_inv ((rigid_iff _).2 h1.1))
  have wf := restart_core hs hs2 (l.map g) (heInit p) (heInit q) e (s2.converged (l.map g) (heInit q))
  have hp := usedBlocks_const l hl g [heCam, heTgt] (by decide) (fun a _ => hb a)
  obtain ⟨cov', h⟩ := jump_heFinish p hlen l hl g (fun a _ => hb a) (patched (l.map g) (heInit p) (s2.solve (l.map g) (heInit q)))
    (s2.converged (l.map g) (heInit q))
  refine ⟨(cost_of_residuals e).2, _, wf, _, h, rfl, rfl, (cost_of_residuals (patched_residuals _ _ _)).2, ?_, ?_⟩
  · simp only
    rw [patched_used (hp.symm.subset (by simp))]
  · simp only
    rw [patched_used (hp.symm.subset (by simp))]

/-- Hand-eye calibration from points started again from its result. -/
theorem C244_hand_eye_3d (p : HandEyeProblem Corr3) (hlen : p.labels.length = 6) (r r2 : HandEyeResult) (hr : Reaches (fun s => handEye3 s p) r)
    (h1 : Representable r.cameraMountToCamera) (h2 : Representable r.targetMountToTarget)
    (hr2 : Reaches (fun s => handEye3 s { p with cameraGuess := r.cameraMountToCamera, targetGuess := r.targetMountToTarget }) r2) :
    r2.initialCost = r.finalCost ∧ ∃ r', Reaches (fun s => handEye3 s p) r' ∧ r'.converged = r2.converged ∧ r'.initialCost = r.initialCost ∧
      r'.finalCost = r2.finalCost ∧ r'.cameraMountToCamera = r2.cameraMountToCamera ∧ r'.targetMountToTarget = r2.targetMountToTarget := by
  obtain ⟨s, hs, hr⟩ := hr
  obtain ⟨s2, hs2, hr2⟩ := hr2
  beta_reduce at hr hr2
  unfold handEye3 at hr hr2
  rw [heBuild3_eq] at hr hr2
  obtain ⟨h1, s', wf, r', h2, h3⟩ := heFinish_restart p hlen heBlock3 (fun _ => rfl) (by
      intro a st st' h h'
      simp only [ResBlock.residual, heBlock3, List.map_cons, List.map_nil, eval2, handEyeCost3, targetPointInCamera, transformPoint_eq, h, h'])
    hs hs2 hr h1 h2 hr2
  refine ⟨h1, r', ⟨s', wf, ?_⟩, h3⟩
  beta_reduce
  unfold handEye3
  rw [heBuild3_eq, ← h2]

/-- Hand-eye calibration from pixels started again from its result. -/
theorem C244_hand_eye (p : HandEyeProblem Corr2) (hlen : p.labels.length = 6) (r r2 : HandEyeResult) (hr : Reaches (fun s => handEye2 s p) r)
    (h1 : Representable r.cameraMountToCamera) (h2 : Representable r.targetMountToTarget)
    (hr2 : Reaches (fun s => handEye2 s { p with cameraGuess := r.cameraMountToCamera, targetGuess := r.targetMountToTarget }) r2) :
    r2.initialCost = r.finalCost ∧ ∃ r', Reaches (fun s => handEye2 s p) r' ∧ r'.converged = r2.converged ∧ r'.initialCost = r.initialCost ∧
      r'.finalCost = r2.finalCost ∧ r'.cameraMountToCamera = r2.cameraMountToCamera ∧ r'.targetMountToTarget = r2.targetMountToTarget := by
  obtain ⟨s, hs, hr⟩ := hr
  obtain ⟨s2, hs2, hr2⟩ := hr2
  beta_reduce at hr hr2
  unfold handEye2 at hr hr2
  rcases heBuild2_cases p with ⟨-, hb⟩ | ⟨-, hb⟩
  swap
  · rw [hb] at hr; cases hr
  rcases heBuild2_cases { p with cameraGuess := r.cameraMountToCamera, targetGuess := r.targetMountToTarget } with ⟨-, hb2⟩ | ⟨-, hb2⟩
  swap
  · rw [hb2] at hr2; cases hr2
  rw [hb, Res.ok_bind] at hr
  rw [hb2, Res.ok_bind] at hr2
  obtain ⟨h1, s', wf, r', h2, h3⟩ := heFinish_restart p hlen (heBlock2 p.intr) (fun _ => rfl) (by
      intro a st st' h h'
      simp only [ResBlock.residual, heBlock2, List.map_cons, List.map_nil, eval2, handEyeCost2, targetPointInCamera, transformPoint_eq, h, h'])
    hs hs2 hr h1 h2 hr2
  refine ⟨h1, r', ⟨s', wf, ?_⟩, h3⟩
  beta_reduce
  unfold handEye2
  rw [hb, Res.ok_bind, ← h2]

theorem residuals_forall₂' {α β : Type} {l : List α} {pb : List (ResBlock β)} {R : α → ResBlock β → Prop} {st st' : Nat → β} (h : List.Forall₂ R l pb)
    (hR : ∀ a ∈ l, ∀ b, R a b → b.residual st = b.residual st') : residuals pb st = residuals pb st' := by
  unfold residuals
  induction h with
  | nil => rfl
  | cons h _ ih =>
    rw [List.flatMap_cons, List.flatMap_cons, hR _ List.mem_cons_self _ h, ih fun a ha b hb => hR a (List.mem_cons_of_mem _ ha) b hb]

/-! ## Static cameras -/

/-- Calibration of static cameras and target mount, started again from its result. -/
theorem C244_multi_static (p : MsProblem) (r r2 : MsResult) (hr : Reaches (fun s => multiStatic s p) r) (h1 : Representable r.wristToTarget)
    (h2 : ∀ c ∈ r.baseToCamera, Representable c)
    (hr2 : Reaches (fun s => multiStatic s { p with wristToTargetGuess := r.wristToTarget, baseToCameraGuess := r.baseToCamera }) r2) :
    r2.initialCost = r.finalCost ∧ ∃ r', Reaches (fun s => multiStatic s p) r' ∧ r'.converged = r2.converged ∧ r'.initialCost = r.initialCost ∧
      r'.finalCost = r2.finalCost ∧ r'.wristToTarget = r2.wristToTarget ∧ r'.baseToCamera = r2.baseToCamera := by
  obtain ⟨s, hs, hr⟩ := hr
  obtain ⟨s2, hs2, hr2⟩ := hr2
  beta_reduce at hr hr2
  have hlen := multiStatic_poses hr
  obtain ⟨q, hq⟩ : ∃ q, q = { p with wristToTargetGuess := r.wristToTarget, baseToCameraGuess := r.baseToCamera } := ⟨_, rfl⟩
  rw [← hq] at hr2
  have hqb : msBuild q = msBuild p := by rw [hq]; unfold msBuild; simp only [hlen]
  have hql : q.baseToCameraGuess.length = p.baseToCameraGuess.length := by rw [hq]; exact hlen
  unfold multiStatic at hr hr2
  simp only [Res.bind_ok_iff] at hr hr2
  obtain ⟨pb, hb, cov, hcov, hr⟩ := hr
  obtain ⟨pb2, hb2, cov2, -, hr2⟩ := hr2
  obtain rfl : pb = pb2 := by
    rw [hqb, hb] at hb2
    cases hb2; rfl
  rw [hql] at hr2
  have dT : poseCalToEigen (msInit q msTgt) = r.wristToTarget := by
    rw [hq]
    simpa [msInit, msTgt] using h1.roundtrip
  have dC : ∀ c x, r.baseToCamera[c]? = some x → poseCalToEigen (msInit q (msCam c)) = x.inv := by
    intro c x hx
    have hm := List.mem_of_getElem? hx
    have : msInit q (msCam c) = poseEigenToCal x.inv := by rw [hq]; simp [msInit, msCam, msTgt, hx]
    rw [this, (h2 x hm).inv.roundtrip]
  cases hr
  cases hr2
  simp only at h1 h2 dT dC ⊢
  have eC : ∀ c, c < p.baseToCameraGuess.length → poseCalToEigen (msInit q (msCam c)) = poseCalToEigen (s.solve pb (msInit p) (msCam c)) := by
    intro c hc
    have hx : ((List.range p.baseToCameraGuess.length).map fun c => (poseCalToEigen (s.solve pb (msInit p) (msCam c))).inv)[c]? =
        some (poseCalToEigen (s.solve pb (msInit p) (msCam c))).inv := by
      rw [List.getElem?_map, List.getElem?_range hc]; rfl
    rw [dC c _ hx]
    exact Iso.inv_inv (rigid_of_inv ((rigid_iff _).2 (h2 _ (List.mem_of_getElem? hx)).1))
  have e : residuals pb (msInit q) = residuals pb (s.solve pb (msInit p)) := by
    have hk := msBuild_blocks hb
    refine residuals_forall₂' hk ?_
    rintro f hf b ⟨intr, wp, w, -, -, -, rfl⟩
    have hc := (mem_byCamera hf).1
    simp only [ResBlock.residual, List.map_cons, List.map_nil, eval2, msCost, transformPoint_eq, eC _ hc, dT]
  have wf := Ceres.redirect_wf (c := s) hs (pb := pb) (init := msInit p) (st := s.solve pb (msInit p)) (st' := patched pb (msInit p) (s2.solve pb (msInit q)))
    (fun a ha => by unfold patched; exact if_neg ha) (by
      rw [(cost_of_residuals (patched_residuals pb (msInit p) (s2.solve pb (msInit q)))).1]
      refine le_trans (hs2.descent pb _) ?_
      rw [(cost_of_residuals e).1]
      exact hs.descent pb _)
  obtain ⟨J, hJ⟩ : ∃ J : Ceres Pose6, J = { s.redirect pb (msInit p) (s.solve pb (msInit p)) (patched pb (msInit p) (s2.solve pb (msInit q))) with
    converged := fun _ _ => s2.converged pb (msInit q) } := ⟨_, rfl⟩
  have wfJ : J.WF := by
    rw [hJ]
    exact ⟨wf.frame, wf.descent, wf.order_perm, wf.compute_no_throw⟩
  have hsol : J.solve pb (msInit p) = patched pb (msInit p) (s2.solve pb (msInit q)) := by
    rw [hJ]; exact Ceres.redirect_solve s pb (msInit p) (s.solve pb (msInit p)) _
  have hcs : J.covSolver pb (patched pb (msInit p) (s2.solve pb (msInit q))) 6 = s.covSolver pb (s.solve pb (msInit p)) 6 := by
    rw [hJ]; exact Ceres.redirect_covSolver s pb (msInit p) (s.solve pb (msInit p)) _ 6
  have hr' : multiStatic J p = .ok ⟨s2.converged pb (msInit q), costPerObs pb (msInit p), costPerObs pb (patched pb (msInit p) (s2.solve pb (msInit q))),
      poseCalToEigen (patched pb (msInit p) (s2.solve pb (msInit q)) msTgt),
      (List.range p.baseToCameraGuess.length).map (fun c => (poseCalToEigen (patched pb (msInit p) (s2.solve pb (msInit q)) (msCam c))).inv), cov⟩ := by
    unfold multiStatic
    rw [hb, Res.ok_bind]
    simp only [hsol, hcs]
    rw [hcov, Res.ok_bind, hJ]
  refine ⟨(cost_of_residuals e).2, _, ⟨J, wfJ, hr'⟩, rfl, rfl, (cost_of_residuals (patched_residuals _ _ _)).2, patched_pose hs hs2 _ _ _ dT, ?_⟩
  refine List.map_congr_left fun c hc => ?_
  rw [patched_pose hs hs2 _ _ _ (eC c (List.mem_range.1 hc))]

/-- Calibration of static cameras without wrist poses, started again from its result. If the first camera is fixed, its guess must be
representable, so that the result repeats it. -/
theorem C244_camera_only (p : CoProblem) (h0 : p.baseToTargetGuess ≠ []) (hg : p.fixFirst = true → ∀ g, p.baseToCameraGuess[0]? = some g → Representable g)
    (r r2 : CoResult) (hr : Reaches (fun s => cameraOnly s p) r) (h1 : ∀ t ∈ r.baseToTarget, Representable t) (h2 : ∀ c ∈ r.baseToCamera, Representable c)
    (hr2 : Reaches (fun s => cameraOnly s { p with baseToTargetGuess := r.baseToTarget, baseToCameraGuess := r.baseToCamera }) r2) :
    r2.initialCost = r.finalCost ∧ ∃ r', Reaches (fun s => cameraOnly s p) r' ∧ r'.converged = r2.converged ∧ r'.initialCost = r.initialCost ∧
      r'.finalCost = r2.finalCost ∧ r'.baseToTarget = r2.baseToTarget ∧ r'.baseToCamera = r2.baseToCamera := by
  obtain ⟨s, hs, hr⟩ := hr
  obtain ⟨s2, hs2, hr2⟩ := hr2
  beta_reduce at hr hr2
  obtain ⟨lt, lc⟩ : r.baseToTarget.length = p.baseToTargetGuess.length ∧ r.baseToCamera.length = p.baseToCameraGuess.length := by
    have h := hr
    unfold cameraOnly at h
    obtain ⟨pb, -, h⟩ := (Res.bind_ok_iff _ _ _).1 h
    cases h
    exact ⟨by simp, by simp⟩
  have hfix : p.fixFirst = true → r.baseToCamera.getD 0 1 = p.baseToCameraGuess.getD 0 1 := by
    intro hf
    cases hx : p.baseToCameraGuess[0]? with
    | none =>
      have : r.baseToCamera[0]? = none := by
        rw [List.getElem?_eq_none_iff] at hx ⊢
        omega
      simp [List.getD_eq_getElem?_getD, hx, this]
    | some g => simp [List.getD_eq_getElem?_getD, hx, C39_partial s hs p r hr hf h0 g hx (hg hf g hx)]
  obtain ⟨q, hq⟩ : ∃ q, q = { p with baseToTargetGuess := r.baseToTarget, baseToCameraGuess := r.baseToCamera } := ⟨_, rfl⟩
  rw [← hq] at hr2
  have hqc : q.baseToCameraGuess.length = p.baseToCameraGuess.length := by rw [hq]; exact lc
  have hqt : q.baseToTargetGuess.length = p.baseToTargetGuess.length := by rw [hq]; exact lt
  unfold cameraOnly at hr hr2
  simp only [Res.bind_ok_iff] at hr hr2
  obtain ⟨pb, hb, hr⟩ := hr
  obtain ⟨pb2, hb2, hr2⟩ := hr2
  obtain rfl : pb = pb2 := by
    rw [coBuild_eq hb, coBuild_eq hb2, hqc, hqt]
    have : q.observations = p.observations := by rw [hq]
    rw [this]
    refine List.map_congr_left fun f _ => ?_
    unfold coBlock
    rw [hq]
    simp only
    split
    · rename_i hf
      rw [hf.2, hfix hf.1]
    · rfl
  rw [hqc, hqt] at hr2
  have dT : ∀ i x, r.baseToTarget[i]? = some x → poseCalToEigen (coInit q (coTgt i)) = x := by
    intro i x hx
    have : coInit q (coTgt i) = poseEigenToCal x := by rw [hq]; simp [coInit, coTgt, hx]
    rw [this, (h1 x (List.mem_of_getElem? hx)).roundtrip]
  have dC : ∀ c x, r.baseToCamera[c]? = some x → poseCalToEigen (coInit q (coCam c)) = x.inv := by
    intro c x hx
    have hne : r.baseToTarget ≠ [] := by
      intro h
      rw [h] at lt
      exact h0 (List.length_eq_zero_iff.1 lt.symm)
    have : coInit q (coCam c) = poseEigenToCal x.inv := by
      have h1 : (2 * c + 1) % 2 = 1 := by omega
      have h2 : (2 * c + 1) / 2 = c := by omega
      rw [hq]
      simp [coInit, coCam, h1, h2, hx, hne]
    rw [this, (h2 x (List.mem_of_getElem? hx)).inv.roundtrip]
  cases hr
  cases hr2
  simp only at h1 h2 dT dC ⊢
  have eT : ∀ i, i < p.baseToTargetGuess.length → poseCalToEigen (coInit q (coTgt i)) = poseCalToEigen (s.solve pb (coInit p) (coTgt i)) := by
    intro i hi
    exact dT i _ (by rw [List.getElem?_map, List.getElem?_range hi]; rfl)
  have eC : ∀ c, c < p.baseToCameraGuess.length → poseCalToEigen (coInit q (coCam c)) = poseCalToEigen (s.solve pb (coInit p) (coCam c)) := by
    intro c hc
    have hx : ((List.range p.baseToCameraGuess.length).map fun c => (poseCalToEigen (s.solve pb (coInit p) (coCam c))).inv)[c]? =
        some (poseCalToEigen (s.solve pb (coInit p) (coCam c))).inv := by
      rw [List.getElem?_map, List.getElem?_range hc]; rfl
    rw [dC c _ hx]
    exact Iso.inv_inv (rigid_of_inv ((rigid_iff _).2 (h2 _ (List.mem_of_getElem? hx)).1))
  have e : residuals pb (coInit q) = residuals pb (s.solve pb (coInit p)) := by
    refine residuals_forall₂' (coBuild_blocks hb) ?_
    rintro f hf b ⟨intr, -, ⟨-, -, g, -, rfl⟩ | ⟨-, rfl⟩⟩
    · simp only [ResBlock.residual, List.map_cons, List.map_nil, eval1, coFixedCost, transformPoint_eq, eT _ (mem_byImage hf).2.1]
    · simp only [ResBlock.residual, List.map_cons, List.map_nil, eval2, coFreeCost, transformPoint_eq, eT _ (mem_byImage hf).2.1, eC _ (mem_byImage hf).1]
  have wf := restart_core hs hs2 pb (coInit p) (coInit q) e (s2.converged pb (coInit q))
  have hr' : cameraOnly (Ceres.jump pb (coInit p) (patched pb (coInit p) (s2.solve pb (coInit q))) (s2.converged pb (coInit q))) p =
      .ok ⟨s2.converged pb (coInit q), costPerObs pb (coInit p), costPerObs pb (patched pb (coInit p) (s2.solve pb (coInit q))),
        (List.range p.baseToTargetGuess.length).map (fun i => poseCalToEigen (patched pb (coInit p) (s2.solve pb (coInit q)) (coTgt i))),
        (List.range p.baseToCameraGuess.length).map (fun c => (poseCalToEigen (patched pb (coInit p) (s2.solve pb (coInit q)) (coCam c))).inv)⟩ := by
    unfold cameraOnly
    rw [hb, Res.ok_bind]
    simp only [Ceres.jump_solve]
    rfl
  refine ⟨(cost_of_residuals e).2, _, ⟨_, wf, hr'⟩, rfl, rfl, (cost_of_residuals (patched_residuals _ _ _)).2, ?_, ?_⟩
  · exact List.map_congr_left fun i hi => patched_pose hs hs2 _ _ _ (eT i (List.mem_range.1 hi))
  · refine List.map_congr_left fun c hc => ?_
    rw [patched_pose hs hs2 _ _ _ (eC c (List.mem_range.1 hc))]

/-- The residuals after a correction `K` of all cameras are those of the corrected cameras. -/
theorem woBlock_restart {p q : WoProblem} {K : Iso} (hK : K.IsRigid) (hc : ∀ g ∈ p.baseToCameraGuess, Representable g)
    (hq : q = { p with wristToTargetGuess := q.wristToTargetGuess, baseToCameraGuess := p.baseToCameraGuess.map fun g => K.inv * g })
    (hc' : ∀ g ∈ q.baseToCameraGuess, Representable g) {f : Feature} (hf : f.cam < p.baseToCameraGuess.length) {st st' : Nat → Pose6}
    (h1 : poseCalToEigen (st woCorr) = K * poseCalToEigen (st' woCorr)) (h2 : poseCalToEigen (st woTgt) = poseCalToEigen (st' woTgt)) :
    (woBlock p f).residual st = (woBlock q f).residual st' := by
  obtain ⟨g, hg⟩ : ∃ g, p.baseToCameraGuess[f.cam]? = some g := ⟨_, List.getElem?_eq_getElem hf⟩
  have hg' : q.baseToCameraGuess[f.cam]? = some (K.inv * g) := by rw [hq]; simp [hg]
  have hi : q.intr = p.intr := by rw [hq]
  have hw : q.wristPoses = p.wristPoses := by rw [hq]
  have r1 := hc g (List.mem_of_getElem? hg)
  have r2 := hc' _ (List.mem_of_getElem? hg')
  simp only [woBlock, ResBlock.residual, List.map_cons, List.map_nil, eval2, woCost, getD_of_some hg, getD_of_some hg', hi, hw, transformPoint_eq, h1, h2,
    r1.inv.act, r2.inv.act]
  rw [Iso.mul_inv_rev (Iso.IsRigid.inv hK), Iso.inv_inv hK]
  simp only [Iso.apply_mul]

/-- The common correction of all cameras, started again from its result: the two corrections are the one correction `K`. -/
theorem C244_wrist_only (p : WoProblem) (hc : ∀ g ∈ p.baseToCameraGuess, Representable g)
    (hne : byCamera p.observations p.baseToCameraGuess.length (fun _ => p.wristPoses.length) ≠ [])
    (r r2 : WoResult) (hr : Reaches (fun s => wristOnly s p) r) (h1 : Representable r.wristToTarget) (h2 : ∀ c ∈ r.baseToCamera, Representable c)
    (hr2 : Reaches (fun s => wristOnly s { p with wristToTargetGuess := r.wristToTarget, baseToCameraGuess := r.baseToCamera }) r2)
    (K : Iso) (hK : Representable K) (hKr : r2.baseToCamera = p.baseToCameraGuess.map fun g => K * g) :
    r2.initialCost = r.finalCost ∧ ∃ r', Reaches (fun s => wristOnly s p) r' ∧ r'.converged = r2.converged ∧ r'.initialCost = r.initialCost ∧
      r'.finalCost = r2.finalCost ∧ r'.wristToTarget = r2.wristToTarget ∧ r'.baseToCamera = r2.baseToCamera := by
  obtain ⟨s, hs, hr⟩ := hr
  obtain ⟨s2, hs2, hr2⟩ := hr2
  beta_reduce at hr hr2
  obtain ⟨q, hq⟩ : ∃ q, q = { p with wristToTargetGuess := r.wristToTarget, baseToCameraGuess := r.baseToCamera } := ⟨_, rfl⟩
  rw [← hq] at hr2
  have dT : poseCalToEigen (woInit q woTgt) = r.wristToTarget := by
    rw [hq]
    simpa [woInit, woTgt] using h1.roundtrip
  have dC : poseCalToEigen (woInit q woCorr) = 1 := by
    have : woInit q woCorr = poseEigenToCal 1 := by simp [woInit, woTgt, woCorr]
    rw [this, Representable.one.roundtrip]
  unfold wristOnly at hr hr2
  simp only [Res.bind_ok_iff] at hr hr2
  obtain ⟨pb, hb, hr⟩ := hr
  obtain ⟨pb2, hb2, hr2⟩ := hr2
  obtain ⟨fin, hfin⟩ : ∃ fin, fin = s.solve pb (woInit p) := ⟨_, rfl⟩
  obtain ⟨fin2, hfin2⟩ : ∃ fin2, fin2 = s2.solve pb2 (woInit q) := ⟨_, rfl⟩
  obtain ⟨K1, hK1⟩ : ∃ K1, K1 = poseCalToEigen (fin woCorr) := ⟨_, rfl⟩
  rw [← hfin, ← hK1] at hr
  rw [← hfin2] at hr2
  have hrc : r.baseToCamera = p.baseToCameraGuess.map fun g => K1.inv * g := by cases hr; rfl
  have hrt : r.wristToTarget = poseCalToEigen (fin woTgt) := by cases hr; rfl
  have hq' : q = { p with wristToTargetGuess := q.wristToTargetGuess, baseToCameraGuess := p.baseToCameraGuess.map fun g => K1.inv * g } := by
    rw [hq, hrc]
  have hc' : ∀ g ∈ q.baseToCameraGuess, Representable g := by rw [hq]; exact h2
  obtain ⟨f0, hf0⟩ := List.exists_mem_of_ne_nil _ hne
  obtain ⟨g, hg⟩ : ∃ g, p.baseToCameraGuess[f0.cam]? = some g := ⟨_, List.getElem?_eq_getElem (mem_byCamera hf0).1⟩
  have hgm := List.mem_of_getElem? hg
  have hgr := (hc g hgm).rigid
  have rK1 : K1.IsRigid := by
    apply rigid_of_inv
    have h := (h2 (K1.inv * g) (by rw [hrc]; exact List.mem_map.2 ⟨g, hgm, rfl⟩)).rigid
    have h' := Iso.IsRigid.mul h (Iso.IsRigid.inv hgr)
    rwa [Iso.mul_assoc, Iso.mul_inv hgr, Iso.mul_one] at h'
  have hqg : q.baseToCameraGuess = p.baseToCameraGuess.map fun g => K1.inv * g := by rw [hq, hrc]
  have hKe : K = (poseCalToEigen (fin2 woCorr)).inv * K1.inv := by
    have h : r2.baseToCamera = q.baseToCameraGuess.map fun g => (poseCalToEigen (fin2 woCorr)).inv * g := by cases hr2; rfl
    rw [hKr, hqg, List.map_map] at h
    have h' := List.map_inj_left.1 h g hgm
    simp only [Function.comp] at h'
    have h3 := congrArg (fun x => x * g.inv) h'
    simp only [Iso.mul_assoc, Iso.mul_inv hgr, Iso.mul_one] at h3
    exact h3
  have rK2 : (poseCalToEigen (fin2 woCorr)).IsRigid := by
    apply rigid_of_inv
    have h' := Iso.IsRigid.mul hK.rigid rK1
    rwa [hKe, Iso.mul_assoc, Iso.inv_mul rK1, Iso.mul_one] at h'
  have hKi : K.inv = K1 * poseCalToEigen (fin2 woCorr) := by
    rw [hKe, Iso.mul_inv_rev (Iso.IsRigid.inv rK2), Iso.inv_inv rK1, Iso.inv_inv rK2]
  have hpb := woBuild_eq hb
  have hpb2 := woBuild_eq hb2
  have hobs : q.observations = p.observations ∧ q.wristPoses = p.wristPoses ∧ q.baseToCameraGuess.length = p.baseToCameraGuess.length := by
    rw [hq]; exact ⟨rfl, rfl, by simp only [hrc, List.length_map]⟩
  rw [hobs.1, hobs.2.1, hobs.2.2] at hpb2
  have key : ∀ st st' : Nat → Pose6, poseCalToEigen (st woCorr) = K1 * poseCalToEigen (st' woCorr) → poseCalToEigen (st woTgt) = poseCalToEigen (st' woTgt) →
      residuals pb st = residuals pb2 st' := by
    intro st st' e1 e2
    rw [hpb, hpb2, residuals_map, residuals_map]
    exact flatMap_congr' fun f hf => woBlock_restart rK1 hc hq' hc' (mem_byCamera hf).1 e1 e2
  have e : residuals pb fin = residuals pb2 (woInit q) := key _ _ (by rw [dC, Iso.mul_one, hK1]) (by rw [dT, hrt])
  obtain ⟨end', hend⟩ : ∃ st : Nat → Pose6, st = fun a => if a = woCorr then poseEigenToCal K.inv else if a = woTgt then fin2 woTgt else woInit p a := ⟨_, rfl⟩
  have ec : poseCalToEigen (end' woCorr) = K.inv := by rw [hend]; simp only [if_true]; exact hK.inv.roundtrip
  have et : end' woTgt = fin2 woTgt := by rw [hend]; simp [woCorr, woTgt]
  have e' : residuals pb end' = residuals pb2 fin2 := key _ _ (by rw [ec, hKi]) (by rw [et])
  have hp := usedBlocks_const _ hne (woBlock p) [woCorr, woTgt] (by decide) (fun _ _ => rfl)
  rw [← hpb] at hp
  have wf : (Ceres.jump pb (woInit p) end' (s2.converged pb2 (woInit q))).WF := by
    refine Ceres.jump_wf _ (fun a ha => ?_) ?_
    · have n1 : a ≠ woCorr := fun h => ha (hp.symm.subset (by rw [h]; simp))
      have n2 : a ≠ woTgt := fun h => ha (hp.symm.subset (by rw [h]; simp))
      rw [hend]
      simp only [if_neg n1, if_neg n2]
    · rw [(cost_of_residuals e').1, hfin2]
      refine le_trans (hs2.descent pb2 _) ?_
      rw [← (cost_of_residuals e).1, hfin]
      exact hs.descent pb _
  have hr' : wristOnly (Ceres.jump pb (woInit p) end' (s2.converged pb2 (woInit q))) p =
      .ok ⟨s2.converged pb2 (woInit q), costPerObs pb (woInit p), costPerObs pb end', poseCalToEigen (end' woTgt),
        p.baseToCameraGuess.map fun g => (poseCalToEigen (end' woCorr)).inv * g⟩ := by
    unfold wristOnly
    rw [hb, Res.ok_bind]
    simp only [Ceres.jump_solve]
    rfl
  cases hr
  cases hr2
  refine ⟨(cost_of_residuals e).2.symm, _, ⟨_, wf, hr'⟩, rfl, rfl, (cost_of_residuals e').2, ?_, ?_⟩
  · simp only [et]
  · simp only at hKr ⊢
    rw [hKr, ec, Iso.inv_inv hK.rigid]

/-! ## Examples: a first run, and a second from its result -/

example : ∃ (p : PnPProblem Corr2) (r r2 : PnPResult), Reaches (fun s => pnp2 s p) r ∧ Reaches (fun s => pnp2 s { p with guess := r.cameraToTarget }) r2 := by
  obtain ⟨p, hp⟩ : ∃ p : PnPProblem Corr2, p = ⟨⟨1, 1, 0, 0⟩, [⟨⟨5, 0⟩, ⟨1, 0, 2⟩⟩], 1, "camera_to_target"⟩ := ⟨_, rfl⟩
  obtain ⟨r, h⟩ := pnp2_id_returns p (by rw [hp]; simp)
  obtain ⟨r2, h2⟩ := pnp2_id_returns { p with guess := r.cameraToTarget } (by rw [hp]; simp)
  exact ⟨p, r, r2, ⟨_, idCeres_wf V3, h⟩, ⟨_, idCeres_wf V3, h2⟩⟩

example : ∃ (p : PnPProblem Corr3) (r r2 : PnPResult), Reaches (fun s => pnp3 s p) r ∧ Reaches (fun s => pnp3 s { p with guess := r.cameraToTarget }) r2 := by
  obtain ⟨p, hp⟩ : ∃ p : PnPProblem Corr3, p = ⟨⟨1, 1, 0, 0⟩, [⟨⟨5, 0, 0⟩, ⟨1, 0, 2⟩⟩], 1, "camera_to_target"⟩ := ⟨_, rfl⟩
  obtain ⟨r, h⟩ := pnp3_id_returns p (by rw [hp]; simp)
  obtain ⟨r2, h2⟩ := pnp3_id_returns { p with guess := r.cameraToTarget } (by rw [hp]; simp)
  exact ⟨p, r, r2, ⟨_, idCeres_wf V3, h⟩, ⟨_, idCeres_wf V3, h2⟩⟩

example : ∃ (p : McPnpProblem) (r r2 : McPnpResult), Reaches (fun s => mcPnp s p) r ∧ Representable r.baseToTarget ∧
    Reaches (fun s => mcPnp s { p with guess := r.baseToTarget }) r2 := by
  obtain ⟨p, hp⟩ : ∃ p : McPnpProblem, p = ⟨[⟨1, 1, 0, 0⟩], [1], [[⟨⟨5, 0⟩, ⟨1, 0, 2⟩⟩]], 1⟩ := ⟨_, rfl⟩
  obtain ⟨r, h⟩ := C125_returns (idCeres Pose6) p (by rw [hp]; simp) (by rw [hp]; simp)
  obtain ⟨r2, h2⟩ := C125_returns (idCeres Pose6) { p with guess := r.baseToTarget } (by rw [hp]; simp) (by rw [hp]; simp)
  refine ⟨p, r, r2, ⟨_, idCeres_wf Pose6, h⟩, ?_, ⟨_, idCeres_wf Pose6, h2⟩⟩
  rw [C34_multi_camera_pnp (idCeres Pose6) p r (fun _ _ => rfl) (by rw [hp]; exact .one) h, hp]
  exact .one

example : ∃ (p : CircleFitProblem) (r r2 : CircleFitResult), Reaches (fun s => circleFit s p) r ∧
    Reaches (fun s => circleFit s { p with xInitial := r.xCenter, yInitial := r.yCenter, radiusInitial := r.radius }) r2 := by
  obtain ⟨p, hp⟩ : ∃ p : CircleFitProblem, p = ⟨[⟨2, 0⟩, ⟨0, 3⟩], 0, 0, 1⟩ := ⟨_, rfl⟩
  obtain ⟨r, h⟩ := circle_id_returns p (by rw [hp]; simp)
  obtain ⟨r2, h2⟩ := circle_id_returns { p with xInitial := r.xCenter, yInitial := r.yCenter, radiusInitial := r.radius } (by rw [hp]; simp)
  exact ⟨p, r, r2, ⟨_, idCeres_wf Mem, h⟩, ⟨_, idCeres_wf Mem, h2⟩⟩

example : ∃ (p : HandEyeProblem Corr2) (r r2 : HandEyeResult), p.labels.length = 6 ∧ Reaches (fun s => handEye2 s p) r ∧
    Representable r.cameraMountToCamera ∧ Representable r.targetMountToTarget ∧
    Reaches (fun s => handEye2 s { p with cameraGuess := r.cameraMountToCamera, targetGuess := r.targetMountToTarget }) r2 := by
  obtain ⟨r, h⟩ := exProblem_returns ⟨3, 0⟩
  obtain ⟨p, hp⟩ : ∃ p, p = exProblem 1 1 ⟨3, 0⟩ ⟨0, 0, 1⟩ 1 1 := ⟨_, rfl⟩
  rw [← hp] at h
  have hc : p.cameraGuess = 1 := by rw [hp]; rfl
  have ht : p.targetGuess = 1 := by rw [hp]; rfl
  obtain ⟨h1, h2⟩ := C34_hand_eye_2d (idCeres Pose6) p r (fun _ _ => rfl) (by rw [hc]; exact .one) (by rw [ht]; exact .one) h
  refine ⟨p, r, r, by rw [hp]; rfl, ⟨_, idCeres_wf Pose6, h⟩, by rw [h1, hc]; exact .one, by rw [h2, ht]; exact .one, idCeres Pose6, idCeres_wf Pose6, ?_⟩
  rw [h1, h2]
  exact h

example : ∃ (p : HandEyeProblem Corr3) (r r2 : HandEyeResult), p.labels.length = 6 ∧ Reaches (fun s => handEye3 s p) r ∧
    Representable r.cameraMountToCamera ∧ Representable r.targetMountToTarget ∧
    Reaches (fun s => handEye3 s { p with cameraGuess := r.cameraMountToCamera, targetGuess := r.targetMountToTarget }) r2 := by
  obtain ⟨p, hp⟩ : ∃ p : HandEyeProblem Corr3, p = { observations := [⟨[⟨⟨5, 0, 0⟩, ⟨1, 0, 2⟩⟩], 1, 1⟩], intr := ⟨1, 1, 0, 0⟩, targetGuess := 1, cameraGuess := 1, labelCamera := "c", labelTarget := "t" } :=
    ⟨_, rfl⟩
  have hc : p.cameraGuess = 1 := by rw [hp]
  have ht : p.targetGuess = 1 := by rw [hp]
  have hlen : p.labels.length = 6 := by rw [hp]; rfl
  obtain ⟨r, h⟩ : ∃ r, handEye3 (idCeres Pose6) p = .ok r := by
    unfold handEye3
    rw [heBuild3_eq]
    exact heFinish_id_returns p hlen _ (by rw [hp]; simp [features]) _ (fun _ _ => rfl)
  obtain ⟨h1, h2⟩ := C34_hand_eye_3d (idCeres Pose6) p r (fun _ _ => rfl) (by rw [hc]; exact .one) (by rw [ht]; exact .one) h
  refine ⟨p, r, r, hlen, ⟨_, idCeres_wf Pose6, h⟩, by rw [h1, hc]; exact .one, by rw [h2, ht]; exact .one, idCeres Pose6, idCeres_wf Pose6, ?_⟩
  rw [h1, h2]
  exact h

example : ∃ (p : MsProblem) (r r2 : MsResult), Reaches (fun s => multiStatic s p) r ∧ Representable r.wristToTarget ∧
    (∀ c ∈ r.baseToCamera, Representable c) ∧
    Reaches (fun s => multiStatic s { p with wristToTargetGuess := r.wristToTarget, baseToCameraGuess := r.baseToCamera }) r2 := by
  obtain ⟨r, h⟩ := msEx_returns
  obtain ⟨p, hp⟩ : ∃ p : MsProblem, p = ⟨[⟨1, 1, 0, 0⟩], [[1]], [[[⟨⟨0, 0⟩, ⟨0, 0, 1⟩⟩]]], 1, [1], "t", "c"⟩ := ⟨_, rfl⟩
  rw [← hp] at h
  have hc : p.baseToCameraGuess = [1] := by rw [hp]
  have ht : p.wristToTargetGuess = 1 := by rw [hp]
  have hc' : ∀ g ∈ p.baseToCameraGuess, Representable g := by
    rw [hc]; intro g hg; rw [List.mem_singleton.1 hg]; exact .one
  obtain ⟨h1, h2⟩ := C34_multi_static (idCeres Pose6) p r (fun _ _ => rfl) (by rw [ht]; exact .one) hc' h
  refine ⟨p, r, r, ⟨_, idCeres_wf Pose6, h⟩, by rw [h1, ht]; exact .one, by rw [h2]; exact hc', idCeres Pose6, idCeres_wf Pose6, ?_⟩
  rw [h1, h2]
  exact h

example : ∃ (p : CoProblem) (r r2 : CoResult), p.baseToTargetGuess ≠ [] ∧ p.fixFirst = true ∧
    (∀ g, p.baseToCameraGuess[0]? = some g → Representable g) ∧ Reaches (fun s => cameraOnly s p) r ∧
    (∀ t ∈ r.baseToTarget, Representable t) ∧ (∀ c ∈ r.baseToCamera, Representable c) ∧
    Reaches (fun s => cameraOnly s { p with baseToTargetGuess := r.baseToTarget, baseToCameraGuess := r.baseToCamera }) r2 := by
  obtain ⟨p, hp⟩ : ∃ p : CoProblem, p = ⟨true, [⟨1, 1, 0, 0⟩, ⟨1, 1, 0, 0⟩], [1], [[[⟨⟨0, 0⟩, ⟨0, 0, 1⟩⟩]], [[⟨⟨1, 0⟩, ⟨0, 0, 1⟩⟩]]], [1, 1]⟩ := ⟨_, rfl⟩
  obtain ⟨r, h⟩ : ∃ r, cameraOnly (idCeres Pose6) p = .ok r := by rw [hp]; exact ⟨_, rfl⟩
  have hc : ∀ g ∈ p.baseToCameraGuess, Representable g := by
    rw [hp]; intro g hg
    simp only [List.mem_cons, List.not_mem_nil, or_false, or_self] at hg
    rw [hg]; exact .one
  have ht : ∀ g ∈ p.baseToTargetGuess, Representable g := by
    rw [hp]; intro g hg
    rw [List.mem_singleton.1 hg]; exact .one
  obtain ⟨h1, h2⟩ := C34_camera_only (idCeres Pose6) p r (fun _ _ => rfl) (by rw [hp]; simp) ht hc h
  refine ⟨p, r, r, by rw [hp]; simp, by rw [hp], fun g hg => hc g (List.mem_of_getElem? hg), ⟨_, idCeres_wf Pose6, h⟩, by rw [h1]; exact ht, by rw [h2]; exact hc,
    idCeres Pose6, idCeres_wf Pose6, ?_⟩
  rw [h1, h2]
  exact h

example : ∃ (p : WoProblem) (r r2 : WoResult) (K : Iso), (∀ g ∈ p.baseToCameraGuess, Representable g) ∧
    byCamera p.observations p.baseToCameraGuess.length (fun _ => p.wristPoses.length) ≠ [] ∧ Reaches (fun s => wristOnly s p) r ∧
    Representable r.wristToTarget ∧ (∀ c ∈ r.baseToCamera, Representable c) ∧
    Reaches (fun s => wristOnly s { p with wristToTargetGuess := r.wristToTarget, baseToCameraGuess := r.baseToCamera }) r2 ∧
    Representable K ∧ r2.baseToCamera = p.baseToCameraGuess.map fun g => K * g := by
  obtain ⟨p, hp⟩ : ∃ p : WoProblem, p = ⟨[⟨1, 1, 0, 0⟩], [1], [[[⟨⟨0, 0⟩, ⟨0, 0, 1⟩⟩]]], 1, [1]⟩ := ⟨_, rfl⟩
  obtain ⟨r, h⟩ : ∃ r, wristOnly (idCeres Pose6) p = .ok r := by rw [hp]; exact ⟨_, rfl⟩
  have hc : ∀ g ∈ p.baseToCameraGuess, Representable g := by
    rw [hp]; intro g hg
    rw [List.mem_singleton.1 hg]; exact .one
  obtain ⟨h1, h2⟩ := C34_wrist_only (idCeres Pose6) p r (fun _ _ => rfl) (by rw [hp]; exact .one) h
  refine ⟨p, r, r, 1, hc, by rw [hp]; simp [byCamera, featuresOf], ⟨_, idCeres_wf Pose6, h⟩, by rw [h1, hp]; exact .one, by rw [h2]; exact hc,
    ⟨idCeres Pose6, idCeres_wf Pose6, ?_⟩, .one, by rw [h2]; simp [Iso.one_mul]⟩
  rw [h1, h2]
  exact h

end RCT
