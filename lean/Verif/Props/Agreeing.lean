import Verif.Props.OneImage

/-! # C243 Data that a result explains perfectly do not take it away -/

namespace RCT

open Spec

theorem sum_squares_zero {l : List ℝ} (h : ∀ x ∈ l, x = 0) : (l.map fun r => r * r).sum = 0 := by
  induction l with
  | nil => rfl
  | cons a l ih =>
    rw [List.map_cons, List.sum_cons, ih fun x hx => h x (List.mem_cons_of_mem _ hx), h a List.mem_cons_self]
    ring

theorem cost_extend {β : Type} (a b : List (ResBlock β)) (st : Nat → β) : cost (a ++ b) st = cost a st + cost b st := by
  unfold cost residuals
  rw [List.flatMap_append, List.map_append, List.sum_append, add_div]

theorem residuals_count {α β : Type} (l : List α) (g : α → ResBlock β) {d : Nat} (st : Nat → β) (hd : ∀ a, ((g a).residual st).length = d) :
    (residuals (l.map g) st).length = d * l.length := by
  rw [residuals_map]
  induction l with
  | nil => rfl
  | cons a l ih => rw [List.flatMap_cons, List.length_append, ih, hd, List.length_cons]; ring

/-- A solver may end at the same state if data are added whose residuals are zero there. -/
theorem extend_core {α β : Type} {s : Ceres β} (hs : s.WF) (l e : List α) (hl : l ≠ []) (g : α → ResBlock β) {d : Nat} (d0 : d ≠ 0)
    (hd : ∀ st a, ((g a).residual st).length = d) (init : Nat → β) (conv : Bool)
    (hz : ∀ a ∈ e, ∀ x ∈ (g a).residual (s.solve (l.map g) init), x = 0) :
    (Ceres.jump ((l ++ e).map g) init (s.solve (l.map g) init) conv).WF ∧
      ∃ v, costPerObs (l.map g) (s.solve (l.map g) init) = some v ∧
        costPerObs ((l ++ e).map g) (s.solve (l.map g) init) = some (v * l.length / (l.length + e.length)) := by
  obtain ⟨fin, hfin⟩ : ∃ fin, fin = s.solve (l.map g) init := ⟨_, rfl⟩
  have hs1 := hs.descent (l.map g) init
  have hs2 := hs.frame (l.map g) init
  rw [← hfin] at hz hs1 hs2 ⊢
  have h0 : cost (e.map g) fin = 0 := by
    unfold cost
    rw [residuals_map, sum_squares_zero, zero_div]
    intro x hx
    obtain ⟨a, ha, hx⟩ := List.mem_flatMap.1 hx
    exact hz a ha x hx
  have h1 : cost ((l ++ e).map g) fin = cost (l.map g) fin := by rw [List.map_append, cost_extend, h0, add_zero]
  refine ⟨Ceres.jump_wf _ (fun a ha => hs2 a fun hm => ha ?_) ?_, ?_⟩
  · rw [mem_usedBlocks] at hm ⊢
    obtain ⟨b, hb, hab⟩ := hm
    exact ⟨b, by rw [List.map_append]; exact List.mem_append_left _ hb, hab⟩
  · rw [h1, List.map_append, cost_extend]
    exact le_trans hs1 (le_add_of_nonneg_right (cost_nonneg _ _))
  · have hlen : (l.length : ℝ) ≠ 0 := by exact_mod_cast (List.length_pos_of_ne_nil hl).ne'
    have hd' : (d : ℝ) ≠ 0 := by exact_mod_cast d0
    have hsum : (l.length : ℝ) + e.length ≠ 0 := by
      have : (0 : ℝ) < l.length := by exact_mod_cast List.length_pos_of_ne_nil hl
      positivity
    have c1 := residuals_count l g fin (hd fin)
    have c2 := residuals_count (l ++ e) g fin (hd fin)
    refine ⟨cost (l.map g) fin / (d * l.length), ?_, ?_⟩
    · unfold costPerObs
      rw [c1, if_neg (Nat.mul_ne_zero d0 (List.length_pos_of_ne_nil hl).ne')]
      push_cast; rfl
    · unfold costPerObs
      rw [c2, if_neg (Nat.mul_ne_zero d0 (by simp [hl])), h1, List.length_append]
      congr 1
      push_cast
      field_simp

/-! ## PnP -/

theorem pnpFinish_extend {κ : Type} (p p' : PnPProblem κ) (hg : p.guess = p'.guess) {l e : List κ} (hl : l ≠ []) (g : κ → ResBlock V3) {d : Nat}
    (d0 : d ≠ 0) (hd : ∀ st a, ((g a).residual st).length = d) (hb : ∀ a, (g a).blocks = [pnpRot, pnpTrans]) {s : Ceres V3} (hs : s.WF)
    {r : PnPResult} (hr : pnpFinish s p (l.map g) = .ok r)
    (hz : ∀ st : Nat → V3, pnpTransform (st pnpRot) (st pnpTrans) = r.cameraToTarget → ∀ a ∈ e, ∀ x ∈ (g a).residual st, x = 0) :
    ∃ s' : Ceres V3, s'.WF ∧ ∃ r', pnpFinish s' p' ((l ++ e).map g) = .ok r' ∧ r'.converged = r.converged ∧
      r'.cameraToTarget = r.cameraToTarget ∧
      ∃ v, r.finalCost = some v ∧ r'.finalCost = some (v * l.length / (l.length + e.length)) := by
  unfold pnpFinish at hr
  simp only [Res.bind_ok_iff] at hr
  obtain ⟨cov, -, hr⟩ := hr
  cases hr
  simp only at hz ⊢
  obtain ⟨wf, v, v1, v2⟩ := extend_core hs l e hl g d0 hd (pnpInit p.guess) (s.converged (l.map g) (pnpInit p.guess)) (hz _ rfl)
  obtain ⟨r', hr'⟩ := pnpFinish_returns (Ceres.jump ((l ++ e).map g) (pnpInit p.guess) (s.solve (l.map g) (pnpInit p.guess))
    (s.converged (l.map g) (pnpInit p.guess))) p' (l ++ e) (by simp [hl]) g (fun a _ => hb a) rfl rfl
  refine ⟨_, wf, r', hr', ?_⟩
  unfold pnpFinish at hr'
  rw [← hg] at hr'
  simp only [Res.bind_ok_iff, Ceres.jump_solve] at hr'
  obtain ⟨cov', -, hr'⟩ := hr'
  cases hr'
  exact ⟨rfl, rfl, v, v1, v2⟩

/-- PnP: adding correspondences that the reported pose explains perfectly (in front of the camera) leaves the pose possible; the final cost is
averaged over more data. -/
theorem C243_pnp (p : PnPProblem Corr2) (e : List Corr2) (r : PnPResult) (hr : Reaches (fun s => pnp2 s p) r)
    (hf : ClearlyInFront r.cameraToTarget e) (he : ∀ k ∈ e, pinhole p.intr (r.cameraToTarget.apply k.inTarget) = k.inImage) :
    ∃ r', Reaches (fun s => pnp2 s { p with correspondences := p.correspondences ++ e }) r' ∧ r'.converged = r.converged ∧
      r'.cameraToTarget = r.cameraToTarget ∧
      ∃ v, r.finalCost = some v ∧ r'.finalCost = some (v * p.correspondences.length / (p.correspondences.length + e.length)) := by
  obtain ⟨s, hs, hr⟩ := hr
  beta_reduce at hr
  have hne : p.correspondences ≠ [] := by
    intro h
    rw [pnp2_empty s p h] at hr
    cases hr
  unfold pnp2 pnpBuild2 at hr
  obtain ⟨s', wf, r', hr', h⟩ := pnpFinish_extend p { p with correspondences := p.correspondences ++ e } rfl (e := e) hne
    (fun c => ⟨[pnpRot, pnpTrans], evalV2 (pnpCost2 p.intr c.inTarget c.inImage)⟩) (d := 2) (by decide) (fun _ _ => rfl) (fun _ => rfl) hs hr
    (by
      intro st hst a ha x hx
      have h1 := pnpBuild2_residuals { p with correspondences := [a] } st r.cameraToTarget hst (by
        intro c hc
        rw [List.mem_singleton.1 hc]
        exact hf a ha)
      have hx' : x ∈ residuals (pnpBuild2 { p with correspondences := [a] }) st := by
        unfold pnpBuild2
        rw [residuals_map]
        exact List.mem_flatMap.2 ⟨a, List.mem_singleton.2 rfl, hx⟩
      rw [h1] at hx'
      simp only [pixelErrors, List.flatMap_cons, List.flatMap_nil, List.append_nil, he a ha, diff2, sub_self, List.mem_cons, List.not_mem_nil,
        or_false, or_self] at hx'
      exact hx')
  exact ⟨r', ⟨s', wf, hr'⟩, h⟩

theorem C243_pnp_3d (p : PnPProblem Corr3) (e : List Corr3) (r : PnPResult) (hr : Reaches (fun s => pnp3 s p) r)
    (he : ∀ k ∈ e, r.cameraToTarget.apply k.inTarget = k.inImage) :
    ∃ r', Reaches (fun s => pnp3 s { p with correspondences := p.correspondences ++ e }) r' ∧ r'.converged = r.converged ∧
      r'.cameraToTarget = r.cameraToTarget ∧
      ∃ v, r.finalCost = some v ∧ r'.finalCost = some (v * p.correspondences.length / (p.correspondences.length + e.length)) := by
  obtain ⟨s, hs, hr⟩ := hr
  beta_reduce at hr
  have hne : p.correspondences ≠ [] := by
    intro h
    rw [pnp3_empty s p h] at hr
    cases hr
  unfold pnp3 pnpBuild3 at hr
  obtain ⟨s', wf, r', hr', h⟩ := pnpFinish_extend p { p with correspondences := p.correspondences ++ e } rfl (e := e) hne
    (fun c => ⟨[pnpRot, pnpTrans], evalV2 (pnpCost3 c.inTarget c.inImage)⟩) (d := 3) (by decide) (fun _ _ => rfl) (fun _ => rfl) hs hr
    (by
      intro st hst a ha x hx
      simp only [ResBlock.residual, List.map_cons, List.map_nil, evalV2, pnpCost3, hst, he a ha, sub_self, List.mem_cons, List.not_mem_nil,
        or_false, or_self] at hx
      exact hx)
  exact ⟨r', ⟨s', wf, hr'⟩, h⟩

/-! ## Circle fit -/

/-- Circle fit: the same for points on the reported circle. -/
theorem C243_circle (p : CircleFitProblem) (e : List V2) (r : CircleFitResult) (hr : Reaches (fun s => circleFit s p) r)
    (he : ∀ o ∈ e, (o.x - r.xCenter) ^ 2 + (o.y - r.yCenter) ^ 2 = r.radius ^ 2) :
    ∃ r', Reaches (fun s => circleFit s { p with observations := p.observations ++ e }) r' ∧ r'.converged = r.converged ∧
      r'.xCenter = r.xCenter ∧ r'.yCenter = r.yCenter ∧ r'.radius = r.radius ∧
      ∃ v, r.finalCost = some v ∧ r'.finalCost = some (v * p.observations.length / (p.observations.length + e.length)) := by
  obtain ⟨s, hs, hr⟩ := hr
  beta_reduce at hr
  obtain ⟨q, hq⟩ : ∃ q, q = { p with observations := p.observations ++ e } := ⟨_, rfl⟩
  rw [← hq]
  unfold circleFit at hr
  simp only [Res.bind_ok_iff] at hr
  obtain ⟨cov, hcov, hr⟩ := hr
  have hne : p.observations ≠ [] := by
    intro h
    have hs1 := (C26_returns _ _ _ _ _ hcov).1
    unfold circleBuild at hs1
    rw [h, List.map_nil, (hs.order_perm []).length_eq, usedBlocks_nil] at hs1
    exact absurd (show (1 : Nat) = 0 from hs1) (by decide)
  cases hr
  simp only at he ⊢
  obtain ⟨wf, v, v1, v2⟩ := extend_core hs p.observations e hne (fun o => (⟨[0], evalMem1 (circleCost o)⟩ : ResBlock Mem)) (d := 1) (by decide)
    (fun _ _ => rfl) (circleInit p) (s.converged (circleBuild p) (circleInit p)) (by
      intro a ha x hx
      have := he a ha
      unfold circleBuild at this
      simp only [ResBlock.residual, List.map_cons, List.map_nil, evalMem1, circleCost, List.mem_cons, List.not_mem_nil, or_false] at hx
      rw [hx]
      linear_combination -this)
  obtain ⟨fin, hfin⟩ : ∃ fin, fin = s.solve (circleBuild p) (circleInit p) := ⟨_, rfl⟩
  have hpb : ((p.observations ++ e).map fun o => (⟨[0], evalMem1 (circleCost o)⟩ : ResBlock Mem)) = circleBuild q := by rw [hq]; rfl
  have hin : circleInit p = circleInit q := by rw [hq]; rfl
  rw [hpb] at wf v2
  change costPerObs (circleBuild p) (s.solve (circleBuild p) (circleInit p)) = _ at v1
  change costPerObs (circleBuild q) (s.solve (circleBuild p) (circleInit p)) = _ at v2
  change (Ceres.jump (circleBuild q) (circleInit p) (s.solve (circleBuild p) (circleInit p)) (s.converged (circleBuild p) (circleInit p))).WF at wf
  rw [← hfin] at v1 v2 wf ⊢
  have hu : (usedBlocks (circleBuild q)).Perm [0] :=
    usedBlocks_const q.observations (by rw [hq]; simp [hne]) _ _ (by decide) (fun _ _ => rfl)
  obtain ⟨J, hJ⟩ : ∃ J, J = Ceres.jump (circleBuild q) (circleInit p) fin (s.converged (circleBuild p) (circleInit p)) := ⟨_, rfl⟩
  have hsol : J.solve (circleBuild q) (circleInit q) = fin := by rw [hJ, ← hin]; exact Ceres.jump_solve _ _ _ _
  obtain ⟨cov', hc'⟩ := computeCovariance_returns (cs := J.covSolver (circleBuild q) fin 3) (blocks := J.order (circleBuild q))
    (names := SMap.insert [] 0 circleLabels) (masks := [])
    (by rw [hJ]; show SMap.size _ = (usedBlocks _).length; rw [hu.length_eq]; rfl)
    (by
      intro b hb
      have hb' : b ∈ usedBlocks (circleBuild q) := by rw [hJ] at hb; exact hb
      have h0 := hu.subset hb'
      simp only [List.mem_singleton] at h0
      subst h0
      exact ⟨circleLabels, by rw [SMap.find_insert, if_pos rfl], by simp [Ceres.covSolver, hb', circleLabels]⟩) (by rw [hJ]; rfl) (by rw [hJ]; rfl)
  rw [← hJ] at wf
  have hr' : circleFit J q = .ok ⟨s.converged (circleBuild p) (circleInit p), costPerObs (circleBuild q) (circleInit q), costPerObs (circleBuild q) fin, cov',
      fin 0 0, fin 0 1, fin 0 2 ^ 2⟩ := by
    unfold circleFit
    simp only
    rw [hsol, hc', Res.ok_bind, hJ]
    rfl
  exact ⟨_, ⟨J, wf, hr'⟩, rfl, rfl, rfl, rfl, v, v1, v2⟩

/-! ## PnP with several cameras -/

theorem getD_left {α : Type} (l l' : List α) (d : α) {n : Nat} (h : n < l.length) : (l ++ l').getD n d = l.getD n d := by
  simp [List.getD_eq_getElem?_getD, List.getElem?_append_left h]

theorem getD_last {α : Type} (l : List α) (a d : α) {n : Nat} (h : n = l.length) : (l ++ [a]).getD n d = a := by
  subst h
  simp [List.getD_eq_getElem?_getD]

/-- PnP with several cameras: the same for one more camera that sees the target where the result puts it. -/
theorem C243_multi_pnp (p : McPnpProblem) (h1 : p.intr.length = p.baseToCamera.length) (h2 : p.observations.length = p.baseToCamera.length)
    (hne : oneImage p.observations p.baseToCamera.length ≠ []) (i : Intr) (c : Iso) (hc : Representable c) (ks : List Corr2) (r : McPnpResult)
    (hr : Reaches (fun s => mcPnp s p) r) (hf : ∀ k ∈ ks, 0 < (c.inv.apply (r.baseToTarget.apply k.inTarget)).z)
    (he : ∀ k ∈ ks, pinhole i (c.inv.apply (r.baseToTarget.apply k.inTarget)) = k.inImage) :
    ∃ r', Reaches (fun s => mcPnp s ⟨p.intr ++ [i], p.baseToCamera ++ [c], p.observations ++ [ks], p.guess⟩) r' ∧ r'.converged = r.converged ∧
      r'.baseToTarget = r.baseToTarget ∧
      ∃ v, r.finalCost = some v ∧ r'.finalCost = some (v * (oneImage p.observations p.baseToCamera.length).length /
        ((oneImage p.observations p.baseToCamera.length).length + ks.length)) := by
  obtain ⟨s, hs, hr⟩ := hr
  beta_reduce at hr
  obtain ⟨q, hq⟩ : ∃ q : McPnpProblem, q = ⟨p.intr ++ [i], p.baseToCamera ++ [c], p.observations ++ [ks], p.guess⟩ := ⟨_, rfl⟩
  rw [← hq]
  obtain ⟨pb, hb⟩ := mcPnp_built (p := p) h1.ge h2.ge
  obtain ⟨pb', hb'⟩ := mcPnp_built (p := q) (by rw [hq]; simp [h1]) (by rw [hq]; simp [h2])
  obtain ⟨n, hn⟩ : ∃ n, n = p.baseToCamera.length := ⟨_, rfl⟩
  have hl : oneImage q.observations q.baseToCamera.length = oneImage p.observations p.baseToCamera.length ++ ks.map fun k => ⟨n, 0, k⟩ := by
    rw [hq]
    unfold oneImage
    simp only [List.length_append, List.length_cons, List.length_nil, zero_add]
    rw [List.range_succ, List.flatMap_append]
    congr 1
    · refine List.flatMap_congr fun a ha => ?_
      have ha := List.mem_range.1 ha
      rw [getD_left _ _ _ (by omega)]
    · rw [List.flatMap_singleton, getD_last _ _ _ h2.symm, hn]
  have hpb : pb = (oneImage p.observations p.baseToCamera.length).map (mcPnpBlock q) := by
    rw [mcPnpBuild_eq hb]
    refine List.map_congr_left fun f hf => ?_
    unfold oneImage at hf
    obtain ⟨a, ha, hk⟩ := List.mem_flatMap.1 hf
    obtain ⟨k, -, rfl⟩ := List.mem_map.1 hk
    have ha := List.mem_range.1 ha
    unfold mcPnpBlock
    rw [hq]
    simp only
    rw [getD_left _ _ _ (by omega), getD_left _ _ _ ha]
  have hpb' := mcPnpBuild_eq hb'
  rw [hl] at hpb'
  unfold mcPnp at hr
  rw [hb, Res.ok_bind] at hr
  cases hr
  simp only at hf he ⊢
  rw [hpb] at hf he ⊢
  obtain ⟨wf, v, v1, v2⟩ := extend_core hs (oneImage p.observations p.baseToCamera.length) (ks.map fun k => ⟨n, 0, k⟩) hne (mcPnpBlock q) (d := 2)
    (by decide) (fun _ _ => rfl) (fun _ => poseEigenToCal p.guess)
    (s.converged ((oneImage p.observations p.baseToCamera.length).map (mcPnpBlock q)) fun _ => poseEigenToCal p.guess) (by
      intro a ha x hx
      obtain ⟨k, hk, rfl⟩ := List.mem_map.1 ha
      have e1 : q.intr.getD n ⟨0, 0, 0, 0⟩ = i := by
        rw [hq]; exact getD_last _ _ _ (by omega)
      have e2 : q.baseToCamera.getD n 1 = c := by
        rw [hq]; exact getD_last _ _ _ (by omega)
      have h3 := he k hk
      have h4 := hf k hk
      simp only [ResBlock.residual, mcPnpBlock, e1, e2, List.map_cons, List.map_nil, eval1, mcPnpCost, transformPoint_eq, hc.inv.act,
        projectPoint_eq_pinhole (ne_of_gt h4), h3, sub_self, List.mem_cons, List.not_mem_nil, or_false, or_self] at hx
      exact hx)
  rw [← hpb'] at wf v2
  rw [List.length_map] at v2
  have hr' : mcPnp (Ceres.jump pb' (fun _ => poseEigenToCal p.guess) (s.solve ((oneImage p.observations p.baseToCamera.length).map (mcPnpBlock q))
      fun _ => poseEigenToCal p.guess) (s.converged ((oneImage p.observations p.baseToCamera.length).map (mcPnpBlock q)) fun _ => poseEigenToCal p.guess)) q =
      .ok ⟨s.converged ((oneImage p.observations p.baseToCamera.length).map (mcPnpBlock q)) fun _ => poseEigenToCal p.guess,
        costPerObs pb' fun _ => poseEigenToCal p.guess, costPerObs pb' (s.solve ((oneImage p.observations p.baseToCamera.length).map (mcPnpBlock q))
          fun _ => poseEigenToCal p.guess), poseCalToEigen (s.solve ((oneImage p.observations p.baseToCamera.length).map (mcPnpBlock q))
          (fun _ => poseEigenToCal p.guess) 0)⟩ := by
    unfold mcPnp
    have hg : q.guess = p.guess := by rw [hq]
    rw [hb', Res.ok_bind, hg]
    simp only [Ceres.jump_solve]
    rfl
  exact ⟨_, ⟨_, wf, hr'⟩, rfl, rfl, v, v1, v2⟩

/-! ## Hand-eye calibration -/

theorem heFinish_extend {κ α : Type} (p p' : HandEyeProblem κ) (hi : heInit p = heInit p') (hlen : p'.labels.length = 6) {l e : List α} (g : α → ResBlock Pose6) {d : Nat}
    (d0 : d ≠ 0) (hd : ∀ st a, ((g a).residual st).length = d) (hb : ∀ a, (g a).blocks = [heCam, heTgt]) {s : Ceres Pose6} (hs : s.WF)
    {r : HandEyeResult} (hr : heFinish s p (l.map g) = .ok r) (hrig : RigidMotion r.cameraMountToCamera)
    (hz : ∀ st : Nat → Pose6, poseCalToEigen (st heCam) = r.cameraMountToCamera.inv → poseCalToEigen (st heTgt) = r.targetMountToTarget →
      ∀ a ∈ e, ∀ x ∈ (g a).residual st, x = 0) :
    ∃ s' : Ceres Pose6, s'.WF ∧ ∃ r', heFinish s' p' ((l ++ e).map g) = .ok r' ∧ r'.converged = r.converged ∧
      r'.cameraMountToCamera = r.cameraMountToCamera ∧ r'.targetMountToTarget = r.targetMountToTarget ∧
      ∃ v, r.finalCost = some v ∧ r'.finalCost = some (v * l.length / (l.length + e.length)) := by
  unfold heFinish at hr
  simp only [Res.bind_ok_iff] at hr
  obtain ⟨cov, hcov, hr⟩ := hr
  have hl : l ≠ [] := by
    rintro rfl
    have hs1 := (C26_returns _ _ _ _ _ hcov).1
    rw [List.map_nil, (hs.order_perm []).length_eq, usedBlocks_nil] at hs1
    exact absurd (show (2 : Nat) = 0 from hs1) (by decide)
  cases hr
  simp only at hz hrig ⊢
  have hA := rigid_of_inv ((rigid_iff _).2 hrig)
  obtain ⟨wf, v, v1, v2⟩ := extend_core hs l e hl g d0 hd (heInit p) (s.converged (l.map g) (heInit p)) (hz _ (Iso.inv_inv hA).symm rfl)
  obtain ⟨cov', h⟩ := jump_heFinish p' hlen (l ++ e) (by simp [hl]) g (fun a _ => hb a) (s.solve (l.map g) (heInit p)) (s.converged (l.map g) (heInit p))
  rw [← hi] at h
  exact ⟨_, wf, _, h, rfl, rfl, rfl, v, v1, v2⟩

theorem features_append {κ : Type} (a b : List (Obs κ)) : features (a ++ b) = features a ++ features b := by
  unfold features; rw [List.flatMap_append]

/-- Hand-eye calibration from points: the same for observations that the reported transforms explain perfectly. -/
theorem C243_hand_eye_3d (p : HandEyeProblem Corr3) (hlen : p.labels.length = 6) (e : List (Obs Corr3)) (hm : MountsRepresentable e) (r : HandEyeResult)
    (hr : Reaches (fun s => handEye3 s p) r) (hrig : RigidMotion r.cameraMountToCamera)
    (he : ∀ f ∈ features e, inCamera3 r.cameraMountToCamera r.targetMountToTarget f = f.2.inImage) :
    ∃ r', Reaches (fun s => handEye3 s { p with observations := p.observations ++ e }) r' ∧ r'.converged = r.converged ∧
      r'.cameraMountToCamera = r.cameraMountToCamera ∧ r'.targetMountToTarget = r.targetMountToTarget ∧
      ∃ v, r.finalCost = some v ∧
        r'.finalCost = some (v * (features p.observations).length / ((features p.observations).length + (features e).length)) := by
  obtain ⟨s, hs, hr⟩ := hr
  beta_reduce at hr
  unfold handEye3 at hr
  rw [heBuild3_eq] at hr
  obtain ⟨s', wf, r', hr', h⟩ := heFinish_extend p { p with observations := p.observations ++ e } rfl hlen (e := features e) heBlock3 (d := 3) (by decide)
    (fun _ _ => rfl) (fun _ => rfl) hs hr hrig (by
      intro st h1 h2 f hf x hx
      obtain ⟨o, ho, hk⟩ := List.mem_flatMap.1 hf
      obtain ⟨k, -, rfl⟩ := List.mem_map.1 hk
      have := he _ hf
      unfold inCamera3 Spec.targetInCamera at this
      simp only [ResBlock.residual, heBlock3, List.map_cons, List.map_nil, eval2, handEyeCost3,
        oneImage_point (hm o ho).1 (hm o ho).2 k.inTarget _ _ h1 h2, seenFrom, this, sub_self, List.mem_cons, List.not_mem_nil, or_false, or_self] at hx
      exact hx)
  refine ⟨r', ⟨s', wf, ?_⟩, h⟩
  beta_reduce
  unfold handEye3
  rw [heBuild3_eq, ← hr', features_append]

/-- The same from pixels, if the new points are in front of the camera at the guess, which the calibration requires, and at the result. -/
theorem C243_hand_eye (p : HandEyeProblem Corr2) (hlen : p.labels.length = 6) (hc : Representable p.cameraGuess) (ht : Representable p.targetGuess)
    (e : List (Obs Corr2)) (hm : MountsRepresentable e) (r : HandEyeResult)
    (hr : Reaches (fun s => handEye2 s p) r) (hrig : RigidMotion r.cameraMountToCamera)
    (hv : ∀ f ∈ features e, 0 < (inCamera2 p.cameraGuess p.targetGuess f).z)
    (hf : ∀ f ∈ features e, 0 < (inCamera2 r.cameraMountToCamera r.targetMountToTarget f).z)
    (he : ∀ f ∈ features e, pinhole p.intr (inCamera2 r.cameraMountToCamera r.targetMountToTarget f) = f.2.inImage) :
    ∃ r', Reaches (fun s => handEye2 s { p with observations := p.observations ++ e }) r' ∧ r'.converged = r.converged ∧
      r'.cameraMountToCamera = r.cameraMountToCamera ∧ r'.targetMountToTarget = r.targetMountToTarget ∧
      ∃ v, r.finalCost = some v ∧
        r'.finalCost = some (v * (features p.observations).length / ((features p.observations).length + (features e).length)) := by
  obtain ⟨s, hs, hr⟩ := hr
  beta_reduce at hr
  obtain ⟨q, hq⟩ : ∃ q, q = { p with observations := p.observations ++ e } := ⟨_, rfl⟩
  rw [← hq]
  unfold handEye2 at hr
  rcases heBuild2_cases p with ⟨hvis, hb⟩ | ⟨-, hb⟩
  swap
  · rw [hb] at hr; cases hr
  rw [hb, Res.ok_bind] at hr
  have hi : heInit p = heInit q := by rw [hq]; rfl
  have hb' : heBuild2 q = .ok ((features p.observations ++ features e).map (heBlock2 p.intr)) := by
    rcases heBuild2_cases q with ⟨-, hb'⟩ | ⟨⟨f, hf, hn⟩, -⟩
    · rw [hb', hq, features_append]
    · have : features q.observations = features p.observations ++ features e := by rw [hq, features_append]
      rw [this] at hf
      refine absurd ?_ hn
      have hvi : heVisible p f := by
        rcases List.mem_append.1 hf with hf | hf
        · exact hvis f hf
        · obtain ⟨o, ho, hk⟩ := List.mem_flatMap.1 hf
          obtain ⟨k, -, rfl⟩ := List.mem_map.1 hk
          have h1 := hv (o, k) hf
          exact (heVisible_iff p hc ht (o, k) (hm o ho).1 (hm o ho).2).2 h1
      unfold heVisible at hvi ⊢
      rw [← hi]
      exact hvi
  obtain ⟨s', wf, r', hr', h⟩ := heFinish_extend p q hi (by rw [hq]; exact hlen) (e := features e) (heBlock2 p.intr) (d := 2) (by decide)
    (fun _ _ => rfl) (fun _ => rfl) hs hr hrig (by
      intro st h1 h2 f hf' x hx
      obtain ⟨o, ho, hk⟩ := List.mem_flatMap.1 hf'
      obtain ⟨k, -, rfl⟩ := List.mem_map.1 hk
      have h3 := he _ hf'
      have h4 := hf _ hf'
      unfold inCamera2 Spec.targetInCamera at h3 h4
      simp only at h3 h4
      simp only [ResBlock.residual, heBlock2, List.map_cons, List.map_nil, eval2, handEyeCost2,
        oneImage_point (hm o ho).1 (hm o ho).2 k.inTarget _ _ h1 h2, seenFrom, projectPoint_eq_pinhole (ne_of_gt h4), h3, sub_self, List.mem_cons,
        List.not_mem_nil, or_false, or_self] at hx
      exact hx)
  refine ⟨r', ⟨s', wf, ?_⟩, h⟩
  beta_reduce
  unfold handEye2
  rw [hb', Res.ok_bind, ← hr']

/-! ## Examples: a result that does not explain its data, and further data that it does explain -/

example : ∃ (p : PnPProblem Corr2) (e : List Corr2) (r : PnPResult), e ≠ [] ∧ Reaches (fun s => pnp2 s p) r ∧ ClearlyInFront r.cameraToTarget e ∧
    ∀ k ∈ e, pinhole p.intr (r.cameraToTarget.apply k.inTarget) = k.inImage := by
  obtain ⟨p, hp⟩ : ∃ p : PnPProblem Corr2, p = ⟨⟨1, 1, 0, 0⟩, [⟨⟨5, 0⟩, ⟨1, 0, 2⟩⟩], 1, "camera_to_target"⟩ := ⟨_, rfl⟩
  obtain ⟨r, h⟩ := pnp2_id_returns p (by rw [hp]; simp)
  have h1 : r.cameraToTarget = 1 := by
    rw [C34_pnp (idCeres V3) p r (fun _ _ => rfl) (by rw [hp]; exact Representable.one.1) h, hp]
  refine ⟨p, [⟨⟨1, 2⟩, ⟨1, 2, 1⟩⟩], r, by simp, ⟨_, idCeres_wf V3, h⟩, ?_, ?_⟩
  · intro k hk
    rw [List.mem_singleton.1 hk, h1]
    simp ; norm_num
  · intro k hk
    rw [List.mem_singleton.1 hk, h1, hp]
    simp [pinhole]

example : ∃ (p : PnPProblem Corr3) (e : List Corr3) (r : PnPResult), e ≠ [] ∧ Reaches (fun s => pnp3 s p) r ∧
    ∀ k ∈ e, r.cameraToTarget.apply k.inTarget = k.inImage := by
  obtain ⟨p, hp⟩ : ∃ p : PnPProblem Corr3, p = ⟨⟨1, 1, 0, 0⟩, [⟨⟨5, 0, 0⟩, ⟨1, 0, 2⟩⟩], 1, "camera_to_target"⟩ := ⟨_, rfl⟩
  obtain ⟨r, h⟩ := pnp3_id_returns p (by rw [hp]; simp)
  exact ⟨p, [⟨r.cameraToTarget.apply ⟨1, 2, 1⟩, ⟨1, 2, 1⟩⟩], r, by simp, ⟨_, idCeres_wf V3, h⟩, fun k hk => by rw [List.mem_singleton.1 hk]⟩

example : ∃ (p : CircleFitProblem) (e : List V2) (r : CircleFitResult), e ≠ [] ∧ Reaches (fun s => circleFit s p) r ∧
    ∀ o ∈ e, (o.x - r.xCenter) ^ 2 + (o.y - r.yCenter) ^ 2 = r.radius ^ 2 := by
  obtain ⟨p, hp⟩ : ∃ p : CircleFitProblem, p = ⟨[⟨2, 0⟩, ⟨0, 3⟩], 0, 0, 1⟩ := ⟨_, rfl⟩
  obtain ⟨r, h⟩ := circle_id_returns p (by rw [hp]; simp)
  obtain ⟨h1, h2, h3⟩ := C49_guess (idCeres Mem) p r h (fun _ _ => rfl) (by rw [hp]; norm_num)
  refine ⟨p, [⟨0, 1⟩], r, by simp, ⟨_, idCeres_wf Mem, h⟩, fun o ho => ?_⟩
  rw [List.mem_singleton.1 ho, h1, h2, h3, hp]
  norm_num

/-- A camera that disagrees with the guess, and one more camera, elsewhere, that agrees. -/
example : ∃ (p : McPnpProblem) (i : Intr) (c : Iso) (ks : List Corr2) (r : McPnpResult), ks ≠ [] ∧ p.intr.length = p.baseToCamera.length ∧
    p.observations.length = p.baseToCamera.length ∧ oneImage p.observations p.baseToCamera.length ≠ [] ∧ Representable c ∧ c ≠ 1 ∧
    Reaches (fun s => mcPnp s p) r ∧ (∀ k ∈ ks, 0 < (c.inv.apply (r.baseToTarget.apply k.inTarget)).z) ∧
    ∀ k ∈ ks, pinhole i (c.inv.apply (r.baseToTarget.apply k.inTarget)) = k.inImage := by
  obtain ⟨p, hp⟩ : ∃ p : McPnpProblem, p = ⟨[⟨1, 1, 0, 0⟩], [1], [[⟨⟨5, 0⟩, ⟨1, 0, 2⟩⟩]], 1⟩ := ⟨_, rfl⟩
  obtain ⟨r, h⟩ := C125_returns (idCeres Pose6) p (by rw [hp]; simp) (by rw [hp]; simp)
  have hg : r.baseToTarget = 1 := by
    rw [C34_multi_camera_pnp (idCeres Pose6) p r (fun _ _ => rfl) (by rw [hp]; exact .one) h, hp]
  refine ⟨p, ⟨1, 1, 0, 0⟩, ⟨1, ⟨1, 0, 0⟩⟩, [⟨⟨1, 0⟩, ⟨2, 0, 1⟩⟩], r, by simp, by rw [hp]; rfl, by rw [hp]; rfl, by rw [hp]; simp [oneImage],
    Representable.translation _, ?_, ⟨_, idCeres_wf Pose6, h⟩, fun k hk => ?_, fun k hk => ?_⟩
  · intro h
    have := congrArg (fun T : Iso => T.t.x) h
    simp at this
  · rw [List.mem_singleton.1 hk, hg, Iso.apply_one]
    simp [Iso.apply, Iso.inv, M3.tr, M3.mulVec]
  · rw [List.mem_singleton.1 hk, hg, Iso.apply_one]
    simp [Iso.apply, Iso.inv, M3.tr, M3.mulVec, pinhole]
    try norm_num

/-- The calibration from one pixel that is wrong, and an image with a pixel that is right. -/
example : ∃ (p : HandEyeProblem Corr2) (e : List (Obs Corr2)) (r : HandEyeResult), features e ≠ [] ∧ p.labels.length = 6 ∧
    Representable p.cameraGuess ∧ Representable p.targetGuess ∧ MountsRepresentable e ∧ Reaches (fun s => handEye2 s p) r ∧
    RigidMotion r.cameraMountToCamera ∧ (∀ f ∈ features e, 0 < (inCamera2 p.cameraGuess p.targetGuess f).z) ∧
    (∀ f ∈ features e, 0 < (inCamera2 r.cameraMountToCamera r.targetMountToTarget f).z) ∧
    ∀ f ∈ features e, pinhole p.intr (inCamera2 r.cameraMountToCamera r.targetMountToTarget f) = f.2.inImage := by
  obtain ⟨r, h⟩ := exProblem_returns ⟨3, 0⟩
  obtain ⟨p, hp⟩ : ∃ p, p = exProblem 1 1 ⟨3, 0⟩ ⟨0, 0, 1⟩ 1 1 := ⟨_, rfl⟩
  rw [← hp] at h
  have hc : p.cameraGuess = 1 := by rw [hp]; rfl
  have ht : p.targetGuess = 1 := by rw [hp]; rfl
  obtain ⟨h1, h2⟩ := C34_hand_eye_2d (idCeres Pose6) p r (fun _ _ => rfl) (by rw [hc]; exact .one) (by rw [ht]; exact .one) h
  have hz : inCamera2 1 1 ((⟨[⟨⟨1, 2⟩, ⟨1, 2, 1⟩⟩], 1, 1⟩ : Obs Corr2), (⟨⟨1, 2⟩, ⟨1, 2, 1⟩⟩ : Corr2)) = ⟨1, 2, 1⟩ := by
    simp [inCamera2, Spec.targetInCamera, Iso.inv_one]
  have hf : ∀ f ∈ features [(⟨[⟨⟨1, 2⟩, ⟨1, 2, 1⟩⟩], 1, 1⟩ : Obs Corr2)], f = (⟨[⟨⟨1, 2⟩, ⟨1, 2, 1⟩⟩], 1, 1⟩, ⟨⟨1, 2⟩, ⟨1, 2, 1⟩⟩) := by
    intro f hf
    simpa [features] using hf
  refine ⟨p, [⟨[⟨⟨1, 2⟩, ⟨1, 2, 1⟩⟩], 1, 1⟩], r, by simp [features], by rw [hp]; rfl, by rw [hc]; exact .one, by rw [ht]; exact .one, ?_,
    ⟨_, idCeres_wf Pose6, h⟩, by rw [h1, hc]; exact Representable.one.1, ?_, ?_, ?_⟩
  · intro o ho
    rw [List.mem_singleton.1 ho]
    exact ⟨.one, .one⟩
  · intro f hf'
    rw [hf f hf', hc, ht, hz]; norm_num
  · intro f hf'
    rw [hf f hf', h1, h2, hc, ht, hz]; norm_num
  · intro f hf'
    have hi : p.intr = ⟨1, 1, 0, 0⟩ := by rw [hp]; rfl
    rw [hf f hf', h1, h2, hc, ht, hz, hi]; simp [pinhole]

/-- The same with points in space. -/
example : ∃ (p : HandEyeProblem Corr3) (e : List (Obs Corr3)) (r : HandEyeResult), features e ≠ [] ∧ p.labels.length = 6 ∧ MountsRepresentable e ∧
    Reaches (fun s => handEye3 s p) r ∧ RigidMotion r.cameraMountToCamera ∧
    ∀ f ∈ features e, inCamera3 r.cameraMountToCamera r.targetMountToTarget f = f.2.inImage := by
  obtain ⟨p, hp⟩ : ∃ p : HandEyeProblem Corr3, p = { observations := [⟨[⟨⟨5, 0, 0⟩, ⟨1, 0, 2⟩⟩], 1, 1⟩], intr := ⟨1, 1, 0, 0⟩, targetGuess := 1, cameraGuess := 1, labelCamera := "c", labelTarget := "t" } :=
    ⟨_, rfl⟩
  have hc : p.cameraGuess = 1 := by rw [hp]
  have ht : p.targetGuess = 1 := by rw [hp]
  have hlen : p.labels.length = 6 := by rw [hp]; rfl
  obtain ⟨r, h⟩ : ∃ r, handEye3 (idCeres Pose6) p = .ok r := by
    unfold handEye3
    rw [heBuild3_eq]
    exact heFinish_id_returns p hlen _ (by rw [hp]; simp [features]) _ (fun _ _ => rfl)
  obtain ⟨h1, h2⟩ := C34_hand_eye_3d (idCeres Pose6) p r (fun _ _ => rfl) (by rw [hc]; exact .one) (by rw [ht]; exact .one) h
  refine ⟨p, [⟨[⟨⟨1, 2, 1⟩, ⟨1, 2, 1⟩⟩], 1, 1⟩], r, by simp [features], hlen, ?_, ⟨_, idCeres_wf Pose6, h⟩, by rw [h1, hc]; exact Representable.one.1, ?_⟩
  · intro o ho
    rw [List.mem_singleton.1 ho]
    exact ⟨.one, .one⟩
  · intro f hf
    have hf : f = (⟨[⟨⟨1, 2, 1⟩, ⟨1, 2, 1⟩⟩], 1, 1⟩, ⟨⟨1, 2, 1⟩, ⟨1, 2, 1⟩⟩) := by simpa [features] using hf
    rw [hf, h1, h2, hc, ht]
    simp [inCamera3, Spec.targetInCamera, Iso.inv_one]

end RCT
