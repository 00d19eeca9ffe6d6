import Verif.Props.Agree
import Verif.Props.Fit
import Verif.Props.SingleMains
import Verif.Spec.SingleMains

/-! # C240 The pose of a target seen by one camera -/

namespace RCT

open Spec

/-! ## Cameras only, with one fixed camera, and multi camera PnP -/

theorem oneFixed_block (intr : Intr) (g t : Iso) (ks : List Corr2) {pb pb' : List (ResBlock Pose6)}
    (h : coBuild ⟨true, [intr], [t], [[ks]], [g]⟩ = .ok pb) (h' : mcPnpBuild ⟨[intr], [g], [ks], t⟩ = .ok pb') : pb = pb' := by
  rw [coBuild_eq h, mcPnpBuild_eq h']
  simp only [byImage, oneImage, featuresOf, List.length_cons, List.length_nil, Nat.zero_add, List.range_one, List.flatMap_cons,
    List.flatMap_nil, List.append_nil, List.getD_cons_zero, List.map_map]
  refine List.map_congr_left fun k _ => ?_
  simp only [Function.comp_apply, coBlock, mcPnpBlock, and_self, if_true, List.getD_cons_zero]
  rfl

theorem oneFixed_sizes (intr : Intr) (g t : Iso) (ks : List Corr2) : CoSizes ⟨true, [intr], [t], [[ks]], [g]⟩ where
  intr := rfl
  images := by
    intro c hc
    have : c = 0 := by simpa using hc
    subst this
    exact ⟨_, rfl, rfl⟩

theorem mcPnpBuild_used {p : McPnpProblem} {pb : List (ResBlock Pose6)} (h : mcPnpBuild p = .ok pb) {a : Nat} (ha : a ≠ 0) : a ∉ usedBlocks pb := by
  rw [mcPnpBuild_eq h, mem_usedBlocks]
  rintro ⟨b, hb, hab⟩
  obtain ⟨f, -, rfl⟩ := List.mem_map.1 hb
  exact ha (by simpa [mcPnpBlock] using hab)

/-- Two states that agree on the first block have the same residuals. -/
theorem mcPnpBuild_local {p : McPnpProblem} {pb : List (ResBlock Pose6)} (h : mcPnpBuild p = .ok pb) {st st' : Nat → Pose6} (e : st 0 = st' 0) :
    residuals pb st = residuals pb st' := by
  rw [mcPnpBuild_eq h, residuals_map, residuals_map]
  refine flatMap_congr' fun f _ => ?_
  simp only [ResBlock.residual, mcPnpBlock, List.map_cons, List.map_nil, e]

/-- One fixed camera and one image: every result of the calibration of cameras only is a result of multi camera PnP, and the
camera is where it was said to be. -/
theorem C240_fixed_to_pnp (intr : Intr) (g t : Iso) (ks : List Corr2) (hg : Representable g) (r : CoResult)
    (hr : Reaches (fun s => cameraOnly s ⟨true, [intr], [t], [[ks]], [g]⟩) r) :
    r.baseToCamera = [g] ∧ ∃ r' : McPnpResult, Reaches (fun s => mcPnp s ⟨[intr], [g], [ks], t⟩) r' ∧ r'.converged = r.converged ∧
      r'.initialCost = r.initialCost ∧ r'.finalCost = r.finalCost ∧ r.baseToTarget = [r'.baseToTarget] := by
  obtain ⟨s, hs, hr⟩ := hr
  obtain ⟨pb, hb⟩ := (oneFixed_sizes intr g t ks).built
  obtain ⟨pb', hb'⟩ := mcPnp_built (p := ⟨[intr], [g], [ks], t⟩) le_rfl le_rfl
  have e := oneFixed_block intr g t ks hb hb'
  subst e
  beta_reduce at hr
  unfold cameraOnly at hr
  rw [hb, Res.ok_bind] at hr
  simp only [List.length_cons, List.length_nil, Nat.zero_add, List.range_one, List.map_cons, List.map_nil] at hr
  cases hr
  obtain ⟨i0, hi0⟩ : ∃ i0, i0 = coInit ⟨true, [intr], [t], [[ks]], [g]⟩ := ⟨_, rfl⟩
  have ht0 : i0 0 = poseEigenToCal t := by rw [hi0]; rfl
  have hc0 : i0 (coCam 0) = poseEigenToCal g.inv := by rw [hi0]; rfl
  rw [← hi0]
  constructor
  · rw [hs.frame pb i0 (coCam 0) (mcPnpBuild_used hb' (by decide)), hc0, hg.inv.roundtrip, Iso.inv_inv hg.rigid]
  · obtain ⟨j, hj⟩ : ∃ j : Nat → Pose6, j = fun _ => poseEigenToCal t := ⟨_, rfl⟩
    obtain ⟨fin, hfin⟩ : ∃ fin : Nat → Pose6, fin = fun a => if a = 0 then s.solve pb i0 0 else j a := ⟨_, rfl⟩
    have e1 : residuals pb j = residuals pb i0 := mcPnpBuild_local hb' (by rw [hj, ht0])
    have e2 : residuals pb fin = residuals pb (s.solve pb i0) := mcPnpBuild_local hb' (by rw [hfin]; simp)
    have wf : (Ceres.jump pb j fin (s.converged pb i0)).WF := by
      refine Ceres.jump_wf _ (fun a ha => ?_) ?_
      · by_cases h0 : a = 0
        · subst h0
          have := hs.frame pb i0 0 ha
          rw [hfin]; simp only [if_true]
          rw [this, ht0, hj]
        · rw [hfin]; simp only [h0, if_false]
      · rw [(cost_of_residuals e1).1, (cost_of_residuals e2).1]
        exact hs.descent _ _
    have hr' : mcPnp (Ceres.jump pb j fin (s.converged pb i0)) ⟨[intr], [g], [ks], t⟩ =
        .ok ⟨s.converged pb i0, costPerObs pb j, costPerObs pb fin, poseCalToEigen (fin 0)⟩ := by
      unfold mcPnp
      rw [hb', Res.ok_bind]
      simp only
      rw [← hj, Ceres.jump_solve]
      rfl
    refine ⟨_, ⟨_, wf, hr'⟩, rfl, (cost_of_residuals e1).2, (cost_of_residuals e2).2, ?_⟩
    rw [hfin]; rfl

/-- The other way round. -/
theorem C240_pnp_to_fixed (intr : Intr) (g t : Iso) (ks : List Corr2) (hg : Representable g) (r' : McPnpResult)
    (hr : Reaches (fun s => mcPnp s ⟨[intr], [g], [ks], t⟩) r') :
    ∃ r : CoResult, Reaches (fun s => cameraOnly s ⟨true, [intr], [t], [[ks]], [g]⟩) r ∧ r.converged = r'.converged ∧
      r.initialCost = r'.initialCost ∧ r.finalCost = r'.finalCost ∧ r.baseToTarget = [r'.baseToTarget] ∧ r.baseToCamera = [g] := by
  obtain ⟨s, hs, hr⟩ := hr
  obtain ⟨pb, hb⟩ := (oneFixed_sizes intr g t ks).built
  obtain ⟨pb', hb'⟩ := mcPnp_built (p := ⟨[intr], [g], [ks], t⟩) le_rfl le_rfl
  have e := oneFixed_block intr g t ks hb hb'
  subst e
  beta_reduce at hr
  unfold mcPnp at hr
  rw [hb', Res.ok_bind] at hr
  simp only at hr
  obtain ⟨j, hj⟩ : ∃ j : Nat → Pose6, j = fun _ => poseEigenToCal t := ⟨_, rfl⟩
  rw [← hj] at hr
  cases hr
  obtain ⟨i0, hi0⟩ : ∃ i0, i0 = coInit ⟨true, [intr], [t], [[ks]], [g]⟩ := ⟨_, rfl⟩
  have ht0 : i0 0 = poseEigenToCal t := by rw [hi0]; rfl
  have hc0 : i0 (coCam 0) = poseEigenToCal g.inv := by rw [hi0]; rfl
  obtain ⟨fin, hfin⟩ : ∃ fin : Nat → Pose6, fin = fun a => if a = 0 then s.solve pb j 0 else i0 a := ⟨_, rfl⟩
  have e1 : residuals pb i0 = residuals pb j := mcPnpBuild_local hb' (by rw [hj, ht0])
  have e2 : residuals pb fin = residuals pb (s.solve pb j) := mcPnpBuild_local hb' (by rw [hfin]; simp)
  have wf : (Ceres.jump pb i0 fin (s.converged pb j)).WF := by
    refine Ceres.jump_wf _ (fun a ha => ?_) ?_
    · by_cases h0 : a = 0
      · subst h0
        have := hs.frame pb j 0 ha
        rw [hfin]; simp only [if_true]
        rw [this, ht0, hj]
      · rw [hfin]; simp only [h0, if_false]
    · rw [(cost_of_residuals e1).1, (cost_of_residuals e2).1]
      exact hs.descent _ _
  have hr' : cameraOnly (Ceres.jump pb i0 fin (s.converged pb j)) ⟨true, [intr], [t], [[ks]], [g]⟩ =
      .ok ⟨s.converged pb j, costPerObs pb i0, costPerObs pb fin, [poseCalToEigen (fin (coTgt 0))], [(poseCalToEigen (fin (coCam 0))).inv]⟩ := by
    unfold cameraOnly
    rw [hb, Res.ok_bind]
    simp only
    rw [← hi0, Ceres.jump_solve]
    rfl
  refine ⟨_, ⟨_, wf, hr'⟩, rfl, (cost_of_residuals e1).2, (cost_of_residuals e2).2, ?_, ?_⟩
  · rw [hfin]; rfl
  · have : fin (coCam 0) = poseEigenToCal g.inv := by rw [hfin]; simp only [coCam]; exact hc0
    rw [this, hg.inv.roundtrip, Iso.inv_inv hg.rigid]

/-! ## PnP -/

theorem oneCamera_pixels {intr : Intr} {g t : Iso} {ks : List Corr2} (hg : Representable g) {pb : List (ResBlock Pose6)}
    (hb : mcPnpBuild ⟨[intr], [g], [ks], t⟩ = .ok pb) (st : Nat → Pose6)
    (hz : ClearlyInFront (g.inv * poseCalToEigen (st 0)) ks) :
    residuals pb st = pixelErrors intr (g.inv * poseCalToEigen (st 0)) ks := by
  rw [mcPnpBuild_eq hb, residuals_map]
  simp only [oneImage, List.length_cons, List.length_nil, Nat.zero_add, List.range_one, List.flatMap_cons, List.flatMap_nil, List.append_nil,
    List.getD_cons_zero, List.flatMap_map]
  unfold pixelErrors
  refine flatMap_congr' fun k hk => ?_
  have h0 := hz k hk
  rw [Iso.apply_mul] at h0
  simp only [ResBlock.residual, mcPnpBlock, List.map_cons, List.map_nil, eval1, mcPnpCost, List.getD_cons_zero, transformPoint_eq, hg.inv.act,
    Iso.apply_mul, diff2, projectPoint_eq_pinhole (ne_of_gt (lt_trans (by norm_num) h0))]

/-- Multi camera PnP with one camera gives the pose of PnP, moved by the pose of the camera: every result of PnP is, so moved, a
result of multi camera PnP from the guess so moved, for points clearly in front of the camera at the guess and at the result. -/
theorem C240_pnp_to_multi (intr : Intr) (g t : Iso) (ks : List Corr2) (l : String) (hg : Representable g) (ht : Representable t)
    (r : PnPResult) (hr : Reaches (fun s => pnp2 s ⟨intr, ks, g.inv * t, l⟩) r) (hT : Representable (g * r.cameraToTarget))
    (h0 : ClearlyInFront (g.inv * t) ks) (h1 : ClearlyInFront r.cameraToTarget ks) :
    ∃ r' : McPnpResult, Reaches (fun s => mcPnp s ⟨[intr], [g], [ks], t⟩) r' ∧ r'.converged = r.converged ∧
      r'.initialCost = r.initialCost ∧ r'.finalCost = r.finalCost ∧ r'.baseToTarget = g * r.cameraToTarget := by
  obtain ⟨s, hs, hr⟩ := hr
  have hne : ks ≠ [] := by
    intro e
    beta_reduce at hr
    rw [pnp2_empty s _ e] at hr
    cases hr
  obtain ⟨pb', hb'⟩ := mcPnp_built (p := ⟨[intr], [g], [ks], t⟩) le_rfl le_rfl
  obtain ⟨P, hP⟩ : ∃ P : PnPProblem Corr2, P = ⟨intr, ks, g.inv * t, l⟩ := ⟨_, rfl⟩
  beta_reduce at hr
  rw [← hP] at hr
  unfold pnp2 pnpFinish at hr
  simp only [Res.bind_ok_iff] at hr
  obtain ⟨cov, -, hr⟩ := hr
  cases hr
  simp only at hT h1 ⊢
  obtain ⟨st, hst⟩ : ∃ st, st = s.solve (pnpBuild2 P) (pnpInit P.guess) := ⟨_, rfl⟩
  rw [← hst] at hT h1 ⊢
  have hgt : (g.inv * t).IsRigid := hg.inv.rigid.mul ht.rigid
  have hi : pnpTransform (pnpInit P.guess pnpRot) (pnpInit P.guess pnpTrans) = g.inv * t := by
    rw [hP]; exact pnpInit_transform hgt
  have r0 : residuals (pnpBuild2 P) (pnpInit P.guess) = pixelErrors intr (g.inv * t) ks := by
    rw [pnpBuild2_residuals P _ _ hi (by rw [hP]; exact h0), hP]
  have r1 : residuals (pnpBuild2 P) st = pixelErrors intr (pnpTransform (st pnpRot) (st pnpTrans)) ks := by
    rw [pnpBuild2_residuals P _ _ rfl (by rw [hP]; exact h1), hP]
  obtain ⟨T, hTd⟩ : ∃ T, T = pnpTransform (st pnpRot) (st pnpTrans) := ⟨_, rfl⟩
  rw [← hTd] at hT h1 r1 ⊢
  obtain ⟨j, hj⟩ : ∃ j : Nat → Pose6, j = fun _ => poseEigenToCal t := ⟨_, rfl⟩
  obtain ⟨fin, hfin⟩ : ∃ fin : Nat → Pose6, fin = fun a => if a = 0 then poseEigenToCal (g * T) else j a := ⟨_, rfl⟩
  have hj0 : poseCalToEigen (j 0) = t := by rw [hj]; exact ht.roundtrip
  have hf0 : poseCalToEigen (fin 0) = g * T := by rw [hfin]; exact hT.roundtrip
  have hback : g.inv * (g * T) = T := by rw [← Iso.mul_assoc, Iso.inv_mul hg.rigid, Iso.one_mul]
  have e1 : residuals pb' j = residuals (pnpBuild2 P) (pnpInit P.guess) := by
    rw [oneCamera_pixels hg hb' j (by rw [hj0]; exact h0), hj0, r0]
  have e2 : residuals pb' fin = residuals (pnpBuild2 P) st := by
    rw [oneCamera_pixels hg hb' fin (by rw [hf0, hback]; exact h1), hf0, hback, r1]
  have wf : (Ceres.jump pb' j fin (s.converged (pnpBuild2 P) (pnpInit P.guess))).WF := by
    refine Ceres.jump_wf _ (fun a ha => ?_) ?_
    · have h0 : a ≠ 0 := by
        rintro rfl
        refine ha ?_
        rw [mcPnpBuild_eq hb', mem_usedBlocks]
        obtain ⟨k, hk⟩ := List.exists_mem_of_ne_nil ks hne
        exact ⟨_, List.mem_map.2 ⟨⟨0, 0, k⟩, by simp [oneImage, hk], rfl⟩, by simp [mcPnpBlock]⟩
      rw [hfin]; simp only [h0, if_false]
    · rw [(cost_of_residuals e1).1, (cost_of_residuals e2).1, hst]
      exact hs.descent _ _
  have hr' : mcPnp (Ceres.jump pb' j fin (s.converged (pnpBuild2 P) (pnpInit P.guess))) ⟨[intr], [g], [ks], t⟩ =
      .ok ⟨s.converged (pnpBuild2 P) (pnpInit P.guess), costPerObs pb' j, costPerObs pb' fin, poseCalToEigen (fin 0)⟩ := by
    unfold mcPnp
    rw [hb', Res.ok_bind]
    simp only
    rw [← hj, Ceres.jump_solve]
    rfl
  exact ⟨_, ⟨_, wf, hr'⟩, rfl, (cost_of_residuals e1).2, (cost_of_residuals e2).2, hf0⟩

/-- The other way round. -/
theorem C240_multi_to_pnp (intr : Intr) (g t : Iso) (ks : List Corr2) (l : String) (hne : ks ≠ []) (hg : Representable g) (ht : Representable t)
    (r' : McPnpResult) (hr : Reaches (fun s => mcPnp s ⟨[intr], [g], [ks], t⟩) r') (hT : RigidMotion r'.baseToTarget)
    (h0 : ClearlyInFront (g.inv * t) ks) (h1 : ClearlyInFront (g.inv * r'.baseToTarget) ks) :
    ∃ r : PnPResult, Reaches (fun s => pnp2 s ⟨intr, ks, g.inv * t, l⟩) r ∧ r.converged = r'.converged ∧
      r.initialCost = r'.initialCost ∧ r.finalCost = r'.finalCost ∧ r.cameraToTarget = g.inv * r'.baseToTarget := by
  obtain ⟨s, hs, hr⟩ := hr
  obtain ⟨pb, hb⟩ := mcPnp_built (p := ⟨[intr], [g], [ks], t⟩) le_rfl le_rfl
  beta_reduce at hr
  unfold mcPnp at hr
  rw [hb, Res.ok_bind] at hr
  simp only at hr
  obtain ⟨j, hj⟩ : ∃ j : Nat → Pose6, j = fun _ => poseEigenToCal t := ⟨_, rfl⟩
  rw [← hj] at hr
  cases hr
  simp only at hT h1 ⊢
  obtain ⟨st, hst⟩ : ∃ st, st = s.solve pb j := ⟨_, rfl⟩
  rw [← hst] at hT h1 ⊢
  have hj0 : poseCalToEigen (j 0) = t := by rw [hj]; exact ht.roundtrip
  have r0 : residuals pb j = pixelErrors intr (g.inv * t) ks := by
    rw [oneCamera_pixels hg hb j (by rw [hj0]; exact h0), hj0]
  have r1 := oneCamera_pixels hg hb st h1
  obtain ⟨T, hTd⟩ : ∃ T, T = g.inv * poseCalToEigen (st 0) := ⟨_, rfl⟩
  rw [← hTd] at h1 r1 ⊢
  have hTr : T.IsRigid := by rw [hTd]; exact hg.inv.rigid.mul ((rigid_iff _).2 hT)
  obtain ⟨P, hP⟩ : ∃ P : PnPProblem Corr2, P = ⟨intr, ks, g.inv * t, l⟩ := ⟨_, rfl⟩
  rw [← hP]
  have hgt : (g.inv * t).IsRigid := hg.inv.rigid.mul ht.rigid
  have hi : pnpTransform (pnpInit P.guess pnpRot) (pnpInit P.guess pnpTrans) = g.inv * t := by
    rw [hP]; exact pnpInit_transform hgt
  obtain ⟨fin, hfin⟩ : ∃ fin : Nat → V3, fin = fun a => if a = pnpRot ∨ a = pnpTrans then pnpInit T a else pnpInit P.guess a := ⟨_, rfl⟩
  have hf : pnpTransform (fin pnpRot) (fin pnpTrans) = T := by
    rw [hfin]
    simp only [true_or, or_true, if_true]
    exact pnpInit_transform hTr
  have e1 : residuals (pnpBuild2 P) (pnpInit P.guess) = residuals pb j := by
    rw [pnpBuild2_residuals P _ _ hi (by rw [hP]; exact h0), hP, r0]
  have e2 : residuals (pnpBuild2 P) fin = residuals pb st := by
    rw [pnpBuild2_residuals P _ _ hf (by rw [hP]; exact h1), hP, r1]
  have hperm : (usedBlocks (pnpBuild2 P)).Perm [pnpRot, pnpTrans] :=
    usedBlocks_const P.correspondences (by rw [hP]; exact hne) _ _ (by decide) (fun _ _ => rfl)
  have wf : (Ceres.jump (pnpBuild2 P) (pnpInit P.guess) fin (s.converged pb j)).WF := by
    refine Ceres.jump_wf _ (fun a ha => ?_) ?_
    · have hn : a ∉ [pnpRot, pnpTrans] := fun hm => ha (hperm.mem_iff.2 hm)
      simp only [List.mem_cons, List.not_mem_nil, or_false] at hn
      rw [hfin]; simp only [hn, if_false]
    · rw [(cost_of_residuals e1).1, (cost_of_residuals e2).1, hst]
      exact hs.descent _ _
  obtain ⟨r, hr⟩ : ∃ r, pnp2 (Ceres.jump (pnpBuild2 P) (pnpInit P.guess) fin (s.converged pb j)) P = .ok r :=
    pnpFinish_returns _ _ P.correspondences (by rw [hP]; exact hne) _ (fun _ _ => rfl) rfl rfl
  have hr2 := hr
  unfold pnp2 pnpFinish at hr
  simp only [Res.bind_ok_iff, Ceres.jump_solve] at hr
  obtain ⟨cov, -, hr⟩ := hr
  cases hr
  exact ⟨_, ⟨_, wf, hr2⟩, rfl, (cost_of_residuals e1).2, (cost_of_residuals e2).2, hf⟩

/-! ## Examples -/

/-- For points in front of the camera at the guess there are results of all three that correspond. -/
theorem oneCamera_results (intr : Intr) (g t : Iso) (ks : List Corr2) (hne : ks ≠ []) (hg : Representable g) (ht : Representable t)
    (h0 : ClearlyInFront (g.inv * t) ks) : ∃ (r : PnPResult) (r' : McPnpResult) (r'' : CoResult),
    Reaches (fun s => pnp2 s ⟨intr, ks, g.inv * t, ""⟩) r ∧ Representable (g * r.cameraToTarget) ∧ ClearlyInFront r.cameraToTarget ks ∧
    Reaches (fun s => mcPnp s ⟨[intr], [g], [ks], t⟩) r' ∧ RigidMotion r'.baseToTarget ∧
    Reaches (fun s => cameraOnly s ⟨true, [intr], [t], [[ks]], [g]⟩) r'' := by
  have hgt : g * (g.inv * t) = t := by rw [← Iso.mul_assoc, Iso.mul_inv hg.rigid, Iso.one_mul]
  have hrig : RigidMotion (g.inv * t) := (rigid_iff _).1 (hg.inv.rigid.mul ht.rigid)
  obtain ⟨r, hr⟩ := pnp2_id_returns ⟨intr, ks, g.inv * t, ""⟩ hne
  have hT : r.cameraToTarget = g.inv * t := C34_pnp (idCeres V3) ⟨intr, ks, g.inv * t, ""⟩ r (fun _ _ => rfl) hrig hr
  have hrep : Representable (g * r.cameraToTarget) := by rw [hT, hgt]; exact ht
  have h1 : ClearlyInFront r.cameraToTarget ks := by rw [hT]; exact h0
  have hR : Reaches (fun s => pnp2 s ⟨intr, ks, g.inv * t, ""⟩) r := ⟨_, idCeres_wf _, hr⟩
  obtain ⟨r', hr', -, -, -, hb⟩ := C240_pnp_to_multi intr g t ks "" hg ht r hR hrep h0 h1
  obtain ⟨r'', hr'', -⟩ := C240_pnp_to_fixed intr g t ks hg r' hr'
  exact ⟨r, r', r'', hR, hrep, h1, hr', by rw [hb]; exact hrep.1, hr''⟩

/-- A target two metres in front of a camera one metre from the base. -/
example : ∃ (g t : Iso) (ks : List Corr2), ks.length = 2 ∧ g.t.x = 1 ∧ Representable g ∧ Representable t ∧ ClearlyInFront (g.inv * t) ks := by
  refine ⟨⟨1, ⟨1, 0, 0⟩⟩, ⟨1, ⟨1, 0, 2⟩⟩, [⟨⟨0, 0⟩, ⟨0, 0, 0⟩⟩, ⟨⟨1, 0⟩, ⟨0, 1, 0⟩⟩], rfl, rfl, Representable.translation _,
    Representable.translation _, ?_⟩
  intro k hk
  simp only [List.mem_cons, List.not_mem_nil, or_false] at hk
  rcases hk with rfl | rfl <;>
    (simp [Iso.apply, Iso.inv, M3.tr, M3.mulVec, Iso.mul_def, M3.mul_def]; norm_num)

end RCT
