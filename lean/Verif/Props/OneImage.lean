import Verif.Props.OneCamera

/-! # C242 Hand-eye calibration of one image and PnP -/

namespace RCT

namespace Spec

/-- The pose of the target seen from the camera: mounts at `C` and `T`, camera at `c` on its mount, target at `t` on its mount. -/
def seenFrom (C T c t : Iso) : Iso := c.inv * (C.inv * (T * t))

/-- Where the target is on its mount if the camera sees it at `P`. -/
def onMount (C T c P : Iso) : Iso := T.inv * (C * (c * P))

end Spec

open Spec

theorem seenFrom_onMount {C T c : Iso} (hC : C.IsRigid) (hT : T.IsRigid) (hc : c.IsRigid) (P : Iso) :
    seenFrom C T c (onMount C T c P) = P := by
  unfold seenFrom onMount
  rw [← Iso.mul_assoc T, Iso.mul_inv hT, Iso.one_mul, ← Iso.mul_assoc C.inv, Iso.inv_mul hC, Iso.one_mul, ← Iso.mul_assoc, Iso.inv_mul hc,
    Iso.one_mul]

/-- A run of hand-eye calibration from a run of PnP with the same residuals. -/
theorem heFinish_from {κ α : Type} (p : HandEyeProblem κ) (hlen : p.labels.length = 6) {l : List α} (hl : l ≠ [])
    (g : α → ResBlock Pose6) (hg : ∀ a ∈ l, (g a).blocks = [heCam, heTgt]) {s : Ceres V3} (hs : s.WF) (pb : List (ResBlock V3)) (i0 : Nat → V3)
    {c t : Iso} (hc : Representable c) (ht : Representable t) (e1 : residuals (l.map g) (heInit p) = residuals pb i0)
    (e2 : ∀ st : Nat → Pose6, poseCalToEigen (st heCam) = c.inv → poseCalToEigen (st heTgt) = t →
      residuals (l.map g) st = residuals pb (s.solve pb i0)) :
    ∃ s' : Ceres Pose6, s'.WF ∧ ∃ cov, heFinish s' p (l.map g) =
      .ok ⟨s.converged pb i0, costPerObs pb i0, costPerObs pb (s.solve pb i0), t, c, cov⟩ := by
  have hperm := usedBlocks_const _ hl g [heCam, heTgt] (by decide) hg
  obtain ⟨fin, hfin⟩ : ∃ fin : Nat → Pose6, fin = fun a => if a = heTgt then poseEigenToCal t else if a = heCam then poseEigenToCal c.inv else heInit p a :=
    ⟨_, rfl⟩
  have hft : poseCalToEigen (fin heTgt) = t := by rw [hfin]; simp only [if_true]; exact ht.roundtrip
  have hfc : poseCalToEigen (fin heCam) = c.inv := by
    rw [hfin]; simp only [heCam, heTgt]; exact hc.inv.roundtrip
  have e2 := e2 fin hfc hft
  refine ⟨Ceres.jump (l.map g) (heInit p) fin (s.converged pb i0), Ceres.jump_wf _ (fun a ha => ?_) ?_, ?_⟩
  · have hn : a ∉ [heCam, heTgt] := fun hm => ha (hperm.mem_iff.2 hm)
    simp only [List.mem_cons, List.not_mem_nil, or_false, not_or] at hn
    rw [hfin]
    simp only [hn.1, hn.2, if_false]
  · rw [(cost_of_residuals e1).1, (cost_of_residuals e2).1]
    exact hs.descent _ _
  · obtain ⟨cov, h⟩ := jump_heFinish p hlen l hl g hg fin (s.converged pb i0)
    refine ⟨cov, ?_⟩
    rw [h, (cost_of_residuals e1).2, (cost_of_residuals e2).2, hft, hfc, Iso.inv_inv hc.rigid]

/-- A run of PnP from a run of hand-eye calibration with the same residuals. -/
theorem pnpFinish_from {κ α : Type} (p : PnPProblem κ) {l : List α} (hl : l ≠ []) (g : α → ResBlock V3)
    (hg : ∀ a ∈ l, (g a).blocks = [pnpRot, pnpTrans]) {s : Ceres Pose6} (hs : s.WF) (pb : List (ResBlock Pose6)) (i0 : Nat → Pose6)
    {T : Iso} (hT : T.IsRigid) (e1 : residuals (l.map g) (pnpInit p.guess) = residuals pb i0)
    (e2 : ∀ st : Nat → V3, pnpTransform (st pnpRot) (st pnpTrans) = T → residuals (l.map g) st = residuals pb (s.solve pb i0)) :
    ∃ s' : Ceres V3, s'.WF ∧ ∃ cov, pnpFinish s' p (l.map g) =
      .ok ⟨s.converged pb i0, costPerObs pb i0, costPerObs pb (s.solve pb i0), T, cov⟩ := by
  have hperm := usedBlocks_const _ hl g [pnpRot, pnpTrans] (by decide) hg
  obtain ⟨fin, hfin⟩ : ∃ fin : Nat → V3, fin = fun a => if a = pnpRot ∨ a = pnpTrans then pnpInit T a else pnpInit p.guess a := ⟨_, rfl⟩
  have hf : pnpTransform (fin pnpRot) (fin pnpTrans) = T := by
    rw [hfin]
    simp only [true_or, or_true, if_true]
    exact pnpInit_transform hT
  have e2 := e2 fin hf
  refine ⟨Ceres.jump (l.map g) (pnpInit p.guess) fin (s.converged pb i0), Ceres.jump_wf _ (fun a ha => ?_) ?_, ?_⟩
  · have hn : a ∉ [pnpRot, pnpTrans] := fun hm => ha (hperm.mem_iff.2 hm)
    simp only [List.mem_cons, List.not_mem_nil, or_false] at hn
    rw [hfin]; simp only [hn, if_false]
  · rw [(cost_of_residuals e1).1, (cost_of_residuals e2).1]
    exact hs.descent _ _
  · obtain ⟨r, hr⟩ := pnpFinish_returns (Ceres.jump (l.map g) (pnpInit p.guess) fin (s.converged pb i0)) p l hl g hg rfl rfl
    have hr2 := hr
    unfold pnpFinish at hr
    simp only [Res.bind_ok_iff, Ceres.jump_solve] at hr
    obtain ⟨cov, -, hr⟩ := hr
    refine ⟨cov, ?_⟩
    rw [hr2, ← hr, (cost_of_residuals e1).2, (cost_of_residuals e2).2, hf]
    rfl

/-! ## Residuals of one image -/

theorem rigid_of_inv {A : Iso} (h : A.inv.IsRigid) : A.IsRigid := by
  have h2 := h.inv
  have e : A.inv.inv.R = A.R := rfl
  unfold Iso.IsRigid at h2 ⊢
  rwa [e] at h2

theorem oneImage_point {C T : Iso} (hC : Representable C) (hT : Representable T) (pt : V3) (cam tgt : Pose6) {c t : Iso}
    (hc : poseCalToEigen cam = c.inv) (ht : poseCalToEigen tgt = t) :
    targetPointInCamera C.inv T pt cam tgt = (seenFrom C T c t).apply pt := by
  unfold targetPointInCamera seenFrom
  simp only [transformPoint_eq, hC.inv.act, hT.act, Iso.apply_mul, hc, ht]

theorem oneImage_pixels {C T : Iso} (hC : Representable C) (hT : Representable T) (intr : Intr) (ks : List Corr2) {st : Nat → Pose6} {c t : Iso}
    (hc : poseCalToEigen (st heCam) = c.inv) (ht : poseCalToEigen (st heTgt) = t) (hz : ClearlyInFront (seenFrom C T c t) ks) :
    residuals ((features [⟨ks, C, T⟩]).map (heBlock2 intr)) st = pixelErrors intr (seenFrom C T c t) ks := by
  rw [residuals_map]
  unfold pixelErrors features
  simp only [List.flatMap_cons, List.flatMap_nil, List.append_nil, List.flatMap_map]
  refine flatMap_congr' fun k hk => ?_
  have h0 := hz k hk
  simp only [ResBlock.residual, heBlock2, List.map_cons, List.map_nil, eval2, handEyeCost2, oneImage_point hC hT k.inTarget _ _ hc ht, diff2,
    projectPoint_eq_pinhole (ne_of_gt (lt_trans (by norm_num) h0))]

theorem oneImage_points {C T : Iso} (hC : Representable C) (hT : Representable T) (ks : List Corr3) {st : Nat → Pose6} {c t : Iso}
    (hc : poseCalToEigen (st heCam) = c.inv) (ht : poseCalToEigen (st heTgt) = t) :
    residuals ((features [⟨ks, C, T⟩]).map heBlock3) st = pointErrors (seenFrom C T c t) ks := by
  rw [residuals_map]
  unfold pointErrors features
  simp only [List.flatMap_cons, List.flatMap_nil, List.append_nil, List.flatMap_map]
  refine flatMap_congr' fun k hk => ?_
  simp only [ResBlock.residual, heBlock3, List.map_cons, List.map_nil, eval2, handEyeCost3, oneImage_point hC hT k.inTarget _ _ hc ht, diff3]

theorem oneImage_features {κ : Type} {ks : List κ} (h : ks ≠ []) (C T : Iso) : features [⟨ks, C, T⟩] ≠ [] := by
  intro e
  unfold features at e
  simp [h] at e

theorem pnp3_empty (s : Ceres V3) (p : PnPProblem Corr3) (h : p.correspondences = []) : pnp3 s p = .abort := by
  unfold pnp3 pnpFinish pnpBuild3
  rw [h]
  simp only [List.map_nil]
  rw [computeCovariance_abort]
  · rfl
  · rfl
  · intro b hb
    simp only [List.mem_cons, List.not_mem_nil, or_false] at hb
    rcases hb with rfl | rfl <;> exact ⟨_, rfl, .inl (by simp [Ceres.covSolver, usedBlocks])⟩
  · exact ⟨pnpRot, by simp, by simp [Ceres.covSolver, usedBlocks]⟩

theorem oneImage_start {κ : Type} {p : HandEyeProblem κ} (hc : Representable p.cameraGuess) (ht : Representable p.targetGuess) :
    poseCalToEigen (heInit p heCam) = p.cameraGuess.inv ∧ poseCalToEigen (heInit p heTgt) = p.targetGuess :=
  ⟨hc.inv.roundtrip, ht.roundtrip⟩

/-! ## The claims -/

/-- Every result of PnP with points in space is a result of hand-eye calibration of the one image: the camera stays at its guess and the
target is on its mount where the camera sees it. -/
theorem C242_pnp_to_hand_eye_3d (intr intr' : Intr) (C T c t : Iso) (ks : List Corr3) (l lc lt : String) (ls : List String) (hls : ls.length = 6)
    (hC : Representable C) (hT : Representable T) (hc : Representable c) (ht : Representable t) (r : PnPResult)
    (hr : Reaches (fun s => pnp3 s ⟨intr, ks, seenFrom C T c t, l⟩) r) (hP : Representable (onMount C T c r.cameraToTarget)) :
    ∃ r' : HandEyeResult, Reaches (fun s => handEye3 s ⟨[⟨ks, C, T⟩], intr', t, c, lc, lt, ls⟩) r' ∧ r'.converged = r.converged ∧
      r'.initialCost = r.initialCost ∧ r'.finalCost = r.finalCost ∧ r'.cameraMountToCamera = c ∧
      r'.targetMountToTarget = onMount C T c r.cameraToTarget := by
  obtain ⟨s, hs, hr⟩ := hr
  obtain ⟨P, hPd⟩ : ∃ P : PnPProblem Corr3, P = ⟨intr, ks, seenFrom C T c t, l⟩ := ⟨_, rfl⟩
  obtain ⟨Q, hQ⟩ : ∃ Q : HandEyeProblem Corr3, Q = ⟨[⟨ks, C, T⟩], intr', t, c, lc, lt, ls⟩ := ⟨_, rfl⟩
  beta_reduce at hr
  rw [← hPd] at hr
  rw [← hQ]
  have hne : ks ≠ [] := by
    intro e
    rw [pnp3_empty s P (by rw [hPd]; exact e)] at hr
    cases hr
  have hrig : (seenFrom C T c t).IsRigid := hc.inv.rigid.mul (hC.inv.rigid.mul (hT.rigid.mul ht.rigid))
  have hi : pnpTransform (pnpInit P.guess pnpRot) (pnpInit P.guess pnpTrans) = seenFrom C T c t := by
    rw [hPd]; exact pnpInit_transform hrig
  obtain ⟨q1, q2⟩ := oneImage_start (p := Q) (by rw [hQ]; exact hc) (by rw [hQ]; exact ht)
  have q1 : poseCalToEigen (heInit Q heCam) = c.inv := by rw [q1, hQ]
  have q2 : poseCalToEigen (heInit Q heTgt) = t := by rw [q2, hQ]
  unfold pnp3 pnpFinish at hr
  simp only [Res.bind_ok_iff] at hr
  obtain ⟨cov, -, hr⟩ := hr
  cases hr
  simp only at hP ⊢
  obtain ⟨s', wf, cov', h⟩ := heFinish_from Q (by rw [hQ]; exact hls) (oneImage_features hne C T) heBlock3 (fun _ _ => rfl) hs (pnpBuild3 P)
    (pnpInit P.guess) hc hP
    (by rw [oneImage_points hC hT ks q1 q2, pnpBuild3_residuals P _ _ hi, hPd])
    (by
      intro st h1 h2
      rw [oneImage_points hC hT ks h1 h2, pnpBuild3_residuals P _ _ rfl, hPd, seenFrom_onMount hC.rigid hT.rigid hc.rigid])
  have hr' : handEye3 s' Q = heFinish s' Q ((features [⟨ks, C, T⟩]).map heBlock3) := by
    unfold handEye3
    rw [heBuild3_eq, hQ]
  rw [h] at hr'
  exact ⟨_, ⟨s', wf, hr'⟩, rfl, rfl, rfl, rfl, rfl⟩

/-- Every result of hand-eye calibration of one image is a result of PnP: the target seen from the camera. -/
theorem C242_hand_eye_to_pnp_3d (intr intr' : Intr) (C T c t : Iso) (ks : List Corr3) (l lc lt : String) (ls : List String)
    (hC : Representable C) (hT : Representable T) (hc : Representable c) (ht : Representable t) (r' : HandEyeResult)
    (hr : Reaches (fun s => handEye3 s ⟨[⟨ks, C, T⟩], intr', t, c, lc, lt, ls⟩) r') (h1 : RigidMotion r'.cameraMountToCamera)
    (h2 : RigidMotion r'.targetMountToTarget) :
    ∃ r : PnPResult, Reaches (fun s => pnp3 s ⟨intr, ks, seenFrom C T c t, l⟩) r ∧ r.converged = r'.converged ∧
      r.initialCost = r'.initialCost ∧ r.finalCost = r'.finalCost ∧
      r.cameraToTarget = seenFrom C T r'.cameraMountToCamera r'.targetMountToTarget := by
  obtain ⟨s, hs, hr⟩ := hr
  obtain ⟨P, hPd⟩ : ∃ P : PnPProblem Corr3, P = ⟨intr, ks, seenFrom C T c t, l⟩ := ⟨_, rfl⟩
  obtain ⟨Q, hQ⟩ : ∃ Q : HandEyeProblem Corr3, Q = ⟨[⟨ks, C, T⟩], intr', t, c, lc, lt, ls⟩ := ⟨_, rfl⟩
  beta_reduce at hr
  rw [← hQ] at hr
  rw [← hPd]
  have hrig : (seenFrom C T c t).IsRigid := hc.inv.rigid.mul (hC.inv.rigid.mul (hT.rigid.mul ht.rigid))
  have hi : pnpTransform (pnpInit P.guess pnpRot) (pnpInit P.guess pnpTrans) = seenFrom C T c t := by
    rw [hPd]; exact pnpInit_transform hrig
  obtain ⟨q1, q2⟩ := oneImage_start (p := Q) (by rw [hQ]; exact hc) (by rw [hQ]; exact ht)
  have q1 : poseCalToEigen (heInit Q heCam) = c.inv := by rw [q1, hQ]
  have q2 : poseCalToEigen (heInit Q heTgt) = t := by rw [q2, hQ]
  unfold handEye3 at hr
  have hbq : heBuild3 Q = (features [⟨ks, C, T⟩]).map heBlock3 := by rw [heBuild3_eq, hQ]
  rw [hbq] at hr
  unfold heFinish at hr
  simp only [Res.bind_ok_iff] at hr
  obtain ⟨cov, hcov, hr⟩ := hr
  have hne : ks ≠ [] := by
    rintro rfl
    have hs1 := (C26_returns _ _ _ _ _ hcov).1
    rw [(hs.order_perm _).length_eq] at hs1
    exact absurd (show (2 : Nat) = 0 from hs1) (by decide)
  cases hr
  simp only at h1 h2 ⊢
  obtain ⟨pb, hpb⟩ : ∃ pb, pb = (features [⟨ks, C, T⟩]).map heBlock3 := ⟨_, rfl⟩
  obtain ⟨st, hst⟩ : ∃ st, st = s.solve pb (heInit Q) := ⟨_, rfl⟩
  rw [← hpb, ← hst] at h1 h2 ⊢
  have hA := rigid_of_inv ((rigid_iff _).2 h1)
  have e2 := oneImage_points hC hT ks (st := st) (Iso.inv_inv hA).symm rfl
  rw [← hpb] at e2
  obtain ⟨s', wf, cov', h⟩ := pnpFinish_from P hne (fun c => ⟨[pnpRot, pnpTrans], evalV2 (pnpCost3 c.inTarget c.inImage)⟩) (fun _ _ => rfl) hs pb (heInit Q)
    (T := seenFrom C T (poseCalToEigen (st heCam)).inv (poseCalToEigen (st heTgt)))
    (((rigid_iff _).2 h1).inv.mul (hC.inv.rigid.mul (hT.rigid.mul ((rigid_iff _).2 h2))))
    (by
      have : residuals (pnpBuild3 P) (pnpInit P.guess) = residuals pb (heInit Q) := by
        rw [pnpBuild3_residuals P _ _ hi, hpb, oneImage_points hC hT ks q1 q2, hPd]
      rw [← this, pnpBuild3, hPd])
    (by
      intro f hf
      have : residuals (pnpBuild3 P) f = residuals pb st := by
        rw [pnpBuild3_residuals P _ _ hf, e2, hPd]
      rw [← hst, ← this, pnpBuild3, hPd])
  have hr' : pnp3 s' P = pnpFinish s' P (ks.map fun c => ⟨[pnpRot, pnpTrans], evalV2 (pnpCost3 c.inTarget c.inImage)⟩) := by
    unfold pnp3 pnpBuild3
    rw [hPd]
  rw [h] at hr'
  exact ⟨_, ⟨s', wf, hr'⟩, rfl, rfl, by rw [hst], rfl⟩

/-- The same for points in images, if they are clearly in front of the camera at the guess and at the result. -/
theorem C242_pnp_to_hand_eye (intr : Intr) (C T c t : Iso) (ks : List Corr2) (l lc lt : String) (ls : List String) (hls : ls.length = 6)
    (hC : Representable C) (hT : Representable T) (hc : Representable c) (ht : Representable t) (r : PnPResult)
    (hr : Reaches (fun s => pnp2 s ⟨intr, ks, seenFrom C T c t, l⟩) r) (hP : Representable (onMount C T c r.cameraToTarget))
    (f0 : ClearlyInFront (seenFrom C T c t) ks) (f1 : ClearlyInFront r.cameraToTarget ks) :
    ∃ r' : HandEyeResult, Reaches (fun s => handEye2 s ⟨[⟨ks, C, T⟩], intr, t, c, lc, lt, ls⟩) r' ∧ r'.converged = r.converged ∧
      r'.initialCost = r.initialCost ∧ r'.finalCost = r.finalCost ∧ r'.cameraMountToCamera = c ∧
      r'.targetMountToTarget = onMount C T c r.cameraToTarget := by
  obtain ⟨s, hs, hr⟩ := hr
  obtain ⟨P, hPd⟩ : ∃ P : PnPProblem Corr2, P = ⟨intr, ks, seenFrom C T c t, l⟩ := ⟨_, rfl⟩
  obtain ⟨Q, hQ⟩ : ∃ Q : HandEyeProblem Corr2, Q = ⟨[⟨ks, C, T⟩], intr, t, c, lc, lt, ls⟩ := ⟨_, rfl⟩
  beta_reduce at hr
  rw [← hPd] at hr
  rw [← hQ]
  have hne : ks ≠ [] := by
    intro e
    rw [pnp2_empty s P (by rw [hPd]; exact e)] at hr
    cases hr
  have hrig : (seenFrom C T c t).IsRigid := hc.inv.rigid.mul (hC.inv.rigid.mul (hT.rigid.mul ht.rigid))
  have hi : pnpTransform (pnpInit P.guess pnpRot) (pnpInit P.guess pnpTrans) = seenFrom C T c t := by
    rw [hPd]; exact pnpInit_transform hrig
  obtain ⟨q1, q2⟩ := oneImage_start (p := Q) (by rw [hQ]; exact hc) (by rw [hQ]; exact ht)
  have q1 : poseCalToEigen (heInit Q heCam) = c.inv := by rw [q1, hQ]
  have q2 : poseCalToEigen (heInit Q heTgt) = t := by rw [q2, hQ]
  have hb : heBuild2 Q = .ok ((features [⟨ks, C, T⟩]).map (heBlock2 intr)) := by
    have := (visible_built (p := Q) (by
      rw [hQ]; intro o ho; rw [List.mem_singleton] at ho; subst ho; exact ⟨hC, hT⟩) (by rw [hQ]; exact hc) (by rw [hQ]; exact ht)).1 (by
      rw [hQ]
      intro f hf
      unfold features at hf
      simp only [List.flatMap_cons, List.flatMap_nil, List.append_nil, List.mem_map] at hf
      obtain ⟨k, hk, rfl⟩ := hf
      exact lt_trans (by norm_num) (f0 k hk))
    rw [this, hQ]
  unfold pnp2 pnpFinish at hr
  simp only [Res.bind_ok_iff] at hr
  obtain ⟨cov, -, hr⟩ := hr
  cases hr
  simp only at hP f1 ⊢
  obtain ⟨s', wf, cov', h⟩ := heFinish_from Q (by rw [hQ]; exact hls) (oneImage_features hne C T) (heBlock2 intr) (fun _ _ => rfl) hs (pnpBuild2 P)
    (pnpInit P.guess) hc hP
    (by rw [oneImage_pixels hC hT intr ks q1 q2 f0, pnpBuild2_residuals P _ _ hi (by rw [hPd]; exact f0), hPd])
    (by
      intro st h1 h2
      have e := seenFrom_onMount hC.rigid hT.rigid hc.rigid
      rw [oneImage_pixels hC hT intr ks h1 h2 (by rw [e]; exact f1), pnpBuild2_residuals P _ _ rfl (by rw [hPd] at f1 ⊢; exact f1), e, hPd])
  have hr' : handEye2 s' Q = heFinish s' Q ((features [⟨ks, C, T⟩]).map (heBlock2 intr)) := by
    unfold handEye2
    rw [hb, Res.ok_bind]
  rw [h] at hr'
  exact ⟨_, ⟨s', wf, hr'⟩, rfl, rfl, rfl, rfl, rfl⟩

/-- The other way round for points in images. -/
theorem C242_hand_eye_to_pnp (intr : Intr) (C T c t : Iso) (ks : List Corr2) (l lc lt : String) (ls : List String)
    (hC : Representable C) (hT : Representable T) (hc : Representable c) (ht : Representable t) (r' : HandEyeResult)
    (hr : Reaches (fun s => handEye2 s ⟨[⟨ks, C, T⟩], intr, t, c, lc, lt, ls⟩) r') (h1 : RigidMotion r'.cameraMountToCamera)
    (h2 : RigidMotion r'.targetMountToTarget) (f0 : ClearlyInFront (seenFrom C T c t) ks)
    (f1 : ClearlyInFront (seenFrom C T r'.cameraMountToCamera r'.targetMountToTarget) ks) :
    ∃ r : PnPResult, Reaches (fun s => pnp2 s ⟨intr, ks, seenFrom C T c t, l⟩) r ∧ r.converged = r'.converged ∧
      r.initialCost = r'.initialCost ∧ r.finalCost = r'.finalCost ∧
      r.cameraToTarget = seenFrom C T r'.cameraMountToCamera r'.targetMountToTarget := by
  obtain ⟨s, hs, hr⟩ := hr
  obtain ⟨P, hPd⟩ : ∃ P : PnPProblem Corr2, P = ⟨intr, ks, seenFrom C T c t, l⟩ := ⟨_, rfl⟩
  obtain ⟨Q, hQ⟩ : ∃ Q : HandEyeProblem Corr2, Q = ⟨[⟨ks, C, T⟩], intr, t, c, lc, lt, ls⟩ := ⟨_, rfl⟩
  beta_reduce at hr
  rw [← hQ] at hr
  rw [← hPd]
  have hrig : (seenFrom C T c t).IsRigid := hc.inv.rigid.mul (hC.inv.rigid.mul (hT.rigid.mul ht.rigid))
  have hi : pnpTransform (pnpInit P.guess pnpRot) (pnpInit P.guess pnpTrans) = seenFrom C T c t := by
    rw [hPd]; exact pnpInit_transform hrig
  obtain ⟨q1, q2⟩ := oneImage_start (p := Q) (by rw [hQ]; exact hc) (by rw [hQ]; exact ht)
  have q1 : poseCalToEigen (heInit Q heCam) = c.inv := by rw [q1, hQ]
  have q2 : poseCalToEigen (heInit Q heTgt) = t := by rw [q2, hQ]
  unfold handEye2 at hr
  rw [Res.bind_ok_iff] at hr
  obtain ⟨pb, hb, hr⟩ := hr
  have hpb : pb = (features [⟨ks, C, T⟩]).map (heBlock2 intr) := by
    have := (visible_built (p := Q) (by
      rw [hQ]; intro o ho; rw [List.mem_singleton] at ho; subst ho; exact ⟨hC, hT⟩) (by rw [hQ]; exact hc) (by rw [hQ]; exact ht)).2 pb hb
    rw [this, hQ]
  unfold heFinish at hr
  simp only [Res.bind_ok_iff] at hr
  obtain ⟨cov, hcov, hr⟩ := hr
  have hne : ks ≠ [] := by
    rintro rfl
    have hs1 := (C26_returns _ _ _ _ _ hcov).1
    rw [(hs.order_perm _).length_eq, hpb] at hs1
    exact absurd (show (2 : Nat) = 0 from hs1) (by decide)
  cases hr
  simp only at h1 h2 f1 ⊢
  obtain ⟨st, hst⟩ : ∃ st, st = s.solve pb (heInit Q) := ⟨_, rfl⟩
  rw [← hst] at h1 h2 f1 ⊢
  have hA := rigid_of_inv ((rigid_iff _).2 h1)
  have e2 := oneImage_pixels hC hT intr ks (st := st) (Iso.inv_inv hA).symm rfl f1
  rw [← hpb] at e2
  obtain ⟨s', wf, cov', h⟩ := pnpFinish_from P hne (fun c => ⟨[pnpRot, pnpTrans], evalV2 (pnpCost2 intr c.inTarget c.inImage)⟩) (fun _ _ => rfl) hs pb (heInit Q)
    (T := seenFrom C T (poseCalToEigen (st heCam)).inv (poseCalToEigen (st heTgt)))
    (((rigid_iff _).2 h1).inv.mul (hC.inv.rigid.mul (hT.rigid.mul ((rigid_iff _).2 h2))))
    (by
      have : residuals (pnpBuild2 P) (pnpInit P.guess) = residuals pb (heInit Q) := by
        rw [pnpBuild2_residuals P _ _ hi (by rw [hPd]; exact f0), hpb, oneImage_pixels hC hT intr ks q1 q2 f0, hPd]
      rw [← this, pnpBuild2, hPd])
    (by
      intro f hf
      have : residuals (pnpBuild2 P) f = residuals pb st := by
        rw [pnpBuild2_residuals P _ _ hf (by rw [hPd]; exact f1), e2, hPd]
      rw [← hst, ← this, pnpBuild2, hPd])
  have hr' : pnp2 s' P = pnpFinish s' P (ks.map fun c => ⟨[pnpRot, pnpTrans], evalV2 (pnpCost2 intr c.inTarget c.inImage)⟩) := by
    unfold pnp2 pnpBuild2
    rw [hPd]
  rw [h] at hr'
  exact ⟨_, ⟨s', wf, hr'⟩, rfl, rfl, by rw [hst], rfl⟩

/-! ## Examples -/

theorem onMount_seenFrom {C T c : Iso} (hC : C.IsRigid) (hT : T.IsRigid) (hc : c.IsRigid) (t : Iso) :
    onMount C T c (seenFrom C T c t) = t := by
  unfold seenFrom onMount
  rw [← Iso.mul_assoc c, Iso.mul_inv hc, Iso.one_mul, ← Iso.mul_assoc C, Iso.mul_inv hC, Iso.one_mul, ← Iso.mul_assoc, Iso.inv_mul hT,
    Iso.one_mul]

/-- For points in front of the camera at the guess there are results of PnP and of hand-eye calibration that meet the conditions. -/
theorem oneImage_results (intr : Intr) (C T c t : Iso) (ks : List Corr2) (hne : ks ≠ [])
    (hC : Representable C) (hT : Representable T) (hc : Representable c) (ht : Representable t) (f0 : ClearlyInFront (seenFrom C T c t) ks) :
    ∃ (r : PnPResult) (r' : HandEyeResult), Reaches (fun s => pnp2 s ⟨intr, ks, seenFrom C T c t, ""⟩) r ∧
      Representable (onMount C T c r.cameraToTarget) ∧ ClearlyInFront r.cameraToTarget ks ∧
      Reaches (fun s => handEye2 s ⟨[⟨ks, C, T⟩], intr, t, c, "", "", ["x", "y", "z", "rx", "ry", "rz"]⟩) r' ∧
      RigidMotion r'.cameraMountToCamera ∧ RigidMotion r'.targetMountToTarget ∧
      ClearlyInFront (seenFrom C T r'.cameraMountToCamera r'.targetMountToTarget) ks := by
  have hrig : RigidMotion (seenFrom C T c t) := (rigid_iff _).1 (hc.inv.rigid.mul (hC.inv.rigid.mul (hT.rigid.mul ht.rigid)))
  obtain ⟨r, hr⟩ := pnp2_id_returns ⟨intr, ks, seenFrom C T c t, ""⟩ hne
  have hP : r.cameraToTarget = seenFrom C T c t := C34_pnp (idCeres V3) ⟨intr, ks, seenFrom C T c t, ""⟩ r (fun _ _ => rfl) hrig hr
  have e : onMount C T c r.cameraToTarget = t := by rw [hP]; exact onMount_seenFrom hC.rigid hT.rigid hc.rigid t
  have hrep : Representable (onMount C T c r.cameraToTarget) := by rw [e]; exact ht
  have f1 : ClearlyInFront r.cameraToTarget ks := by rw [hP]; exact f0
  have hR : Reaches (fun s => pnp2 s ⟨intr, ks, seenFrom C T c t, ""⟩) r := ⟨_, idCeres_wf _, hr⟩
  obtain ⟨r', hr', -, -, -, q1, q2⟩ := C242_pnp_to_hand_eye intr C T c t ks "" "" "" ["x", "y", "z", "rx", "ry", "rz"] rfl hC hT hc ht r hR hrep f0 f1
  exact ⟨r, r', hR, hrep, f1, hr', by rw [q1]; exact hc.1, by rw [q2]; exact hrep.1, by rw [q1, q2, e]; exact f0⟩

/-- The same for points in space. -/
theorem oneImage_results_3d (intr : Intr) (C T c t : Iso) (ks : List Corr3) (hne : ks ≠ [])
    (hC : Representable C) (hT : Representable T) (hc : Representable c) (ht : Representable t) :
    ∃ (r : PnPResult) (r' : HandEyeResult), Reaches (fun s => pnp3 s ⟨intr, ks, seenFrom C T c t, ""⟩) r ∧
      Representable (onMount C T c r.cameraToTarget) ∧
      Reaches (fun s => handEye3 s ⟨[⟨ks, C, T⟩], intr, t, c, "", "", ["x", "y", "z", "rx", "ry", "rz"]⟩) r' ∧
      RigidMotion r'.cameraMountToCamera ∧ RigidMotion r'.targetMountToTarget := by
  have hrig : RigidMotion (seenFrom C T c t) := (rigid_iff _).1 (hc.inv.rigid.mul (hC.inv.rigid.mul (hT.rigid.mul ht.rigid)))
  obtain ⟨r, hr⟩ := pnp3_id_returns ⟨intr, ks, seenFrom C T c t, ""⟩ hne
  have hP : r.cameraToTarget = seenFrom C T c t := C34_pnp_3d (idCeres V3) ⟨intr, ks, seenFrom C T c t, ""⟩ r (fun _ _ => rfl) hrig hr
  have e : onMount C T c r.cameraToTarget = t := by rw [hP]; exact onMount_seenFrom hC.rigid hT.rigid hc.rigid t
  have hrep : Representable (onMount C T c r.cameraToTarget) := by rw [e]; exact ht
  have hR : Reaches (fun s => pnp3 s ⟨intr, ks, seenFrom C T c t, ""⟩) r := ⟨_, idCeres_wf _, hr⟩
  obtain ⟨r', hr', -, -, -, q1, q2⟩ := C242_pnp_to_hand_eye_3d intr intr C T c t ks "" "" "" ["x", "y", "z", "rx", "ry", "rz"] rfl hC hT hc ht r hR hrep
  exact ⟨r, r', hR, hrep, hr', by rw [q1]; exact hc.1, by rw [q2]; exact hrep.1⟩

/-- A camera one metre above its mount looks at a target on a mount two metres away. -/
example : ∃ (C T c t : Iso) (ks : List Corr2), ks.length = 2 ∧ C.t.x = 1 ∧ T.t.z = 2 ∧ Representable C ∧ Representable T ∧ Representable c ∧
    Representable t ∧ ClearlyInFront (seenFrom C T c t) ks := by
  refine ⟨⟨1, ⟨1, 0, 0⟩⟩, ⟨1, ⟨1, 0, 2⟩⟩, ⟨1, ⟨0, 0, 1⟩⟩, ⟨1, ⟨0, 1, 0⟩⟩, [⟨⟨0, 0⟩, ⟨0, 0, 0⟩⟩, ⟨⟨1, 0⟩, ⟨0, 1, 0⟩⟩], rfl, rfl, rfl,
    Representable.translation _, Representable.translation _, Representable.translation _, Representable.translation _, ?_⟩
  intro k hk
  simp only [List.mem_cons, List.not_mem_nil, or_false] at hk
  rcases hk with rfl | rfl <;>
    (simp [seenFrom, Iso.apply, Iso.inv, M3.tr, M3.mulVec, Iso.mul_def, M3.mul_def]; norm_num)

end RCT
