import Verif.Spec.FrameChoice
import Verif.Props.Unit
import Verif.Lemmas.Zhang
import Verif.Props.MultiEndToEnd

/-!
# C227 The frames that poses refer to do not matter
-/

namespace RCT

open Spec

/-! ## Blocks with a given pose -/

open Classical in
/-- A block that holds the pose `T`: the one the code writes if that is exact. -/
noncomputable def asPose (T : Iso) : Pose6 :=
  if Representable T then poseEigenToCal T else if h : ∃ q, poseCalToEigen q = T then h.choose else poseEigenToCal T

theorem asPose_rep {T : Iso} (h : Representable T) : asPose T = poseEigenToCal T := if_pos h

theorem asPose_cal {T : Iso} (h : RigidMotion T) : poseCalToEigen (asPose T) = T := by
  unfold asPose
  split
  · rename_i h'; exact h'.roundtrip
  · have he := exists_pose6 ((rigid_iff T).2 h)
    rw [dif_pos he]
    exact he.choose_spec

/-- A run of the solver transferred to a problem with the same residuals at other states. -/
theorem carry_same {β : Type} {s : Ceres β} (hs : s.WF) {pb pb' : List (ResBlock β)} {init init' fin' : Nat → β}
    (hb : pb'.map (·.blocks) = pb.map (·.blocks)) (hframe : ∀ a, a ∉ usedBlocks pb → fin' a = init' a)
    (hI : residuals pb' init' = residuals pb init) (hF : residuals pb' fin' = residuals pb (s.solve pb init)) :
    ∃ s' : Ceres β, s'.WF ∧ s'.solve pb' init' = fin' ∧ s'.converged pb' init' = s.converged pb init ∧ s'.order pb' = s.order pb ∧
      (∀ n, s'.covSolver pb' fin' n = s.covSolver pb (s.solve pb init) n) ∧
      costPerObs pb' init' = costPerObs pb init ∧ costPerObs pb' fin' = costPerObs pb (s.solve pb init) := by
  have := carry hs 1 hb hframe (by simpa using hI) (by simpa using hF)
  simpa [times] using this

/-! ## Hand-eye -/

theorem features_frames {κ : Type} (f : Frames) (m : κ → κ) (obs : List (Obs κ)) :
    features (obs.map (f.obs m)) = (features obs).map fun x => (f.obs m x.1, m x.2) := by
  unfold features
  rw [List.flatMap_map, List.map_flatMap]
  refine List.flatMap_congr fun o _ => ?_
  simp only [Frames.obs, List.map_map]
  rfl

/-- The blocks with the poses in the other frames. -/
noncomputable def Frames.move (f : Frames) (st : Nat → Pose6) : Nat → Pose6 := fun a =>
  if a = heTgt then asPose (f.mounted (poseCalToEigen (st a))) else asPose (poseCalToEigen (st a) * f.cameraMount)

theorem move_point {f : Frames} (hf : f.Rigid) {C T : Iso} (hC : Representable C) (hT : Representable T)
    (hC' : Representable (f.base * C * f.cameraMount)) (hT' : Representable (f.base * T * f.targetMount)) (st : Nat → Pose6)
    (hc : RigidMotion (poseCalToEigen (st heCam))) (ht : RigidMotion (poseCalToEigen (st heTgt))) (pt : V3) :
    targetPointInCamera (f.base * C * f.cameraMount).inv (f.base * T * f.targetMount) (f.target.apply pt) (Frames.move f st heCam)
      (Frames.move f st heTgt) = targetPointInCamera C.inv T pt (st heCam) (st heTgt) := by
  obtain ⟨h1, h2, h3, h4⟩ := hf
  have g1 := (rigid_iff _).2 h1
  have g2 := (rigid_iff _).2 h2
  have g3 := (rigid_iff _).2 h3
  have g4 := (rigid_iff _).2 h4
  have gc := (rigid_iff _).2 hc
  have gt := (rigid_iff _).2 ht
  have e1 : poseCalToEigen (Frames.move f st heCam) = poseCalToEigen (st heCam) * f.cameraMount := by
    unfold Frames.move
    rw [if_neg (by decide)]
    exact asPose_cal ((rigid_iff _).1 (gc.mul g2))
  have e2 : poseCalToEigen (Frames.move f st heTgt) = f.mounted (poseCalToEigen (st heTgt)) := by
    unfold Frames.move
    rw [if_pos rfl]
    exact asPose_cal ((rigid_iff _).1 ((g3.inv.mul gt).mul g4.inv))
  rw [targetPointInCamera_eq hC'.inv hT', targetPointInCamera_eq hC.inv hT, e1, e2, Iso.mul_inv_rev (g1.mul hC.rigid), Iso.mul_inv_rev g1]
  unfold Frames.mounted
  simp only [Iso.apply_mul, Iso.inv_apply_apply g4, Iso.inv_apply_apply g1, Iso.apply_inv_apply g3, Iso.apply_inv_apply g2]

theorem heInit_move {κ : Type} {f : Frames} (hf : f.Rigid) (m : κ → κ) {p : HandEyeProblem κ} (hc : Representable p.cameraGuess)
    (ht : Representable p.targetGuess) (hc' : Representable (f.handEye m p).cameraGuess) (ht' : Representable (f.handEye m p).targetGuess) :
    heInit (f.handEye m p) = Frames.move f (heInit p) := by
  have g2 := (rigid_iff _).2 hf.2.1
  funext a
  unfold heInit Frames.move
  by_cases ha : a = heTgt
  · simp only [ha, if_true]
    rw [ht.roundtrip]
    exact (asPose_rep ht').symm
  · simp only [ha, if_false]
    rw [hc.inv.roundtrip]
    have e : p.cameraGuess.inv * f.cameraMount = (f.handEye m p).cameraGuess.inv := by
      show _ = (f.cameraMount.inv * p.cameraGuess).inv
      rw [Iso.mul_inv_rev g2.inv, Iso.inv_inv g2]
    rw [e]
    exact (asPose_rep hc'.inv).symm

theorem heFinish_frames {κ : Type} {s : Ceres Pose6} (hs : s.WF) {f : Frames} (hf : f.Rigid) (m : κ → κ) {p : HandEyeProblem κ}
    (hc : Representable p.cameraGuess) (ht : Representable p.targetGuess) (hc' : Representable (f.handEye m p).cameraGuess)
    (ht' : Representable (f.handEye m p).targetGuess) {pb pb' : List (ResBlock Pose6)} (hb : pb'.map (·.blocks) = pb.map (·.blocks))
    (hres : ∀ st : Nat → Pose6, RigidMotion (poseCalToEigen (st heCam)) → RigidMotion (poseCalToEigen (st heTgt)) →
      residuals pb' (Frames.move f st) = residuals pb st)
    {r : HandEyeResult} (hr : heFinish s p pb = .ok r) (h1 : RigidMotion r.cameraMountToCamera) (h2 : RigidMotion r.targetMountToTarget) :
    ∃ r', Reaches (fun s => heFinish s (f.handEye m p) pb') r' ∧ f.HandEyeSame r r' := by
  obtain ⟨-, e1, e2⟩ := heFinish_ok hr
  have hcam : RigidMotion (poseCalToEigen (s.solve pb (heInit p) heCam)) := by
    rw [e2] at h1
    exact (rigid_iff _).1 (Iso.IsRigid.of_inv ((rigid_iff _).2 h1))
  have htgt : RigidMotion (poseCalToEigen (s.solve pb (heInit p) heTgt)) := by rw [e1] at h2; exact h2
  have hinit := heInit_move hf m hc ht hc' ht'
  obtain ⟨s', hs', k1, k2, k3, k4, k5, k6⟩ := carry_same hs (init := heInit p) (init' := heInit (f.handEye m p))
    (fin' := Frames.move f (s.solve pb (heInit p))) hb
    (fun a ha => by rw [hinit]; unfold Frames.move; rw [hs.frame _ _ _ ha])
    (by
      rw [hinit]
      refine hres _ ?_ ?_
      · show RigidMotion (poseCalToEigen (if heCam = heTgt then _ else _))
        rw [if_neg (by decide), hc.inv.roundtrip]; exact hc.inv.1
      · show RigidMotion (poseCalToEigen (if heTgt = heTgt then _ else _))
        rw [if_pos rfl, ht.roundtrip]; exact ht.1)
    (hres _ hcam htgt)
  have g2 := (rigid_iff _).2 hf.2.1
  unfold heFinish at hr
  simp only [Res.bind_ok_iff] at hr
  obtain ⟨cov, hcov, hr⟩ := hr
  cases hr
  refine ⟨⟨s.converged pb (heInit p), costPerObs pb (heInit p), costPerObs pb (s.solve pb (heInit p)),
    poseCalToEigen (Frames.move f (s.solve pb (heInit p)) heTgt), (poseCalToEigen (Frames.move f (s.solve pb (heInit p)) heCam)).inv, cov⟩,
    ⟨s', hs', ?_⟩, rfl, rfl, rfl, ?_, ?_⟩
  · simp only [heFinish, k1, k2, k3, k4, k5, k6]
    rw [show (f.handEye m p).labels = p.labels from rfl, show (f.handEye m p).labelCamera = p.labelCamera from rfl,
      show (f.handEye m p).labelTarget = p.labelTarget from rfl, hcov, Res.ok_bind]
  · show (poseCalToEigen (Frames.move f _ heCam)).inv = f.cameraMount.inv * (poseCalToEigen _).inv
    unfold Frames.move
    rw [if_neg (by decide), asPose_cal ((rigid_iff _).1 (((rigid_iff _).2 hcam).mul g2)), Iso.mul_inv_rev ((rigid_iff _).2 hcam)]
  · show poseCalToEigen (Frames.move f _ heTgt) = f.mounted (poseCalToEigen _)
    unfold Frames.move
    rw [if_pos rfl]
    exact asPose_cal ((rigid_iff _).1 ((((rigid_iff _).2 hf.2.2.1).inv.mul ((rigid_iff _).2 htgt)).mul ((rigid_iff _).2 hf.2.2.2).inv))

/-- Hand-eye calibration from points.

Full statement: for every choice of frames, the problem whose poses and points refer to the new frames reaches exactly the results that
refer to the new frames and have the same costs.
Missing from the full claim: poses that the six values do not represent, before or after the change (`C227_negation`), and results that are not
rigid. -/
theorem C227_hand_eye_3d_partial (f : Frames) (hf : f.Rigid) (p : HandEyeProblem Corr3) (hm : MountsRepresentable p.observations)
    (hm' : MountsRepresentable (f.handEye f.corr3 p).observations) (hc : Representable p.cameraGuess) (ht : Representable p.targetGuess)
    (hc' : Representable (f.handEye f.corr3 p).cameraGuess) (ht' : Representable (f.handEye f.corr3 p).targetGuess) (r : HandEyeResult)
    (h : Reaches (fun s => handEye3 s p) r) (h1 : RigidMotion r.cameraMountToCamera) (h2 : RigidMotion r.targetMountToTarget) :
    ∃ r', Reaches (fun s => handEye3 s (f.handEye f.corr3 p)) r' ∧ f.HandEyeSame r r' := by
  obtain ⟨s, hs, hr⟩ := h
  have e : heBuild3 (f.handEye f.corr3 p) = (features p.observations).map fun x => heBlock3 (f.obs f.corr3 x.1, f.corr3 x.2) := by
    rw [heBuild3_eq]
    unfold Frames.handEye
    simp only [features_frames, List.map_map]
    rfl
  refine heFinish_frames hs hf f.corr3 hc ht hc' ht' (by rw [e, heBuild3_eq, List.map_map, List.map_map]; rfl) (fun st g1 g2 => ?_) hr h1 h2
  rw [e, heBuild3_eq, residuals_map, residuals_map]
  refine flatMap_congr' fun x hx => ?_
  obtain ⟨hx1, hx2⟩ := hm x.1 (mem_features.1 hx).1
  obtain ⟨hy1, hy2⟩ := hm' (f.obs f.corr3 x.1) (List.mem_map_of_mem (mem_features.1 hx).1)
  simp only [heBlock3, ResBlock.residual, List.map_cons, List.map_nil, eval2, handEyeCost3]
  simp only [Frames.obs, Frames.corr3] at hy1 hy2 ⊢
  rw [move_point hf hx1 hx2 hy1 hy2 st g1 g2]

/-- Hand-eye calibration from pixels.

Full statement: for every choice of frames, the problem whose poses and points refer to the new frames reaches exactly the results that
refer to the new frames and have the same costs.
Missing from the full claim: poses that the six values do not represent, before or after the change (`C227_negation`), and results that are not
rigid. -/
theorem C227_hand_eye_partial (f : Frames) (hf : f.Rigid) (p : HandEyeProblem Corr2) (hm : MountsRepresentable p.observations)
    (hm' : MountsRepresentable (f.handEye f.corr2 p).observations) (hc : Representable p.cameraGuess) (ht : Representable p.targetGuess)
    (hc' : Representable (f.handEye f.corr2 p).cameraGuess) (ht' : Representable (f.handEye f.corr2 p).targetGuess) (r : HandEyeResult)
    (h : Reaches (fun s => handEye2 s p) r) (h1 : RigidMotion r.cameraMountToCamera) (h2 : RigidMotion r.targetMountToTarget) :
    ∃ r', Reaches (fun s => handEye2 s (f.handEye f.corr2 p)) r' ∧ f.HandEyeSame r r' := by
  obtain ⟨s, hs, h⟩ := h
  simp only [handEye2] at h
  rcases heBuild2_cases p with ⟨hv, hb⟩ | ⟨-, hb⟩
  swap
  · rw [hb] at h; cases h
  rw [hb, Res.ok_bind] at h
  have hinit := heInit_move hf f.corr2 hc ht hc' ht'
  have hpoint : ∀ st : Nat → Pose6, RigidMotion (poseCalToEigen (st heCam)) → RigidMotion (poseCalToEigen (st heTgt)) →
      ∀ x ∈ features p.observations, targetPointInCamera (f.obs f.corr2 x.1).toCameraMount.inv (f.obs f.corr2 x.1).toTargetMount
        (f.corr2 x.2).inTarget (Frames.move f st heCam) (Frames.move f st heTgt) =
        targetPointInCamera x.1.toCameraMount.inv x.1.toTargetMount x.2.inTarget (st heCam) (st heTgt) := by
    intro st g1 g2 x hx
    obtain ⟨hx1, hx2⟩ := hm x.1 (mem_features.1 hx).1
    obtain ⟨hy1, hy2⟩ := hm' (f.obs f.corr2 x.1) (List.mem_map_of_mem (mem_features.1 hx).1)
    exact move_point hf hx1 hx2 hy1 hy2 st g1 g2 _
  have hi1 : RigidMotion (poseCalToEigen (heInit p heCam)) := by
    show RigidMotion (poseCalToEigen (if heCam = heTgt then _ else _))
    rw [if_neg (by decide), hc.inv.roundtrip]; exact hc.inv.1
  have hi2 : RigidMotion (poseCalToEigen (heInit p heTgt)) := by
    show RigidMotion (poseCalToEigen (if heTgt = heTgt then _ else _))
    rw [if_pos rfl, ht.roundtrip]; exact ht.1
  have hff : features (f.handEye f.corr2 p).observations = (features p.observations).map fun x => (f.obs f.corr2 x.1, f.corr2 x.2) :=
    features_frames _ _ _
  have hb' : heBuild2 (f.handEye f.corr2 p) = .ok ((features p.observations).map fun x => heBlock2 p.intr (f.obs f.corr2 x.1, f.corr2 x.2)) := by
    rcases heBuild2_cases (f.handEye f.corr2 p) with ⟨-, hb'⟩ | ⟨⟨y, hy, hn⟩, -⟩
    · rw [hb', hff, List.map_map]; rfl
    · rw [hff] at hy
      obtain ⟨x, hx, rfl⟩ := List.mem_map.1 hy
      refine absurd ?_ hn
      unfold heVisible
      rw [hinit]
      simp only
      rw [hpoint _ hi1 hi2 x hx]
      exact hv x hx
  obtain ⟨r', ⟨s', hs', h'⟩, hsame⟩ := heFinish_frames hs hf f.corr2 hc ht hc' ht'
    (pb' := (features p.observations).map fun x => heBlock2 p.intr (f.obs f.corr2 x.1, f.corr2 x.2))
    (by rw [List.map_map, List.map_map]; rfl) (fun st g1 g2 => by
      rw [residuals_map, residuals_map]
      refine flatMap_congr' fun x hx => ?_
      have := hpoint st g1 g2 x hx
      simp only [heBlock2, ResBlock.residual, List.map_cons, List.map_nil, eval2, handEyeCost2, this]
      rfl) h h1 h2
  refine ⟨r', ⟨s', hs', ?_⟩, hsame⟩
  simp only [handEye2]
  rw [hb', Res.ok_bind]
  exact h'

/-! ## PnP -/

theorem pnpFinish_frames {κ : Type} {s : Ceres V3} (hs : s.WF) {f : Frames} (hf : RigidMotion f.target) (m : κ → κ) {p : PnPProblem κ}
    (hg : RigidMotion p.guess) (B : Iso → κ → List ℝ) (hB : ∀ T : Iso, ∀ k, B (T * f.target.inv) (m k) = B T k)
    {r : PnPResult} (hr : pnpFinish s p (p.correspondences.map fun k => ⟨[pnpRot, pnpTrans], evalV2 fun aa t => B (pnpTransform aa t) k⟩) = .ok r) :
    ∃ r', Reaches (fun s => pnpFinish s (f.pnp m p)
      ((f.pnp m p).correspondences.map fun k => ⟨[pnpRot, pnpTrans], evalV2 fun aa t => B (pnpTransform aa t) k⟩)) r' ∧ f.PnPSame r r' := by
  obtain ⟨pb, hpb⟩ : ∃ pb : List (ResBlock V3), pb = p.correspondences.map fun k => ⟨[pnpRot, pnpTrans], evalV2 fun aa t => B (pnpTransform aa t) k⟩ :=
    ⟨_, rfl⟩
  obtain ⟨pb', hpb'⟩ : ∃ pb' : List (ResBlock V3), pb' = (f.pnp m p).correspondences.map fun k =>
    ⟨[pnpRot, pnpTrans], evalV2 fun aa t => B (pnpTransform aa t) k⟩ := ⟨_, rfl⟩
  rw [← hpb] at hr
  rw [← hpb']
  have g4 := (rigid_iff _).2 hf
  have gg := (rigid_iff _).2 hg
  obtain ⟨st, hst⟩ : ∃ st, st = s.solve pb (pnpInit p.guess) := ⟨_, rfl⟩
  obtain ⟨T, hT⟩ : ∃ T, T = pnpTransform (st pnpRot) (st pnpTrans) := ⟨_, rfl⟩
  have hTr : T.IsRigid := by rw [hT]; exact pnpTransform_rigid _ _
  have hgi : (f.pnp m p).guess = p.guess * f.target.inv := rfl
  have hres : ∀ (st st' : Nat → V3), pnpTransform (st' pnpRot) (st' pnpTrans) = pnpTransform (st pnpRot) (st pnpTrans) * f.target.inv →
      residuals pb' st' = residuals pb st := by
    intro st st' h
    rw [hpb, hpb']
    unfold Frames.pnp
    simp only [List.map_map]
    rw [residuals_map, residuals_map]
    refine flatMap_congr' fun k _ => ?_
    simp only [Function.comp, ResBlock.residual, List.map_cons, List.map_nil, evalV2, h, hB]
  obtain ⟨s', hs', k1, k2, -, k4, k5, k6⟩ := carry_same hs (pb := pb) (pb' := pb') (init := pnpInit p.guess)
    (init' := pnpInit (f.pnp m p).guess) (fin' := fun a => if a = pnpRot ∨ a = pnpTrans then pnpInit (T * f.target.inv) a else pnpInit (f.pnp m p).guess a)
    (by rw [hpb, hpb']; unfold Frames.pnp; rw [List.map_map, List.map_map, List.map_map]; rfl)
    (fun a ha => by
      split
      · rename_i hab
        have hnil : p.correspondences = [] := by
          by_contra hne
          obtain ⟨k, hk⟩ := List.exists_mem_of_ne_nil _ hne
          refine ha ?_
          unfold usedBlocks
          rw [List.mem_dedup, List.mem_flatMap, hpb]
          exact ⟨_, List.mem_map_of_mem hk, by rcases hab with rfl | rfl <;> simp⟩
        have : T = p.guess := by
          have hu : ∀ b, st b = pnpInit p.guess b := fun b => by
            rw [hst]
            refine hs.frame _ _ _ ?_
            rw [hpb, hnil]
            simp [usedBlocks]
          rw [hT, hu, hu, pnpInit_transform gg]
        rw [this, hgi]
      · rfl)
    (hres _ _ (by rw [hgi, pnpInit_transform (gg.mul g4.inv), pnpInit_transform gg]))
    (by
      rw [← hst]
      refine hres _ _ ?_
      simp only [true_or, or_true, if_true]
      rw [pnpInit_transform (hTr.mul g4.inv), hT])
  unfold pnpFinish at hr
  simp only [Res.bind_ok_iff] at hr
  obtain ⟨cov, hcov, hr⟩ := hr
  cases hr
  refine ⟨⟨s.converged pb (pnpInit p.guess), costPerObs pb (pnpInit p.guess), costPerObs pb (s.solve pb (pnpInit p.guess)),
    T * f.target.inv, cov⟩, ⟨s', hs', ?_⟩, rfl, rfl, rfl, ?_⟩
  · simp only [pnpFinish, k1, k2, k4, k5, k6]
    rw [show (f.pnp m p).label = p.label from rfl, hcov, Res.ok_bind]
    simp only [true_or, or_true, if_true]
    rw [pnpInit_transform (hTr.mul g4.inv)]
  · show T * _ = _
    rw [hT, hst]

/-- PnP from pixels: another frame of the target. -/
theorem C227_pnp (f : Frames) (hf : RigidMotion f.target) (p : PnPProblem Corr2) (hg : RigidMotion p.guess) (r : PnPResult)
    (h : Reaches (fun s => pnp2 s p) r) : ∃ r', Reaches (fun s => pnp2 s (f.pnp f.corr2 p)) r' ∧ f.PnPSame r r' := by
  obtain ⟨s, hs, h⟩ := h
  exact pnpFinish_frames hs hf f.corr2 hg (fun T k => [(projectPointE p.intr (T.apply k.inTarget)).x - k.inImage.x,
    (projectPointE p.intr (T.apply k.inTarget)).y - k.inImage.y]) (fun T k => by
      simp only [Frames.corr2, Iso.apply_mul, Iso.inv_apply_apply ((rigid_iff _).2 hf)]) h

/-- PnP from points: another frame of the target. -/
theorem C227_pnp_3d (f : Frames) (hf : RigidMotion f.target) (p : PnPProblem Corr3) (hg : RigidMotion p.guess) (r : PnPResult)
    (h : Reaches (fun s => pnp3 s p) r) : ∃ r', Reaches (fun s => pnp3 s (f.pnp f.corr3 p)) r' ∧ f.PnPSame r r' := by
  obtain ⟨s, hs, h⟩ := h
  exact pnpFinish_frames hs hf f.corr3 hg (fun T k => [(T.apply k.inTarget).x - k.inImage.x, (T.apply k.inTarget).y - k.inImage.y,
    (T.apply k.inTarget).z - k.inImage.z]) (fun T k => by
      simp only [Frames.corr3, Iso.apply_mul, Iso.inv_apply_apply ((rigid_iff _).2 hf)]) h

/-! ## Several cameras -/

/-- Poses of some blocks replaced. -/
noncomputable def moveBy (f : Nat → Option (Iso → Iso)) (st : Nat → Pose6) : Nat → Pose6 := fun a =>
  match f a with
  | some g => asPose (g (poseCalToEigen (st a)))
  | none => st a

theorem moveBy_cal {f : Nat → Option (Iso → Iso)} {a : Nat} {g : Iso → Iso} (ha : f a = some g) {st : Nat → Pose6}
    (hr : RigidMotion (g (poseCalToEigen (st a)))) : poseCalToEigen (moveBy f st a) = g (poseCalToEigen (st a)) := by
  unfold moveBy
  rw [ha]
  exact asPose_cal hr

theorem moveBy_frame {f : Nat → Option (Iso → Iso)} {s : Ceres Pose6} (hs : s.WF) (pb : List (ResBlock Pose6)) (st : Nat → Pose6) (a : Nat)
    (ha : a ∉ usedBlocks pb) : moveBy f (s.solve pb st) a = moveBy f st a := by
  unfold moveBy
  rw [hs.frame _ _ _ ha]

theorem getD_map_lt {α β : Type} (g : α → β) (l : List α) (i : Nat) (hi : i < l.length) (d : α) (d' : β) :
    (l.map g).getD i d' = g (l.getD i d) := by
  simp [List.getD_eq_getElem?_getD, hi]

def Feature.moved (f : Frames) (x : Feature) : Feature := ⟨x.cam, x.img, f.corr2 x.corr⟩

theorem featuresOf_moved (f : Frames) (obs : List (List (List Corr2))) (c i : Nat) :
    featuresOf (obs.map fun c => c.map fun l => l.map f.corr2) c i = (featuresOf obs c i).map (Feature.moved f) := by
  unfold featuresOf
  have h1 : (obs.map fun c => c.map fun l => l.map f.corr2).getD c [] = (obs.getD c []).map fun l => l.map f.corr2 :=
    getD_map (fun c => c.map fun l => l.map f.corr2) obs c []
  have h2 : ((obs.getD c []).map fun l => l.map f.corr2).getD i [] = ((obs.getD c []).getD i []).map f.corr2 :=
    getD_map (fun l => l.map f.corr2) (obs.getD c []) i []
  rw [h1, h2, List.map_map, List.map_map]
  rfl

/-- Multi camera PnP.

Full statement: for every choice of frames, the problem whose poses and points refer to the new frames reaches exactly the results that
refer to the new frames and have the same costs.
Missing from the full claim: poses that the six values do not represent, before or after the change (`C227_negation`), and results that are not
rigid. -/
theorem C227_multi_pnp_partial (f : Frames) (hb : RigidMotion f.base) (hf : RigidMotion f.target) (p : McPnpProblem)
    (h1 : p.baseToCamera.length ≤ p.intr.length) (h2 : p.baseToCamera.length ≤ p.observations.length)
    (hc : ∀ c ∈ p.baseToCamera, Representable c ∧ Representable (f.base * c)) (hg : Representable p.guess)
    (hg' : Representable (f.base * p.guess * f.target.inv)) (r : McPnpResult) (h : Reaches (fun s => mcPnp s p) r)
    (hr : RigidMotion r.baseToTarget) : ∃ r', Reaches (fun s => mcPnp s (f.multiPnp p)) r' ∧ f.MultiPnPSame r r' := by
  obtain ⟨s, hs, h⟩ := h
  have g1 := (rigid_iff _).2 hb
  have g4 := (rigid_iff _).2 hf
  obtain ⟨pb, hpb⟩ := mcPnp_built h1 h2
  obtain ⟨pb', hpb'⟩ := mcPnp_built (p := f.multiPnp p) (by simpa [Frames.multiPnp] using h1) (by simpa [Frames.multiPnp] using h2)
  have e := mcPnpBuild_eq hpb
  have e' := mcPnpBuild_eq hpb'
  have ho : oneImage (f.multiPnp p).observations (f.multiPnp p).baseToCamera.length =
      (oneImage p.observations p.baseToCamera.length).map (Feature.moved f) := by
    have h1 : (f.multiPnp p).baseToCamera.length = p.baseToCamera.length := List.length_map _
    unfold oneImage
    rw [h1, List.map_flatMap]
    refine List.flatMap_congr fun c _ => ?_
    have h2 : (f.multiPnp p).observations.getD c [] = (p.observations.getD c []).map f.corr2 :=
      getD_map (fun l : List Corr2 => l.map f.corr2) p.observations c []
    rw [h2, List.map_map, List.map_map]
    rfl
  rw [ho, List.map_map] at e'
  beta_reduce at h
  unfold mcPnp at h
  rw [hpb, Res.ok_bind] at h
  cases h
  obtain ⟨F, hF⟩ : ∃ F : Nat → Option (Iso → Iso), F = fun _ => some fun X => f.base * X * f.target.inv := ⟨_, rfl⟩
  have hres : ∀ st : Nat → Pose6, RigidMotion (poseCalToEigen (st 0)) → residuals pb' (moveBy F st) = residuals pb st := by
    intro st hst
    rw [e, e', residuals_map, residuals_map]
    refine flatMap_congr' fun x hx => ?_
    have hlt : x.cam < p.baseToCamera.length := by
      obtain ⟨c, hc, hx⟩ := List.mem_flatMap.1 hx
      obtain ⟨k, -, rfl⟩ := List.mem_map.1 hx
      exact List.mem_range.1 hc
    have hcr := hc _ (List.getElem_mem hlt)
    have hcr' : p.baseToCamera.getD x.cam 1 = p.baseToCamera[x.cam] := getD_of_some (List.getElem?_eq_getElem hlt)
    have hb' : (f.multiPnp p).baseToCamera.getD x.cam 1 = f.base * p.baseToCamera[x.cam] := by
      rw [← hcr']; exact getD_map_lt (fun c => f.base * c) _ _ hlt 1 1
    have hi : (f.multiPnp p).intr = p.intr := rfl
    have hmv : poseCalToEigen (moveBy F st 0) = f.base * poseCalToEigen (st 0) * f.target.inv :=
      moveBy_cal (f := F) (g := fun X => f.base * X * f.target.inv) (by rw [hF]) ((rigid_iff _).1 ((g1.mul ((rigid_iff _).2 hst)).mul g4.inv))
    simp only [Function.comp, mcPnpBlock, ResBlock.residual, List.map_cons, List.map_nil, eval1, mcPnpCost, Feature.moved, Frames.corr2, hb', hi, hcr',
      transformPoint_eq, hcr.1.inv.act, hcr.2.inv.act, hmv]
    simp only [Iso.mul_inv_rev g1, Iso.apply_mul, Iso.inv_apply_apply g1, Iso.inv_apply_apply g4]
  have hinit : (fun _ => poseEigenToCal (f.multiPnp p).guess) = moveBy F fun _ => poseEigenToCal p.guess := by
    funext a
    unfold moveBy
    rw [hF]
    simp only [hg.roundtrip]
    exact (asPose_rep hg').symm
  obtain ⟨s', hs', k1, k2, -, -, k5, k6⟩ := carry_same hs (init := fun _ => poseEigenToCal p.guess)
    (init' := fun _ => poseEigenToCal (f.multiPnp p).guess) (fin' := moveBy F (s.solve pb fun _ => poseEigenToCal p.guess))
    (by rw [e, e', List.map_map, List.map_map]; rfl)
    (fun a ha => by rw [moveBy_frame hs _ _ _ ha, ← hinit])
    (by rw [hinit]; exact hres _ (by rw [hg.roundtrip]; exact hg.1)) (hres _ hr)
  refine ⟨⟨s.converged pb (fun _ => poseEigenToCal p.guess), costPerObs pb (fun _ => poseEigenToCal p.guess),
    costPerObs pb (s.solve pb (fun _ => poseEigenToCal p.guess)),
    poseCalToEigen (moveBy F (s.solve pb (fun _ => poseEigenToCal p.guess)) 0)⟩, ⟨s', hs', ?_⟩, rfl, rfl, rfl, ?_⟩
  · beta_reduce
    unfold mcPnp
    rw [hpb', Res.ok_bind]
    simp only [k1, k2, k5, k6]
  · exact moveBy_cal (f := F) (g := fun X => f.base * X * f.target.inv) (by rw [hF]) ((rigid_iff _).1 ((g1.mul ((rigid_iff _).2 hr)).mul g4.inv))

theorem byCamera_moved (f : Frames) (obs : List (List (List Corr2))) (n : Nat) (images : Nat → Nat) :
    byCamera (obs.map fun c => c.map fun l => l.map f.corr2) n images = (byCamera obs n images).map (Feature.moved f) := by
  unfold byCamera
  simp only [featuresOf_moved, List.map_flatMap]

theorem byImage_moved (f : Frames) (obs : List (List (List Corr2))) (n m : Nat) :
    byImage (obs.map fun c => c.map fun l => l.map f.corr2) n m = (byImage obs n m).map (Feature.moved f) := by
  unfold byImage
  simp only [featuresOf_moved, List.map_flatMap]

theorem msFeatures_moved (f : Frames) (p : MsProblem) : msFeatures (f.static p) = (msFeatures p).map (Feature.moved f) := by
  unfold msFeatures Frames.static
  simp only [List.length_map]
  rw [byCamera_moved]
  congr 2
  funext c
  have : (p.wristPoses.map fun l => l.map fun w => f.base * w * f.targetMount).getD c [] =
      (p.wristPoses.getD c []).map fun w => f.base * w * f.targetMount :=
    getD_map (fun l => l.map fun w => f.base * w * f.targetMount) p.wristPoses c []
  rw [this, List.length_map]

theorem msSizes_moved {f : Frames} {p : MsProblem} (hp : MsSizes p) : MsSizes (f.static p) where
  wrist := by simp [Frames.static, hp.wrist]
  obs := by simp [Frames.static, hp.obs]
  intr := by simp [Frames.static, hp.intr]
  images := by
    intro c oc wp h1 h2
    simp only [Frames.static, List.getElem?_map, Option.map_eq_some_iff] at h1 h2
    obtain ⟨oc', h1, rfl⟩ := h1
    obtain ⟨wp', h2, rfl⟩ := h2
    rw [List.length_map, List.length_map]
    exact hp.images c _ _ h1 h2

/-- How the values of the blocks change: pose of the target in the wrist; inverse poses of the cameras. -/
noncomputable def msMove (f : Frames) (p : MsProblem) (a : Nat) : Option (Iso → Iso) :=
  if a = msTgt then some f.mounted else if a - 1 < p.baseToCameraGuess.length then some fun X => X * f.base.inv else none

theorem msInit_moved (f : Frames) (hb : f.base.IsRigid) (p : MsProblem)
    (hc : ∀ c ∈ p.baseToCameraGuess, Representable c ∧ Representable (f.base * c)) (ht : Representable p.wristToTargetGuess)
    (ht' : Representable (f.mounted p.wristToTargetGuess)) : msInit (f.static p) = moveBy (msMove f p) (msInit p) := by
  funext a
  unfold msInit moveBy msMove Frames.static
  by_cases ha : a = msTgt
  · simp only [ha, if_true, ht.roundtrip]
    exact (asPose_rep ht').symm
  · simp only [if_neg ha, List.getElem?_map]
    by_cases hl : a - 1 < p.baseToCameraGuess.length
    · simp only [if_pos hl, List.getElem?_eq_getElem hl, Option.map_some]
      have h := hc _ (List.getElem_mem hl)
      rw [h.1.inv.roundtrip, ← Iso.mul_inv_rev hb]
      exact (asPose_rep h.2.inv).symm
    · simp only [if_neg hl, List.getElem?_eq_none (not_lt.1 hl), Option.map_none]

/-- Several static cameras and a target on the wrist.

Full statement: for every choice of frames, the problem whose poses and points refer to the new frames reaches exactly the results that
refer to the new frames and have the same costs.
Missing from the full claim: poses that the six values do not represent, before or after the change (`C227_negation`), and results that are not
rigid. -/
theorem C227_static_partial (f : Frames) (hf : f.Rigid) (p : MsProblem) (hp : MsSizes p)
    (hw : ∀ wp ∈ p.wristPoses, ∀ w ∈ wp, Representable w ∧ Representable (f.base * w * f.targetMount))
    (hc : ∀ c ∈ p.baseToCameraGuess, Representable c ∧ Representable (f.base * c)) (ht : Representable p.wristToTargetGuess)
    (ht' : Representable (f.mounted p.wristToTargetGuess)) (r : MsResult) (h : Reaches (fun s => multiStatic s p) r)
    (hr : RigidMotion r.wristToTarget) (hr' : ∀ c ∈ r.baseToCamera, RigidMotion c) :
    ∃ r', Reaches (fun s => multiStatic s (f.static p)) r' ∧ f.StaticSame r r' := by
  obtain ⟨s, hs, h⟩ := h
  have g1 := (rigid_iff _).2 hf.1
  have g3 := (rigid_iff _).2 hf.2.2.1
  have g4 := (rigid_iff _).2 hf.2.2.2
  obtain ⟨pb, hb⟩ := C41_built p hp.wrist hp.obs hp.intr hp.images
  have hp' := msSizes_moved (f := f) hp
  obtain ⟨pb', hb'⟩ := C41_built (f.static p) hp'.wrist hp'.obs hp'.intr hp'.images
  have e := msBuild_eq hb
  have e' := msBuild_eq hb'
  rw [msFeatures_moved, List.map_map] at e'
  beta_reduce at h
  unfold multiStatic at h
  rw [hb, Res.ok_bind] at h
  simp only [Res.bind_ok_iff] at h
  obtain ⟨cov, hcov, h⟩ := h
  cases h
  have htgt : ∀ st : Nat → Pose6, RigidMotion (poseCalToEigen (st msTgt)) →
      poseCalToEigen (moveBy (msMove f p) st msTgt) = f.mounted (poseCalToEigen (st msTgt)) := fun st hst =>
    moveBy_cal (by simp [msMove]) ((rigid_iff _).1 ((g3.inv.mul ((rigid_iff _).2 hst)).mul g4.inv))
  have hcam : ∀ (st : Nat → Pose6) (c : Nat), c < p.baseToCameraGuess.length → RigidMotion (poseCalToEigen (st (msCam c))) →
      poseCalToEigen (moveBy (msMove f p) st (msCam c)) = poseCalToEigen (st (msCam c)) * f.base.inv := fun st c hc hst =>
    moveBy_cal (g := fun X => X * f.base.inv) (by simp [msMove, msCam, msTgt, hc]) ((rigid_iff _).1 (((rigid_iff _).2 hst).mul g1.inv))
  have hres : ∀ st : Nat → Pose6, RigidMotion (poseCalToEigen (st msTgt)) →
      (∀ c < p.baseToCameraGuess.length, RigidMotion (poseCalToEigen (st (msCam c)))) →
      residuals pb' (moveBy (msMove f p) st) = residuals pb st := by
    intro st h1 h2
    rw [e, e', residuals_map, residuals_map]
    refine flatMap_congr' fun x hx => ?_
    obtain ⟨m1, m2, -⟩ := mem_byCamera hx
    obtain ⟨wp, w1, w2⟩ := msFeatures_wrist hx
    have hwr := hw wp w1 _ w2
    have hw' : ((f.static p).wristPoses.getD x.cam []).getD x.img 1 = f.base * (p.wristPoses.getD x.cam []).getD x.img 1 * f.targetMount := by
      have : (f.static p).wristPoses.getD x.cam [] = (p.wristPoses.getD x.cam []).map fun w => f.base * w * f.targetMount :=
        getD_map (fun l : List Iso => l.map fun w => f.base * w * f.targetMount) p.wristPoses x.cam []
      rw [this]
      exact getD_map_lt (fun w => f.base * w * f.targetMount) _ _ m2 1 1
    have hi : (f.static p).intr = p.intr := rfl
    simp only [Function.comp, msBlock, ResBlock.residual, List.map_cons, List.map_nil, eval2, msCost, Feature.moved, Frames.corr2, hw', hi,
      transformPoint_eq, hwr.1.act, hwr.2.act, htgt st h1, hcam st _ m1 (h2 _ m1), Frames.mounted]
    simp only [Iso.apply_mul, Iso.inv_apply_apply g1, Iso.apply_inv_apply g3, Iso.inv_apply_apply g4]
  have hinit := msInit_moved f g1 p hc ht ht'
  have hfin1 : ∀ c < p.baseToCameraGuess.length, RigidMotion (poseCalToEigen (s.solve pb (msInit p) (msCam c))) := fun c hc =>
    (rigid_iff _).1 (Iso.IsRigid.of_inv ((rigid_iff _).2 (hr' _ (List.mem_map_of_mem (f := fun c => (poseCalToEigen (s.solve pb (msInit p) (msCam c))).inv)
      (List.mem_range.2 hc)))))
  obtain ⟨s', hs', k1, k2, -, k4, k5, k6⟩ := carry_same hs (init := msInit p) (init' := msInit (f.static p))
    (fin' := moveBy (msMove f p) (s.solve pb (msInit p))) (by rw [e, e', List.map_map, List.map_map]; rfl)
    (fun a ha => by rw [moveBy_frame hs _ _ _ ha, ← hinit])
    (by
      rw [hinit]
      refine hres _ ?_ fun c hc' => ?_
      · have : msInit p msTgt = poseEigenToCal p.wristToTargetGuess := by simp [msInit]
        rw [this, ht.roundtrip]; exact ht.1
      · have h := hc _ (List.getElem_mem hc')
        have : msInit p (msCam c) = poseEigenToCal p.baseToCameraGuess[c].inv := by simp [msInit, msCam, msTgt, hc']
        rw [this, h.1.inv.roundtrip]; exact h.1.inv.1)
    (hres _ hr hfin1)
  have hlen : (f.static p).baseToCameraGuess.length = p.baseToCameraGuess.length := List.length_map _
  have hnames : msNames (f.static p) = msNames p := by unfold msNames Frames.static; simp only [List.length_map]
  refine ⟨⟨s.converged pb (msInit p), costPerObs pb (msInit p), costPerObs pb (s.solve pb (msInit p)),
    poseCalToEigen (moveBy (msMove f p) (s.solve pb (msInit p)) msTgt),
    (List.range p.baseToCameraGuess.length).map (fun c => (poseCalToEigen (moveBy (msMove f p) (s.solve pb (msInit p)) (msCam c))).inv), cov⟩,
    ⟨s', hs', ?_⟩, rfl, rfl, rfl, htgt _ hr, ?_⟩
  · beta_reduce
    unfold multiStatic
    rw [hb', Res.ok_bind]
    simp only [k1, k2, k4, k5, k6, hlen, hnames]
    rw [hcov, Res.ok_bind]
  · simp only [List.map_map]
    refine List.map_congr_left fun c hc => ?_
    rw [List.mem_range] at hc
    simp only [Function.comp]
    rw [hcam _ c hc (hfin1 c hc), Iso.mul_inv_rev ((rigid_iff _).2 (hfin1 c hc)), Iso.inv_inv g1]

/-! ## One correction of all cameras -/

noncomputable def woMove (f : Frames) (a : Nat) : Option (Iso → Iso) :=
  if a = woTgt then some f.mounted else some fun X => f.base * X * f.base.inv

/-- One correction of all cameras.

Full statement: for every choice of frames, the problem whose poses and points refer to the new frames reaches exactly the results that
refer to the new frames and have the same costs.
Missing from the full claim: poses that the six values do not represent, before or after the change (`C227_negation`), and results that are not
rigid. -/
theorem C227_wrist_only_partial (f : Frames) (hf : f.Rigid) (p : WoProblem) (hp : WoSizes p)
    (hw : ∀ w ∈ p.wristPoses, Representable w ∧ Representable (f.base * w * f.targetMount))
    (hc : ∀ c ∈ p.baseToCameraGuess, Representable c ∧ Representable (f.base * c)) (ht : Representable p.wristToTargetGuess)
    (ht' : Representable (f.mounted p.wristToTargetGuess)) (r : WoResult) (h : Reaches (fun s => wristOnly s p) r)
    (hr : RigidMotion r.wristToTarget) (hr' : ∀ c ∈ r.baseToCamera, RigidMotion c) :
    ∃ r', Reaches (fun s => wristOnly s (f.wristOnly p)) r' ∧ f.WristOnlySame r r' := by
  obtain ⟨s, hs, h⟩ := h
  have g1 := (rigid_iff _).2 hf.1
  have g3 := (rigid_iff _).2 hf.2.2.1
  have g4 := (rigid_iff _).2 hf.2.2.2
  have hp' : WoSizes (f.wristOnly p) := by
    refine ⟨by simp [Frames.wristOnly, hp.intr], fun c hc => ?_⟩
    simp only [Frames.wristOnly, List.length_map, List.getElem?_map] at hc ⊢
    obtain ⟨oc, h1, h2⟩ := hp.images c hc
    exact ⟨_, by rw [h1]; rfl, by rw [List.length_map, h2]⟩
  obtain ⟨pb, hb⟩ := hp.built
  obtain ⟨pb', hb'⟩ := hp'.built
  have e := woBuild_eq hb
  have e' := woBuild_eq hb'
  have hfe : byCamera (f.wristOnly p).observations (f.wristOnly p).baseToCameraGuess.length (fun _ => (f.wristOnly p).wristPoses.length) =
      (byCamera p.observations p.baseToCameraGuess.length fun _ => p.wristPoses.length).map (Feature.moved f) := by
    unfold Frames.wristOnly
    simp only [List.length_map]
    exact byCamera_moved _ _ _ _
  rw [hfe, List.map_map] at e'
  beta_reduce at h
  unfold wristOnly at h
  rw [hb, Res.ok_bind] at h
  cases h
  have htgt : ∀ st : Nat → Pose6, RigidMotion (poseCalToEigen (st woTgt)) →
      poseCalToEigen (moveBy (woMove f) st woTgt) = f.mounted (poseCalToEigen (st woTgt)) := fun st hst =>
    moveBy_cal (by simp [woMove]) ((rigid_iff _).1 ((g3.inv.mul ((rigid_iff _).2 hst)).mul g4.inv))
  have hcorr : ∀ st : Nat → Pose6, RigidMotion (poseCalToEigen (st woCorr)) →
      poseCalToEigen (moveBy (woMove f) st woCorr) = f.base * poseCalToEigen (st woCorr) * f.base.inv := fun st hst =>
    moveBy_cal (g := fun X => f.base * X * f.base.inv) (by simp [woMove, woCorr, woTgt])
      ((rigid_iff _).1 ((g1.mul ((rigid_iff _).2 hst)).mul g1.inv))
  have hres : ∀ st : Nat → Pose6, RigidMotion (poseCalToEigen (st woTgt)) → RigidMotion (poseCalToEigen (st woCorr)) →
      residuals pb' (moveBy (woMove f) st) = residuals pb st := by
    intro st h1 h2
    rw [e, e', residuals_map, residuals_map]
    refine flatMap_congr' fun x hx => ?_
    obtain ⟨m1, m2, -⟩ := mem_byCamera hx
    have hwr := hw _ (List.getElem_mem m2)
    have hcr := hc _ (List.getElem_mem m1)
    have hw0 : p.wristPoses.getD x.img 1 = p.wristPoses[x.img] := getD_of_some (List.getElem?_eq_getElem m2)
    have hc0 : p.baseToCameraGuess.getD x.cam 1 = p.baseToCameraGuess[x.cam] := getD_of_some (List.getElem?_eq_getElem m1)
    have hw' : (f.wristOnly p).wristPoses.getD x.img 1 = f.base * p.wristPoses[x.img] * f.targetMount := by
      rw [← hw0]; exact getD_map_lt (fun w => f.base * w * f.targetMount) _ _ m2 1 1
    have hc' : (f.wristOnly p).baseToCameraGuess.getD x.cam 1 = f.base * p.baseToCameraGuess[x.cam] := by
      rw [← hc0]; exact getD_map_lt (fun c => f.base * c) _ _ m1 1 1
    have hi : (f.wristOnly p).intr = p.intr := rfl
    simp only [Function.comp, woBlock, ResBlock.residual, List.map_cons, List.map_nil, eval2, woCost, Feature.moved, Frames.corr2, hw', hi, hw0,
      hc0, hc', transformPoint_eq, hwr.1.act, hwr.2.act, hcr.1.inv.act, hcr.2.inv.act, htgt st h1, hcorr st h2, Frames.mounted]
    simp only [Iso.mul_inv_rev g1, Iso.apply_mul, Iso.inv_apply_apply g1, Iso.apply_inv_apply g3, Iso.inv_apply_apply g4]
  have hinit : woInit (f.wristOnly p) = moveBy (woMove f) (woInit p) := by
    funext a
    unfold woInit moveBy woMove Frames.wristOnly
    by_cases ha : a = woTgt
    · simp only [ha, if_true, ht.roundtrip]
      exact (asPose_rep ht').symm
    · simp only [if_neg ha, Representable.one.roundtrip]
      have : f.base * 1 * f.base.inv = 1 := by
        rw [Iso.mul_assoc, Iso.one_mul, Iso.mul_inv g1]
      rw [this]
      exact (asPose_rep Representable.one).symm
  have hfin1 : RigidMotion (poseCalToEigen (s.solve pb (woInit p) woCorr)) := by
    cases hg : p.baseToCameraGuess with
    | nil =>
      have : pb = [] := by rw [e, hg]; rfl
      rw [hs.frame _ _ _ (by rw [this]; simp [usedBlocks])]
      have : woInit p woCorr = poseEigenToCal 1 := by simp [woInit, woCorr, woTgt]
      rw [this, Representable.one.roundtrip]
      exact Representable.one.1
    | cons g l =>
      have h0 := hr' _ (List.mem_map_of_mem (f := fun g => (poseCalToEigen (s.solve pb (woInit p) woCorr)).inv * g) (a := g) (by rw [hg]; simp))
      have hgr := (hc g (by rw [hg]; simp)).1.rigid
      have h1 := ((rigid_iff _).2 h0).mul hgr.inv
      rw [Iso.mul_assoc, Iso.mul_inv hgr, Iso.mul_one] at h1
      exact (rigid_iff _).1 (Iso.IsRigid.of_inv h1)
  obtain ⟨s', hs', k1, k2, -, k4, k5, k6⟩ := carry_same hs (init := woInit p) (init' := woInit (f.wristOnly p))
    (fin' := moveBy (woMove f) (s.solve pb (woInit p))) (by rw [e, e', List.map_map, List.map_map]; rfl)
    (fun a ha => by rw [moveBy_frame hs _ _ _ ha, ← hinit])
    (by
      rw [hinit]
      refine hres _ ?_ ?_
      · have : woInit p woTgt = poseEigenToCal p.wristToTargetGuess := by simp [woInit]
        rw [this, ht.roundtrip]; exact ht.1
      · have : woInit p woCorr = poseEigenToCal 1 := by simp [woInit, woCorr, woTgt]
        rw [this, Representable.one.roundtrip]; exact Representable.one.1)
    (hres _ hr hfin1)
  refine ⟨⟨s.converged pb (woInit p), costPerObs pb (woInit p), costPerObs pb (s.solve pb (woInit p)),
    poseCalToEigen (moveBy (woMove f) (s.solve pb (woInit p)) woTgt),
    (f.wristOnly p).baseToCameraGuess.map (fun g => (poseCalToEigen (moveBy (woMove f) (s.solve pb (woInit p)) woCorr)).inv * g)⟩,
    ⟨s', hs', ?_⟩, rfl, rfl, rfl, htgt _ hr, ?_⟩
  · beta_reduce
    unfold wristOnly
    rw [hb', Res.ok_bind]
    simp only [k1, k2, k5, k6]
  · have gc := (rigid_iff _).2 hfin1
    rw [hcorr _ hfin1]
    unfold Frames.wristOnly
    simp only [List.map_map]
    refine List.map_congr_left fun c hc => ?_
    simp only [Function.comp]
    rw [Iso.mul_inv_rev (g1.mul gc), Iso.mul_inv_rev g1, Iso.inv_inv g1]
    simp only [Iso.mul_assoc]
    rw [Iso.inv_mul_cancel_left g1]

/-! ## Cameras and targets -/

noncomputable def coMove (f : Frames) (p : CoProblem) (a : Nat) : Option (Iso → Iso) :=
  if a % 2 = 0 then if a / 2 < p.baseToTargetGuess.length then some fun X => f.base * X * f.target.inv else none
  else if a / 2 < p.baseToCameraGuess.length then some fun X => X * f.base.inv else none

/-- Cameras and targets, both free.

Full statement: for every choice of frames, the problem whose poses and points refer to the new frames reaches exactly the results that
refer to the new frames and have the same costs.
Missing from the full claim: poses that the six values do not represent, before or after the change (`C227_negation`), and results that are not
rigid; and calibrations without images, which report the identity for every camera. -/
theorem C227_camera_only_partial (f : Frames) (hb : RigidMotion f.base) (hf : RigidMotion f.target) (p : CoProblem) (hp : CoSizes p)
    (hne : p.baseToTargetGuess ≠ [])
    (ht : ∀ t ∈ p.baseToTargetGuess, Representable t ∧ Representable (f.base * t * f.target.inv))
    (hc : ∀ c ∈ p.baseToCameraGuess, Representable c ∧ Representable (f.base * c)) (r : CoResult) (h : Reaches (fun s => cameraOnly s p) r)
    (hr : ∀ t ∈ r.baseToTarget, RigidMotion t) (hr' : ∀ c ∈ r.baseToCamera, RigidMotion c) :
    ∃ r', Reaches (fun s => cameraOnly s (f.cameraOnly p)) r' ∧ f.CameraOnlySame r r' := by
  obtain ⟨s, hs, h⟩ := h
  have g1 := (rigid_iff _).2 hb
  have g4 := (rigid_iff _).2 hf
  have hp' : CoSizes (f.cameraOnly p) := by
    refine ⟨by simp [Frames.cameraOnly, hp.intr], fun c hc => ?_⟩
    simp only [Frames.cameraOnly, List.length_map, List.getElem?_map] at hc ⊢
    obtain ⟨oc, h1, h2⟩ := hp.images c hc
    exact ⟨_, by rw [h1]; rfl, by rw [List.length_map, h2]⟩
  obtain ⟨pb, hb⟩ := hp.built
  obtain ⟨pb', hb'⟩ := hp'.built
  have e := coBuild_eq hb
  have e' := coBuild_eq hb'
  have hfe : byImage (f.cameraOnly p).observations (f.cameraOnly p).baseToCameraGuess.length (f.cameraOnly p).baseToTargetGuess.length =
      (byImage p.observations p.baseToCameraGuess.length p.baseToTargetGuess.length).map (Feature.moved f) := by
    unfold Frames.cameraOnly
    simp only [List.length_map]
    exact byImage_moved _ _ _ _
  rw [hfe, List.map_map] at e'
  beta_reduce at h
  unfold cameraOnly at h
  rw [hb, Res.ok_bind] at h
  cases h
  have htgt : ∀ (st : Nat → Pose6) (i : Nat), i < p.baseToTargetGuess.length → RigidMotion (poseCalToEigen (st (coTgt i))) →
      poseCalToEigen (moveBy (coMove f p) st (coTgt i)) = f.base * poseCalToEigen (st (coTgt i)) * f.target.inv := fun st i hi hst =>
    moveBy_cal (g := fun X => f.base * X * f.target.inv) (by simp [coMove, coTgt, hi])
      ((rigid_iff _).1 ((g1.mul ((rigid_iff _).2 hst)).mul g4.inv))
  have hodd : ∀ c : Nat, (2 * c + 1) / 2 = c := fun c => by omega
  have hcam : ∀ (st : Nat → Pose6) (c : Nat), c < p.baseToCameraGuess.length → RigidMotion (poseCalToEigen (st (coCam c))) →
      poseCalToEigen (moveBy (coMove f p) st (coCam c)) = poseCalToEigen (st (coCam c)) * f.base.inv := fun st c hc hst =>
    moveBy_cal (g := fun X => X * f.base.inv) (by simp [coMove, coCam, hodd, hc, Nat.add_mod]) ((rigid_iff _).1 (((rigid_iff _).2 hst).mul g1.inv))
  have hres : ∀ st : Nat → Pose6, (∀ i < p.baseToTargetGuess.length, RigidMotion (poseCalToEigen (st (coTgt i)))) →
      (∀ c < p.baseToCameraGuess.length, RigidMotion (poseCalToEigen (st (coCam c)))) →
      residuals pb' (moveBy (coMove f p) st) = residuals pb st := by
    intro st h1 h2
    rw [e, e', residuals_map, residuals_map]
    refine flatMap_congr' fun x hx => ?_
    obtain ⟨m1, m2, -⟩ := mem_byImage hx
    have hcr := hc _ (List.getElem_mem m1)
    have hc0 : p.baseToCameraGuess.getD x.cam 1 = p.baseToCameraGuess[x.cam] := getD_of_some (List.getElem?_eq_getElem m1)
    have hc' : (f.cameraOnly p).baseToCameraGuess.getD x.cam 1 = f.base * p.baseToCameraGuess[x.cam] := by
      rw [← hc0]; exact getD_map_lt (fun c => f.base * c) _ _ m1 1 1
    have hi : (f.cameraOnly p).intr = p.intr := rfl
    have hfx : (f.cameraOnly p).fixFirst = p.fixFirst := rfl
    simp only [Function.comp, coBlock, Feature.moved, hfx]
    split
    · simp only [ResBlock.residual, List.map_cons, List.map_nil, eval1, coFixedCost, Frames.corr2, hi, hc0, hc', transformPoint_eq,
        hcr.1.inv.act, hcr.2.inv.act, htgt st _ m2 (h1 _ m2)]
      simp only [Iso.mul_inv_rev g1, Iso.apply_mul, Iso.inv_apply_apply g1, Iso.inv_apply_apply g4]
    · simp only [ResBlock.residual, List.map_cons, List.map_nil, eval2, coFreeCost, Frames.corr2, hi, transformPoint_eq,
        htgt st _ m2 (h1 _ m2), hcam st _ m1 (h2 _ m1)]
      simp only [Iso.apply_mul, Iso.inv_apply_apply g1, Iso.inv_apply_apply g4]
  have hlt : (f.cameraOnly p).baseToTargetGuess.length = p.baseToTargetGuess.length := List.length_map _
  have hlc : (f.cameraOnly p).baseToCameraGuess.length = p.baseToCameraGuess.length := List.length_map _
  have hn0 : p.baseToTargetGuess.length ≠ 0 := fun h => hne (List.length_eq_zero_iff.1 h)
  have hinit : coInit (f.cameraOnly p) = moveBy (coMove f p) (coInit p) := by
    funext a
    unfold coInit moveBy coMove
    rw [hlt]
    unfold Frames.cameraOnly
    by_cases ha : a % 2 = 0
    · simp only [if_pos ha, List.getElem?_map]
      by_cases hl : a / 2 < p.baseToTargetGuess.length
      · simp only [if_pos hl, List.getElem?_eq_getElem hl, Option.map_some]
        have h := ht _ (List.getElem_mem hl)
        rw [h.1.roundtrip]
        exact (asPose_rep h.2).symm
      · simp only [if_neg hl, List.getElem?_eq_none (not_lt.1 hl), Option.map_none]
    · simp only [if_neg ha, if_neg hn0, List.getElem?_map]
      by_cases hl : a / 2 < p.baseToCameraGuess.length
      · simp only [if_pos hl, List.getElem?_eq_getElem hl, Option.map_some]
        have h := hc _ (List.getElem_mem hl)
        rw [h.1.inv.roundtrip, ← Iso.mul_inv_rev g1]
        exact (asPose_rep h.2.inv).symm
      · simp only [if_neg hl, List.getElem?_eq_none (not_lt.1 hl), Option.map_none]
  have hfin0 : ∀ i < p.baseToTargetGuess.length, RigidMotion (poseCalToEigen (s.solve pb (coInit p) (coTgt i))) := fun i hi =>
    hr _ (List.mem_map_of_mem (f := fun i => poseCalToEigen (s.solve pb (coInit p) (coTgt i))) (List.mem_range.2 hi))
  have hfin1 : ∀ c < p.baseToCameraGuess.length, RigidMotion (poseCalToEigen (s.solve pb (coInit p) (coCam c))) := fun c hc =>
    (rigid_iff _).1 (Iso.IsRigid.of_inv ((rigid_iff _).2 (hr' _ (List.mem_map_of_mem (f := fun c => (poseCalToEigen (s.solve pb (coInit p) (coCam c))).inv)
      (List.mem_range.2 hc)))))
  obtain ⟨s', hs', k1, k2, -, k4, k5, k6⟩ := carry_same hs (init := coInit p) (init' := coInit (f.cameraOnly p))
    (fin' := moveBy (coMove f p) (s.solve pb (coInit p))) (by
      rw [e, e', List.map_map, List.map_map]
      refine List.map_congr_left fun x _ => ?_
      have hfx : (f.cameraOnly p).fixFirst = p.fixFirst := rfl
      by_cases hx : p.fixFirst = true ∧ x.cam = 0
      · simp only [Function.comp, coBlock, Feature.moved, hfx, if_pos hx]
      · simp only [Function.comp, coBlock, Feature.moved, hfx, if_neg hx])
    (fun a ha => by rw [moveBy_frame hs _ _ _ ha, ← hinit])
    (by
      rw [hinit]
      refine hres _ (fun i hi => ?_) fun c hc' => ?_
      · have h := ht _ (List.getElem_mem hi)
        have : coInit p (coTgt i) = poseEigenToCal p.baseToTargetGuess[i] := by simp [coInit, coTgt, hi]
        rw [this, h.1.roundtrip]; exact h.1.1
      · have h := hc _ (List.getElem_mem hc')
        have : coInit p (coCam c) = poseEigenToCal p.baseToCameraGuess[c].inv := by simp [coInit, coCam, hodd, hc', hne, Nat.add_mod]
        rw [this, h.1.inv.roundtrip]; exact h.1.inv.1)
    (hres _ hfin0 hfin1)
  refine ⟨⟨s.converged pb (coInit p), costPerObs pb (coInit p), costPerObs pb (s.solve pb (coInit p)),
    (List.range p.baseToTargetGuess.length).map (fun i => poseCalToEigen (moveBy (coMove f p) (s.solve pb (coInit p)) (coTgt i))),
    (List.range p.baseToCameraGuess.length).map (fun c => (poseCalToEigen (moveBy (coMove f p) (s.solve pb (coInit p)) (coCam c))).inv)⟩,
    ⟨s', hs', ?_⟩, rfl, rfl, rfl, ?_, ?_⟩
  · beta_reduce
    unfold cameraOnly
    rw [hb', Res.ok_bind]
    simp only [k1, k2, k5, k6, hlt, hlc]
  · simp only [List.map_map]
    refine List.map_congr_left fun i hi => ?_
    rw [List.mem_range] at hi
    simp only [Function.comp]
    rw [htgt _ i hi (hfin0 i hi)]
  · simp only [List.map_map]
    refine List.map_congr_left fun c hc => ?_
    rw [List.mem_range] at hc
    simp only [Function.comp]
    rw [hcam _ c hc (hfin1 c hc), Iso.mul_inv_rev ((rigid_iff _).2 (hfin1 c hc)), Iso.inv_inv g1]

/-- A camera and a target in a base rotated by 1e-9 rad: no result has the same initial cost. -/
theorem C227_negation : ∃ (f : Frames) (p : McPnpProblem) (r : McPnpResult), f.Rigid ∧ (∀ c ∈ p.baseToCamera, Representable c) ∧
    Representable p.guess ∧ Reaches (fun s => mcPnp s p) r ∧ RigidMotion r.baseToTarget ∧
    ∀ r', Reaches (fun s => mcPnp s (f.multiPnp p)) r' → r'.initialCost ≠ r.initialCost := by
  have hone : ∀ v, poseTransformPoint (poseEigenToCal 1) v = v := fun v => by rw [Representable.one.act, Iso.apply_one]
  have h1 := Representable.one.1
  obtain ⟨f, hf⟩ : ∃ f : Frames, f = ⟨tinyRot, 1, 1, 1⟩ := ⟨_, rfl⟩
  obtain ⟨p, hp⟩ : ∃ p : McPnpProblem, p = ⟨[⟨1, 1, 0, 0⟩], [1], [[⟨⟨1, 0⟩, ⟨1, 0, 1⟩⟩]], 1⟩ := ⟨_, rfl⟩
  have hb : mcPnpBuild p = .ok [⟨[0], eval1 (mcPnpCost ⟨1, 0⟩ ⟨1, 1, 0, 0⟩ 1 ⟨1, 0, 1⟩)⟩] := by
    rw [hp]
    show Res.ok [_] = _
    rw [Iso.inv_one]
  have hb' : mcPnpBuild (f.multiPnp p) = .ok [⟨[0], eval1 (mcPnpCost ⟨1, 0⟩ ⟨1, 1, 0, 0⟩ tinyRot.inv ⟨1, 0, 1⟩)⟩] := by
    rw [hp, hf]
    show Res.ok [_] = _
    simp only [Frames.corr2, Iso.apply_one, Iso.mul_one]
  have hg : p.guess = 1 := by rw [hp]
  have hg' : (f.multiPnp p).guess = tinyRot := by rw [hf, hp]; show tinyRot * 1 * Iso.inv 1 = _; rw [Iso.inv_one, Iso.mul_one, Iso.mul_one]
  obtain ⟨r, h⟩ : ∃ r, mcPnp (idCeres Pose6) p = .ok r := by
    unfold mcPnp
    rw [hb, Res.ok_bind]
    exact ⟨_, rfl⟩
  refine ⟨f, p, r, by rw [hf]; exact ⟨tinyRot_rigid, h1, h1, h1⟩, ?_, by rw [hg]; exact Representable.one, ⟨_, idCeres_wf Pose6, h⟩, ?_, ?_⟩
  · rw [hp]; intro c hc; rw [List.mem_singleton.1 hc]; exact Representable.one
  · unfold mcPnp at h
    rw [hb, Res.ok_bind] at h
    cases h
    show RigidMotion (poseCalToEigen (poseEigenToCal p.guess))
    rw [hg, Representable.one.roundtrip]
    exact h1
  · rintro r' ⟨s', -, h'⟩ heq
    beta_reduce at h'
    unfold mcPnp at h h'
    rw [hb, Res.ok_bind] at h
    rw [hb', Res.ok_bind] at h'
    cases h
    cases h'
    have ht : ∀ (P : Pose6) v, transformPoint P.rot P.trans v = poseTransformPoint P v := fun P v => by
      rw [transformPoint_eq, poseTransformPoint_eq]
    simp only [hg, hg', costPerObs, cost, residuals, ResBlock.residual, List.flatMap_cons, List.flatMap_nil, List.append_nil, List.map_cons,
      List.map_nil, eval1, mcPnpCost, ht, hone, tinyRot_act, tinyRot_inv_act, projectPoint] at heq
    norm_num at heq

theorem rep_of_plain {T : Iso} (h : T.R = 1) : Representable T := by
  obtain ⟨R, t⟩ := T
  subst h
  exact Representable.translation t

theorem plain_mul {A B : Iso} (hA : A.R = 1) (hB : B.R = 1) : (A * B).R = 1 := by
  show A.R * B.R = 1
  rw [hA, hB, M3.one_mul]

theorem plain_inv {A : Iso} (hA : A.R = 1) : A.inv.R = 1 := by
  show A.R.tr = 1
  rw [hA]; rfl

/-- Frames a metre apart, and problems with one feature. -/
example : ∃ f : Frames, f.Rigid ∧ f.base ≠ 1 ∧ f.target ≠ 1 ∧
    (∃ (p : HandEyeProblem Corr2) (r : HandEyeResult), MountsRepresentable p.observations ∧
      MountsRepresentable (f.handEye f.corr2 p).observations ∧ Representable p.cameraGuess ∧ Representable p.targetGuess ∧
      Representable (f.handEye f.corr2 p).cameraGuess ∧ Representable (f.handEye f.corr2 p).targetGuess ∧
      features p.observations ≠ [] ∧ Reaches (fun s => handEye2 s p) r ∧ RigidMotion r.cameraMountToCamera ∧ RigidMotion r.targetMountToTarget) ∧
    ∃ (p : MsProblem) (r : MsResult), MsSizes p ∧
      (∀ wp ∈ p.wristPoses, ∀ w ∈ wp, Representable w ∧ Representable (f.base * w * f.targetMount)) ∧
      (∀ c ∈ p.baseToCameraGuess, Representable c ∧ Representable (f.base * c)) ∧ Representable p.wristToTargetGuess ∧
      Representable (f.mounted p.wristToTargetGuess) ∧ msFeatures p ≠ [] ∧ Reaches (fun s => multiStatic s p) r ∧
      RigidMotion r.wristToTarget ∧ ∀ c ∈ r.baseToCamera, RigidMotion c := by
  have hne : (⟨1, ⟨1, 0, 0⟩⟩ : Iso) ≠ 1 := fun h => by
    have := congrArg (fun T : Iso => T.t.x) h
    change (1 : ℝ) = 0 at this
    norm_num at this
  have h1 : (1 : Iso).R = 1 := rfl
  obtain ⟨A, hA, hAne⟩ : ∃ A : Iso, A.R = 1 ∧ A ≠ 1 := ⟨⟨1, ⟨1, 0, 0⟩⟩, rfl, hne⟩
  have hAr := (rep_of_plain hA).1
  refine ⟨⟨A, A, A, A⟩, ⟨hAr, hAr, hAr, hAr⟩, hAne, hAne, ?_, ?_⟩
  · obtain ⟨r, h⟩ := exProblem_returns ⟨0, 0⟩
    obtain ⟨e1, e2⟩ := C34_hand_eye_2d (idCeres Pose6) (exProblem 1 1 ⟨0, 0⟩ ⟨0, 0, 1⟩ 1 1) r (fun _ _ => rfl) Representable.one Representable.one h
    refine ⟨exProblem 1 1 ⟨0, 0⟩ ⟨0, 0, 1⟩ 1 1, r, ?_, ?_, Representable.one, Representable.one, rep_of_plain (plain_mul (plain_inv hA) h1),
      rep_of_plain (plain_mul (plain_mul (plain_inv hA) h1) (plain_inv hA)), by rw [exProblem_features]; simp, ⟨_, idCeres_wf Pose6, h⟩,
      by rw [e1]; exact Representable.one.1, by rw [e2]; exact Representable.one.1⟩
    · intro o ho
      simp only [exProblem, List.mem_singleton] at ho
      rw [ho]; exact ⟨Representable.one, Representable.one⟩
    · intro o ho
      simp only [Frames.handEye, exProblem, List.map_cons, List.map_nil, List.mem_singleton] at ho
      rw [ho]
      exact ⟨rep_of_plain (plain_mul (plain_mul hA h1) hA), rep_of_plain (plain_mul (plain_mul hA h1) hA)⟩
  · obtain ⟨r, h⟩ := msEx_returns
    obtain ⟨p, hp⟩ : ∃ p : MsProblem, p = ⟨[⟨1, 1, 0, 0⟩], [[1]], [[[⟨⟨0, 0⟩, ⟨0, 0, 1⟩⟩]]], 1, [1], "t", "c"⟩ := ⟨_, rfl⟩
    rw [← hp] at h
    have hc : ∀ c ∈ p.baseToCameraGuess, Representable c ∧ Representable (A * c) := by
      rw [hp]; intro c hc; rw [List.mem_singleton.1 hc]; exact ⟨Representable.one, rep_of_plain (plain_mul hA h1)⟩
    have ht : Representable p.wristToTargetGuess := by rw [hp]; exact Representable.one
    obtain ⟨e1, e2⟩ := multiStatic_id_poses h (fun c h => (hc c h).1) ht
    refine ⟨p, r, ?_, ?_, hc, ht, ?_, by rw [hp]; simp [msFeatures, byCamera, featuresOf], ⟨_, idCeres_wf Pose6, h⟩, ?_, ?_⟩
    · rw [hp]
      refine ⟨rfl, rfl, rfl, ?_⟩
      intro c oc wp h1 h2
      match c with
      | 0 => simp at h1 h2; simp [← h1, ← h2]
      | n + 1 => simp at h2
    · rw [hp]
      intro wp h2 w h3
      rw [List.mem_singleton.1 h2, List.mem_singleton] at h3
      rw [h3]; exact ⟨Representable.one, rep_of_plain (plain_mul (plain_mul hA h1) hA)⟩
    · rw [hp]; exact rep_of_plain (plain_mul (plain_mul (plain_inv hA) h1) (plain_inv hA))
    · rw [e2]; exact ht.1
    · rw [e1]; exact fun c h => (hc c h).1.1

/-- One camera that sees one point: several cameras with a free target, one correction, cameras and targets. -/
example : ∃ f : Frames, f.Rigid ∧ f.base ≠ 1 ∧
    (∃ (p : McPnpProblem) (r : McPnpResult), p.baseToCamera ≠ [] ∧ p.baseToCamera.length ≤ p.intr.length ∧
      p.baseToCamera.length ≤ p.observations.length ∧ (∀ c ∈ p.baseToCamera, Representable c ∧ Representable (f.base * c)) ∧
      Representable p.guess ∧ Representable (f.base * p.guess * f.target.inv) ∧ Reaches (fun s => mcPnp s p) r ∧ RigidMotion r.baseToTarget) ∧
    (∃ (p : WoProblem) (r : WoResult), WoSizes p ∧ p.baseToCameraGuess ≠ [] ∧
      (∀ w ∈ p.wristPoses, Representable w ∧ Representable (f.base * w * f.targetMount)) ∧
      (∀ c ∈ p.baseToCameraGuess, Representable c ∧ Representable (f.base * c)) ∧ Representable p.wristToTargetGuess ∧
      Representable (f.mounted p.wristToTargetGuess) ∧ Reaches (fun s => wristOnly s p) r ∧ RigidMotion r.wristToTarget ∧
      ∀ c ∈ r.baseToCamera, RigidMotion c) ∧
    ∃ (p : CoProblem) (r : CoResult), CoSizes p ∧ p.baseToTargetGuess ≠ [] ∧ p.baseToCameraGuess ≠ [] ∧
      (∀ t ∈ p.baseToTargetGuess, Representable t ∧ Representable (f.base * t * f.target.inv)) ∧
      (∀ c ∈ p.baseToCameraGuess, Representable c ∧ Representable (f.base * c)) ∧ Reaches (fun s => cameraOnly s p) r ∧
      (∀ t ∈ r.baseToTarget, RigidMotion t) ∧ ∀ c ∈ r.baseToCamera, RigidMotion c := by
  have hne : (⟨1, ⟨1, 0, 0⟩⟩ : Iso) ≠ 1 := fun h => by
    have := congrArg (fun T : Iso => T.t.x) h
    change (1 : ℝ) = 0 at this
    norm_num at this
  have h1 : (1 : Iso).R = 1 := rfl
  have hr1 := Representable.one.1
  obtain ⟨A, hA, hAne⟩ : ∃ A : Iso, A.R = 1 ∧ A ≠ 1 := ⟨⟨1, ⟨1, 0, 0⟩⟩, rfl, hne⟩
  have hAr := (rep_of_plain hA).1
  have hone : ∀ c ∈ [(1 : Iso)], Representable c ∧ Representable (A * c) := by
    intro c hc; rw [List.mem_singleton.1 hc]; exact ⟨Representable.one, rep_of_plain (plain_mul hA h1)⟩
  refine ⟨⟨A, A, A, A⟩, ⟨hAr, hAr, hAr, hAr⟩, hAne, ?_, ?_, ?_⟩
  · obtain ⟨p, hp⟩ : ∃ p : McPnpProblem, p = ⟨[⟨1, 1, 0, 0⟩], [1], [[⟨⟨1, 0⟩, ⟨1, 0, 1⟩⟩]], 1⟩ := ⟨_, rfl⟩
    obtain ⟨pb, hb⟩ := mcPnp_built (p := p) (by rw [hp]; simp) (by rw [hp]; simp)
    have hr := (show ∀ {r}, r = _ → mcPnp (idCeres Pose6) p = .ok r from fun h => by unfold mcPnp; rw [hb, Res.ok_bind, h]) rfl
    refine ⟨p, _, by rw [hp]; simp, by rw [hp]; simp, by rw [hp]; simp, by rw [hp]; exact hone, by rw [hp]; exact Representable.one,
      by rw [hp]; exact rep_of_plain (plain_mul (plain_mul hA h1) (plain_inv hA)), ⟨_, idCeres_wf Pose6, hr⟩, ?_⟩
    show RigidMotion (poseCalToEigen (poseEigenToCal p.guess))
    rw [hp, Representable.one.roundtrip]; exact hr1
  · obtain ⟨p, hp⟩ : ∃ p : WoProblem, p = ⟨[⟨1, 1, 0, 0⟩], [1], [[[⟨⟨0, 0⟩, ⟨0, 0, 1⟩⟩]]], 1, [1]⟩ := ⟨_, rfl⟩
    have hs : WoSizes p := by
      rw [hp]
      exact ⟨rfl, fun c hc => by obtain rfl : c = 0 := Nat.lt_one_iff.1 hc; exact ⟨_, rfl, rfl⟩⟩
    obtain ⟨pb, hb⟩ := hs.built
    have hr := (show ∀ {r}, r = _ → wristOnly (idCeres Pose6) p = .ok r from fun h => by unfold wristOnly; rw [hb, Res.ok_bind, h]) rfl
    refine ⟨p, _, hs, by rw [hp]; simp, ?_, by rw [hp]; exact hone, by rw [hp]; exact Representable.one,
      by rw [hp]; exact rep_of_plain (plain_mul (plain_mul (plain_inv hA) h1) (plain_inv hA)), ⟨_, idCeres_wf Pose6, hr⟩, ?_, ?_⟩
    · rw [hp]; intro c hc; rw [List.mem_singleton.1 hc]; exact ⟨Representable.one, rep_of_plain (plain_mul (plain_mul hA h1) hA)⟩
    · show RigidMotion (poseCalToEigen (woInit p woTgt))
      have : woInit p woTgt = poseEigenToCal 1 := by rw [hp]; simp [woInit]
      rw [this, Representable.one.roundtrip]; exact hr1
    · intro c hc
      obtain ⟨g, hg, rfl⟩ := List.mem_map.1 hc
      have : woInit p woCorr = poseEigenToCal 1 := by simp [woInit, woCorr, woTgt]
      rw [hp] at hg
      show RigidMotion ((poseCalToEigen (woInit p woCorr)).inv * g)
      rw [this, Representable.one.roundtrip, List.mem_singleton.1 hg, Iso.inv_one, Iso.mul_one]
      exact hr1
  · obtain ⟨p, hp⟩ : ∃ p : CoProblem, p = ⟨false, [⟨1, 1, 0, 0⟩], [1], [[[⟨⟨0, 0⟩, ⟨0, 0, 1⟩⟩]]], [1]⟩ := ⟨_, rfl⟩
    have hs : CoSizes p := by
      rw [hp]
      exact ⟨rfl, fun c hc => by obtain rfl : c = 0 := Nat.lt_one_iff.1 hc; exact ⟨_, rfl, rfl⟩⟩
    obtain ⟨pb, hb⟩ := hs.built
    have hr := (show ∀ {r}, r = _ → cameraOnly (idCeres Pose6) p = .ok r from fun h => by unfold cameraOnly; rw [hb, Res.ok_bind, h]) rfl
    refine ⟨p, _, hs, by rw [hp]; simp, by rw [hp]; simp, ?_, by rw [hp]; exact hone, ⟨_, idCeres_wf Pose6, hr⟩, ?_, ?_⟩
    · rw [hp]; intro c hc; rw [List.mem_singleton.1 hc]
      exact ⟨Representable.one, rep_of_plain (plain_mul (plain_mul hA h1) (plain_inv hA))⟩
    · intro t ht
      obtain ⟨i, hi, rfl⟩ := List.mem_map.1 ht
      have hl : p.baseToTargetGuess.length = 1 := by rw [hp]; rfl
      obtain rfl : i = 0 := Nat.lt_one_iff.1 (hl ▸ List.mem_range.1 hi)
      show RigidMotion (poseCalToEigen (coInit p (coTgt 0)))
      have : coInit p (coTgt 0) = poseEigenToCal 1 := by rw [hp]; simp [coInit, coTgt]
      rw [this, Representable.one.roundtrip]; exact hr1
    · intro t ht
      obtain ⟨i, hi, rfl⟩ := List.mem_map.1 ht
      have hl : p.baseToCameraGuess.length = 1 := by rw [hp]; rfl
      obtain rfl : i = 0 := Nat.lt_one_iff.1 (hl ▸ List.mem_range.1 hi)
      show RigidMotion (poseCalToEigen (coInit p (coCam 0))).inv
      have : coInit p (coCam 0) = poseEigenToCal 1 := by rw [hp]; simp [coInit, coCam, Iso.inv_one]
      rw [this, Representable.one.roundtrip, Iso.inv_one]; exact hr1

end RCT
