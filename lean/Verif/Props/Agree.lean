import Verif.Props.Order
import Verif.Props.MultiExit
import Verif.Props.SimObservations
import Verif.Props.Identify
import Verif.Props.HandEye
import Verif.Props.Kinematic
import Verif.Props.FrameChoice
import Verif.Spec.Agree

/-! # C239 The calibrations agree where they overlap -/

namespace RCT

open Spec

/-! ## Solvers that end at a given state -/

open Classical in
/-- The solver that goes from `init` to `fin` on the problem `pb` and stays where it is otherwise. -/
noncomputable def Ceres.jump {β : Type} (pb : List (ResBlock β)) (init fin : Nat → β) (conv : Bool) : Ceres β :=
  { idCeres β with solve := fun q st => if q = pb ∧ st = init then fin else st
                   converged := fun _ _ => conv }

theorem Ceres.jump_wf {β : Type} {pb : List (ResBlock β)} {init fin : Nat → β} (conv : Bool)
    (h1 : ∀ a, a ∉ usedBlocks pb → fin a = init a) (h2 : cost pb fin ≤ cost pb init) : (Ceres.jump pb init fin conv).WF where
  frame := by
    intro q st a ha
    unfold Ceres.jump
    by_cases e : q = pb ∧ st = init
    · simp only [e, and_self, if_true]
      exact h1 a (e.1 ▸ ha)
    · simp only [e, if_false]
  descent := by
    intro q st
    unfold Ceres.jump
    by_cases e : q = pb ∧ st = init
    · simp only [e, and_self, if_true]
      exact h2
    · simp only [e, if_false, le_refl]
  order_perm := fun _ => .refl _
  compute_no_throw := fun q st l e h => (idCeres_wf β).compute_no_throw q st l e h

theorem Ceres.jump_solve {β : Type} (pb : List (ResBlock β)) (init fin : Nat → β) (conv : Bool) :
    (Ceres.jump pb init fin conv).solve pb init = fin := by
  unfold Ceres.jump; simp only [and_self, if_true]

/-! ## One static camera -/

theorem poseEigenToCal_one_act (v : V3) : poseTransformPoint (poseEigenToCal 1) v = v := by
  rw [Representable.one.act, Iso.apply_one]

theorem msCost_handEye (px : V2) (intr : Intr) (w : Iso) (pt : V3) :
    msCost px intr w pt = handEyeCost2 px (1 : Iso).inv w pt intr := by
  funext cam tgt
  unfold msCost handEyeCost2 targetPointInCamera
  simp only [Iso.inv_one, poseEigenToCal_one_act]

theorem oneCamera_blocks (intr : Intr) (ws : List Iso) (os : List (List Corr2)) (t g : Iso) (lt lc : String) (h : os.length = ws.length)
    {pb : List (ResBlock Pose6)} (hb : msBuild ⟨[intr], [ws], [os], t, [g], lt, lc⟩ = .ok pb) :
    pb = (features (staticViews ws os)).map fun f => ⟨[msCam 0, msTgt], eval2 (handEyeCost2 f.2.inImage f.1.toCameraMount.inv f.1.toTargetMount f.2.inTarget intr)⟩ := by
  rw [msBuild_eq hb]
  unfold msFeatures byCamera featuresOf features staticViews
  simp only [List.length_cons, List.length_nil, Nat.zero_add, List.range_one, List.flatMap_cons, List.flatMap_nil, List.append_nil,
    List.getD_cons_zero, List.map_flatMap, List.flatMap_map, List.map_map]
  rw [zip_eq_range ws os h 1 [], List.flatMap_map]
  refine List.flatMap_congr fun i _ => List.map_congr_left fun k _ => ?_
  simp only [Function.comp_apply, msBlock, List.getD_cons_zero, msCost_handEye]


/-- Two problems whose residual blocks apply the same functors to a pair of blocks have the same residuals at states with the
same values of these blocks. -/
theorem residuals_pair {α : Type} (l : List α) (f : α → Pose6 → Pose6 → List ℝ) {x y x' y' : Nat} {st st' : Nat → Pose6}
    (hx : st x = st' x') (hy : st y = st' y') :
    residuals (l.map fun a => (⟨[x, y], eval2 (f a)⟩ : ResBlock Pose6)) st =
      residuals (l.map fun a => (⟨[x', y'], eval2 (f a)⟩ : ResBlock Pose6)) st' := by
  unfold residuals
  rw [List.flatMap_map, List.flatMap_map]
  refine List.flatMap_congr fun a _ => ?_
  simp only [ResBlock.residual, List.map_cons, List.map_nil, eval2, hx, hy]

theorem cost_of_residuals {β γ : Type} {pb : List (ResBlock β)} {pb' : List (ResBlock γ)} {st : Nat → β} {st' : Nat → γ}
    (h : residuals pb st = residuals pb' st') : cost pb st = cost pb' st' ∧ costPerObs pb st = costPerObs pb' st' := by
  have h1 : cost pb st = cost pb' st' := by unfold cost; rw [h]
  exact ⟨h1, by unfold costPerObs; rw [h1, h]⟩

theorem jump_heFinish {κ α : Type} (p : HandEyeProblem κ) (hlen : p.labels.length = 6) (l : List α) (hl : l ≠ [])
    (g : α → ResBlock Pose6) (hg : ∀ a ∈ l, (g a).blocks = [heCam, heTgt]) (fin : Nat → Pose6) (conv : Bool) :
    ∃ cov, heFinish (Ceres.jump (l.map g) (heInit p) fin conv) p (l.map g) =
      .ok ⟨conv, costPerObs (l.map g) (heInit p), costPerObs (l.map g) fin, poseCalToEigen (fin heTgt), (poseCalToEigen (fin heCam)).inv, cov⟩ := by
  have hperm := usedBlocks_const l hl g [heCam, heTgt] (by decide) hg
  obtain ⟨pb, hpb⟩ : ∃ pb, pb = l.map g := ⟨_, rfl⟩
  rw [← hpb] at hperm ⊢
  unfold heFinish
  rw [Ceres.jump_solve]
  obtain ⟨cov, hc⟩ := computeCovariance_returns
    (cs := (Ceres.jump pb (heInit p) fin conv).covSolver pb fin 6) (blocks := (Ceres.jump pb (heInit p) fin conv).order pb)
    (names := SMap.insert (SMap.insert [] heCam (poseLabels p.labels p.labelCamera)) heTgt
      (poseLabels p.labels p.labelTarget)) (masks := [])
    (by
      show SMap.size _ = (usedBlocks pb).length
      rw [hperm.length_eq]; rfl)
    (by
      intro b hb'
      have hu : b ∈ usedBlocks pb := hb'
      refine ⟨poseLabels p.labels (if b = heCam then p.labelCamera else p.labelTarget), ?_, ?_⟩
      · have := hperm.subset hu
        simp only [List.mem_cons, List.not_mem_nil, or_false] at this
        rw [SMap.find_insert, SMap.find_insert]
        rcases this with rfl | rfl
        · rw [if_neg (by decide), if_pos rfl, if_pos rfl]
        · rw [if_pos rfl, if_neg (by decide)]
      · simp [Ceres.covSolver, hu, poseLabels, hlen])
    rfl rfl
  exact ⟨cov, (Res.bind_ok_iff _ _ _).2 ⟨cov, hc, rfl⟩⟩

theorem oneCamera_sizes (intr : Intr) (ws : List Iso) (os : List (List Corr2)) (t g : Iso) (lt lc : String) (h : os.length = ws.length) :
    MsSizes ⟨[intr], [ws], [os], t, [g], lt, lc⟩ where
  wrist := rfl
  obs := rfl
  intr := rfl
  images := by
    intro c oc wp h1 h2
    cases c with
    | zero => simp at h1 h2; subst h1; subst h2; exact h
    | succ c => simp at h1

theorem staticViews_mounts {ws : List Iso} {os : List (List Corr2)} (hw : ∀ w ∈ ws, Representable w) :
    MountsRepresentable (staticViews ws os) := by
  intro o ho
  obtain ⟨wi, hwi, rfl⟩ := List.mem_map.1 ho
  exact ⟨Representable.one, hw _ (List.of_mem_zip hwi).1⟩

theorem visible_built {p : HandEyeProblem Corr2} (hm : MountsRepresentable p.observations) (hg : Representable p.cameraGuess)
    (ht : Representable p.targetGuess) :
    ((∀ f ∈ features p.observations, 0 < (inCamera2 p.cameraGuess p.targetGuess f).z) →
      heBuild2 p = .ok ((features p.observations).map (heBlock2 p.intr))) ∧
    (∀ pb, heBuild2 p = .ok pb → pb = (features p.observations).map (heBlock2 p.intr)) := by
  have key : ∀ f ∈ features p.observations, heVisible p f ↔ 0 < (inCamera2 p.cameraGuess p.targetGuess f).z := by
    intro f hf
    unfold features at hf
    obtain ⟨o, ho, hf⟩ := List.mem_flatMap.1 hf
    obtain ⟨k, -, rfl⟩ := List.mem_map.1 hf
    exact heVisible_iff p hg ht _ (hm o ho).1 (hm o ho).2
  rcases heBuild2_cases p with ⟨h1, h2⟩ | ⟨⟨f, h0, h1⟩, h2⟩
  · refine ⟨fun _ => h2, fun pb e => ?_⟩
    rw [h2] at e
    exact (Res.ok.inj e).symm
  · refine ⟨fun hv => absurd ((key f h0).2 (hv f h0)) h1, fun pb e => ?_⟩
    rw [h2] at e
    cases e

/-- A calibration of one static camera and a hand-eye calibration of the same images, with the camera at its mount and the
wrist as the mount of the target, reach the same results: whatever the first may report, the second may report, provided
that it accepts the guesses (it requires all points to be in front of the camera). -/
theorem C239_static_to_hand_eye (intr : Intr) (ws : List Iso) (os : List (List Corr2)) (t g : Iso) (lt lc lt' lc' : String)
    (h : os.length = ws.length) (hw : ∀ w ∈ ws, Representable w) (hg : Representable g) (ht : Representable t)
    (hv : ∀ f ∈ features (staticViews ws os), 0 < (inCamera2 g t f).z) (r : MsResult)
    (hr : Reaches (fun s => multiStatic s ⟨[intr], [ws], [os], t, [g], lt, lc⟩) r) :
    ∃ r' : HandEyeResult, Reaches (fun s => handEye2 s ⟨staticViews ws os, intr, t, g, lc', lt', labelsIsometry3d⟩) r' ∧
      r'.converged = r.converged ∧ r'.initialCost = r.initialCost ∧ r'.finalCost = r.finalCost ∧
      r'.targetMountToTarget = r.wristToTarget ∧ r.baseToCamera = [r'.cameraMountToCamera] := by
  obtain ⟨s, hs, hr⟩ := hr
  have hz := oneCamera_sizes intr ws os t g lt lc h
  obtain ⟨pb, hb⟩ := C41_built _ hz.wrist hz.obs hz.intr hz.images
  have hpb := oneCamera_blocks intr ws os t g lt lc h hb
  have hb' := (visible_built (p := ⟨staticViews ws os, intr, t, g, lc', lt', labelsIsometry3d⟩) (staticViews_mounts hw) hg ht).1 hv
  obtain ⟨P, hP⟩ : ∃ P : MsProblem, P = ⟨[intr], [ws], [os], t, [g], lt, lc⟩ := ⟨_, rfl⟩
  obtain ⟨Q, hQ⟩ : ∃ Q : HandEyeProblem Corr2, Q = ⟨staticViews ws os, intr, t, g, lc', lt', labelsIsometry3d⟩ := ⟨_, rfl⟩
  rw [← hQ] at hb' ⊢
  rw [← hP] at hb
  beta_reduce at hr
  rw [← hP] at hr
  have hl : P.baseToCameraGuess.length = 1 := by rw [hP]; rfl
  unfold multiStatic at hr
  rw [hb, Res.ok_bind] at hr
  simp only [Res.bind_ok_iff, hl, List.range_one, List.map_cons, List.map_nil] at hr
  obtain ⟨cov, hcov, hr⟩ := hr
  cases hr
  have hin := (C26_returns _ _ _ _ _ hcov).2.1
  have hne : features (staticViews ws os) ≠ [] := by
    intro e
    obtain ⟨sz, l, h1, -⟩ := hin msTgt (by simp)
    rw [hpb, e] at h1
    simp [Ceres.covSolver, usedBlocks_nil] at h1
  have hgl : ∀ f ∈ features (staticViews ws os), (heBlock2 intr f).blocks = [heCam, heTgt] := fun _ _ => rfl
  have hperm := usedBlocks_const _ hne (heBlock2 intr) [heCam, heTgt] (by decide) hgl
  obtain ⟨st, hst⟩ : ∃ st, st = s.solve pb (msInit P) := ⟨_, rfl⟩
  obtain ⟨fin, hfin⟩ : ∃ fin : Nat → Pose6, fin = fun a => if a = heTgt then st msTgt else if a = heCam then st (msCam 0) else heInit Q a := ⟨_, rfl⟩
  have hft : fin heTgt = st msTgt := by rw [hfin]; simp
  have hfc : fin heCam = st (msCam 0) := by rw [hfin]; simp [heCam, heTgt]
  have hit : heInit Q heTgt = msInit P msTgt := by rw [hQ, hP]; simp [heInit, msInit]
  have hic : heInit Q heCam = msInit P (msCam 0) := by rw [hQ, hP]; simp [heInit, msInit, heCam, heTgt, msCam, msTgt]
  obtain ⟨pb', hpb'⟩ : ∃ pb', pb' = (features (staticViews ws os)).map (heBlock2 intr) := ⟨_, rfl⟩
  have e1 : residuals pb' (heInit Q) = residuals pb (msInit P) := by rw [hpb', hpb]; exact residuals_pair _ _ hic hit
  have e2 : residuals pb' fin = residuals pb st := by rw [hpb', hpb]; exact residuals_pair _ _ hfc hft
  have wf : (Ceres.jump pb' (heInit Q) fin (s.converged pb (msInit P))).WF := by
    refine Ceres.jump_wf _ ?_ ?_
    · intro a ha
      have hn : a ∉ [heCam, heTgt] := fun hm => ha (by rw [hpb']; exact hperm.mem_iff.2 hm)
      simp only [List.mem_cons, List.not_mem_nil, or_false, not_or] at hn
      rw [hfin]
      simp only [hn.1, hn.2, if_false]
    · rw [(cost_of_residuals e1).1, (cost_of_residuals e2).1, hst]
      exact hs.descent _ _
  obtain ⟨cov', hcov'⟩ := jump_heFinish Q (by rw [hQ]; rfl) _ hne (heBlock2 intr) hgl fin (s.converged pb (msInit P))
  rw [← hpb'] at hcov'
  have hb2 : heBuild2 Q = .ok pb' := by rw [hb', hpb', hQ]
  have hr' : handEye2 (Ceres.jump pb' (heInit Q) fin (s.converged pb (msInit P))) Q =
      .ok ⟨s.converged pb (msInit P), costPerObs pb' (heInit Q), costPerObs pb' fin, poseCalToEigen (fin heTgt), (poseCalToEigen (fin heCam)).inv, cov'⟩ := by
    unfold handEye2
    rw [hb2, Res.ok_bind, hcov']
  refine ⟨_, ⟨_, wf, hr'⟩, ?_⟩
  simp only [(cost_of_residuals e1).2, (cost_of_residuals e2).2, hft, hfc, hst, and_self]

/-- The other way round: whatever the hand-eye calibration may report, the calibration of one static camera may report. -/
theorem C239_hand_eye_to_static (intr : Intr) (ws : List Iso) (os : List (List Corr2)) (t g : Iso) (lt lc lt' lc' : String)
    (h : os.length = ws.length) (hw : ∀ w ∈ ws, Representable w) (hg : Representable g) (ht : Representable t) (r' : HandEyeResult)
    (hr : Reaches (fun s => handEye2 s ⟨staticViews ws os, intr, t, g, lc', lt', labelsIsometry3d⟩) r') :
    ∃ r : MsResult, Reaches (fun s => multiStatic s ⟨[intr], [ws], [os], t, [g], lt, lc⟩) r ∧
      r.converged = r'.converged ∧ r.initialCost = r'.initialCost ∧ r.finalCost = r'.finalCost ∧
      r.wristToTarget = r'.targetMountToTarget ∧ r.baseToCamera = [r'.cameraMountToCamera] := by
  obtain ⟨s, hs, hr⟩ := hr
  have hz := oneCamera_sizes intr ws os t g lt lc h
  obtain ⟨pb, hb⟩ := C41_built _ hz.wrist hz.obs hz.intr hz.images
  have hpb := oneCamera_blocks intr ws os t g lt lc h hb
  have hbu := (visible_built (p := ⟨staticViews ws os, intr, t, g, lc', lt', labelsIsometry3d⟩) (staticViews_mounts hw) hg ht).2
  obtain ⟨P, hP⟩ : ∃ P : MsProblem, P = ⟨[intr], [ws], [os], t, [g], lt, lc⟩ := ⟨_, rfl⟩
  obtain ⟨Q, hQ⟩ : ∃ Q : HandEyeProblem Corr2, Q = ⟨staticViews ws os, intr, t, g, lc', lt', labelsIsometry3d⟩ := ⟨_, rfl⟩
  beta_reduce at hr
  rw [← hQ] at hbu hr
  rw [← hP] at hb ⊢
  have hl : P.baseToCameraGuess.length = 1 := by rw [hP]; rfl
  unfold handEye2 at hr
  rw [Res.bind_ok_iff] at hr
  obtain ⟨pb', hb', hr⟩ := hr
  have hpb' : pb' = (features (staticViews ws os)).map (heBlock2 intr) := by
    have := hbu pb' hb'
    rw [hQ] at this
    exact this
  unfold heFinish at hr
  simp only [Res.bind_ok_iff] at hr
  obtain ⟨cov, hcov, hr⟩ := hr
  cases hr
  have hne : features (staticViews ws os) ≠ [] := by
    intro e
    have hs1 := (C26_returns _ _ _ _ _ hcov).1
    rw [hpb', e, List.map_nil, (hs.order_perm []).length_eq, usedBlocks_nil] at hs1
    exact absurd (show (2 : Nat) = 0 from hs1) (by decide)
  have hperm := usedBlocks_const _ hne (fun f : Obs Corr2 × Corr2 => (⟨[msCam 0, msTgt], eval2 (handEyeCost2 f.2.inImage f.1.toCameraMount.inv f.1.toTargetMount f.2.inTarget intr)⟩ : ResBlock Pose6))
    [msCam 0, msTgt] (by decide) (fun _ _ => rfl)
  rw [← hpb] at hperm
  obtain ⟨st, hst⟩ : ∃ st, st = s.solve pb' (heInit Q) := ⟨_, rfl⟩
  obtain ⟨fin, hfin⟩ : ∃ fin : Nat → Pose6, fin = fun a => if a = msTgt then st heTgt else if a = msCam 0 then st heCam else msInit P a := ⟨_, rfl⟩
  have hft : fin msTgt = st heTgt := by rw [hfin]; simp
  have hfc : fin (msCam 0) = st heCam := by rw [hfin]; simp [msCam, msTgt]
  have hit : heInit Q heTgt = msInit P msTgt := by rw [hQ, hP]; simp [heInit, msInit]
  have hic : heInit Q heCam = msInit P (msCam 0) := by rw [hQ, hP]; simp [heInit, msInit, heCam, heTgt, msCam, msTgt]
  have e1 : residuals pb (msInit P) = residuals pb' (heInit Q) := by rw [hpb', hpb]; exact residuals_pair _ _ hic.symm hit.symm
  have e2 : residuals pb fin = residuals pb' st := by rw [hpb', hpb]; exact residuals_pair _ _ hfc hft
  have wf : (Ceres.jump pb (msInit P) fin (s.converged pb' (heInit Q))).WF := by
    refine Ceres.jump_wf _ ?_ ?_
    · intro a ha
      have hn : a ∉ [msCam 0, msTgt] := fun hm => ha (hperm.mem_iff.2 hm)
      simp only [List.mem_cons, List.not_mem_nil, or_false, not_or] at hn
      rw [hfin]
      simp only [hn.1, hn.2, if_false]
    · rw [(cost_of_residuals e1).1, (cost_of_residuals e2).1, hst]
      exact hs.descent _ _
  obtain ⟨cov', hcov'⟩ : ∃ cov', computeCovariance ((Ceres.jump pb (msInit P) fin (s.converged pb' (heInit Q))).covSolver pb fin 6)
      ((List.range P.baseToCameraGuess.length).map msCam ++ [msTgt]) (msNames P) [] = .ok cov' := by
    refine computeCovariance_returns ?_ ?_ rfl rfl
    · rw [msNames_size]; simp
    · intro b hbm
      refine ⟨_, msNames_find P b hbm, ?_⟩
      have hu : b ∈ usedBlocks pb := by
        rw [hl] at hbm
        exact hperm.mem_iff.2 (by simpa using hbm)
      simp only [Ceres.covSolver, hu, if_true]
      rfl
  have hr' : multiStatic (Ceres.jump pb (msInit P) fin (s.converged pb' (heInit Q))) P =
      .ok ⟨s.converged pb' (heInit Q), costPerObs pb (msInit P), costPerObs pb fin, poseCalToEigen (fin msTgt),
        [(poseCalToEigen (fin (msCam 0))).inv], cov'⟩ := by
    unfold multiStatic
    rw [hb, Res.ok_bind]
    simp only [Ceres.jump_solve, hcov', Res.ok_bind]
    rw [hl]
    rfl
  refine ⟨_, ⟨_, wf, hr'⟩, ?_⟩
  simp only [(cost_of_residuals e1).2, (cost_of_residuals e2).2, hft, hfc, hst, and_self]

/-! ## Kinematic calibration -/

/-- The pixel residual of the kinematic calibration is the residual of the hand-eye calibration for mounts at the ends of the
(corrected) chains, both seen from the base of the camera chain. -/
theorem C239_kinematic (cc tc : DHChain) (intr : Intr) (p : Nat → Mem) (offC offT : List V4) (cm tm cb : Iso)
    (hp : ParamsAre p cc.transforms.length tc.transforms.length offC offT cm tm cb)
    (hcm : Representable cm) (htm : Representable tm) (o : KinObs) (k : Corr2)
    (h1 : o.cameraJoints.length ≤ cc.transforms.length) (h2 : o.targetJoints.length ≤ tc.transforms.length)
    (hC : Representable (endPose cc offC o.cameraJoints)) (hT : Representable (cb * endPose tc offT o.targetJoints))
    (hz : (Spec.targetInCamera cm (endPose cc offC o.cameraJoints) (cb * endPose tc offT o.targetJoints) tm k.inTarget).z > 1 / 10 ^ 10) :
    kinCost2 cc tc intr o k p = .ok (handEyeCost2 k.inImage (endPose cc offC o.cameraJoints).inv (cb * endPose tc offT o.targetJoints)
      k.inTarget intr (poseEigenToCal cm.inv) (poseEigenToCal tm)) := by
  have hcr : (poseCalToEigen (poseEigenToCal cm.inv)).IsRigid := by rw [hcm.inv.roundtrip]; exact hcm.inv.rigid
  unfold kinCost2 handEyeCost2
  rw [ParamsAre.pose hp h1 h2, Res.ok_bind, targetPointInCamera_spec hC hT _ _ _ hcr, hcm.inv.roundtrip, htm.roundtrip,
    Iso.inv_inv hcm.rigid]
  have e : ((endPose cc offC o.cameraJoints * cm).inv * (cb * endPose tc offT o.targetJoints * tm)).apply k.inTarget =
      Spec.targetInCamera cm (endPose cc offC o.cameraJoints) (cb * endPose tc offT o.targetJoints) tm k.inTarget := by
    unfold Spec.targetInCamera
    rw [Iso.mul_inv_rev hC.rigid, Iso.mul_assoc]
  simp only [e, projectPointE_pinhole intr _ hz, projectPoint_eq_pinhole (ne_of_gt (lt_trans (by norm_num) hz))]


/-- All pixel residuals of a kinematic calibration at the given parameters are the residuals of the hand-eye problem with the
mounts at the ends of the chains, in the same order. -/
theorem C239_kinematic_all (cc tc : DHChain) (intr : Intr) (p : Nat → Mem) (offC offT : List V4) (cm tm cb : Iso)
    (hp : ParamsAre p cc.transforms.length tc.transforms.length offC offT cm tm cb)
    (hcm : Representable cm) (htm : Representable tm) (obs : List KinObs)
    (hq : ∀ o ∈ obs, o.cameraJoints.length ≤ cc.transforms.length ∧ o.targetJoints.length ≤ tc.transforms.length)
    (hm : MountsRepresentable (chainViews (endPose cc offC) (fun q => cb * endPose tc offT q) obs))
    (hz : ∀ f ∈ features (chainViews (endPose cc offC) (fun q => cb * endPose tc offT q) obs), (inCamera2 cm tm f).z > 1 / 10 ^ 10)
    (st : Nat → Pose6) (hc : st heCam = poseEigenToCal cm.inv) (ht : st heTgt = poseEigenToCal tm) :
    (obs.flatMap fun o => o.correspondences.map fun k => kinCost2 cc tc intr o k p) =
      ((features (chainViews (endPose cc offC) (fun q => cb * endPose tc offT q) obs)).map (heBlock2 intr)).map
        fun b => .ok (b.residual st) := by
  unfold features chainViews at *
  simp only [List.map_flatMap, List.flatMap_map, List.map_map] at hz ⊢
  refine List.flatMap_congr fun o ho => List.map_congr_left fun k hk => ?_
  have hmo := hm ⟨o.correspondences, endPose cc offC o.cameraJoints, cb * endPose tc offT o.targetJoints⟩ (List.mem_map.2 ⟨o, ho, rfl⟩)
  rw [C239_kinematic cc tc intr p offC offT cm tm cb hp hcm htm o k (hq o ho).1 (hq o ho).2 hmo.1 hmo.2
    (hz (⟨o.correspondences, endPose cc offC o.cameraJoints, cb * endPose tc offT o.targetJoints⟩, k)
      (List.mem_flatMap.2 ⟨o, ho, List.mem_map.2 ⟨k, hk, rfl⟩⟩))]
  simp only [Function.comp_apply, heBlock2, ResBlock.residual, List.map_cons, List.map_nil, eval2, hc, ht]

/-! ## Examples -/

/-- Two images of a static camera, two metres in front of it. -/
example : ∃ (r : MsResult) (r' : HandEyeResult) (ws : List Iso) (os : List (List Corr2)) (t : Iso),
    ws.length = 2 ∧ os.length = ws.length ∧ (∀ w ∈ ws, Representable w) ∧ Representable t ∧
    (∀ f ∈ features (staticViews ws os), 0 < (inCamera2 1 t f).z) ∧
    Reaches (fun s => multiStatic s ⟨[⟨1, 1, 0, 0⟩], [ws], [os], t, [1], "t", "c"⟩) r ∧
    Reaches (fun s => handEye2 s ⟨staticViews ws os, ⟨1, 1, 0, 0⟩, t, 1, "c", "t", labelsIsometry3d⟩) r' := by
  have hw : ∀ w ∈ [(1 : Iso), ⟨1, ⟨1, 0, 0⟩⟩], Representable w := by
    intro w h
    simp only [List.mem_cons, List.not_mem_nil, or_false] at h
    rcases h with rfl | rfl
    · exact Representable.one
    · exact Representable.translation _
  have hv : ∀ f ∈ features (staticViews [(1 : Iso), ⟨1, ⟨1, 0, 0⟩⟩] [[⟨⟨0, 0⟩, ⟨0, 0, 0⟩⟩], [⟨⟨1, 0⟩, ⟨0, 1, 0⟩⟩]]),
      0 < (inCamera2 1 ⟨1, ⟨0, 0, 2⟩⟩ f).z := by
    intro f hf
    simp only [features, staticViews, List.zip_cons_cons, List.zip_nil_right, List.map_cons, List.map_nil, List.flatMap_cons, List.flatMap_nil,
      List.append_nil, List.cons_append, List.nil_append, List.mem_cons, List.not_mem_nil, or_false] at hf
    rcases hf with rfl | rfl <;>
      simp [inCamera2, Spec.targetInCamera, Iso.apply, Iso.inv, M3.tr, M3.mulVec, Iso.mul_def, M3.mul_def]
  obtain ⟨r, hr⟩ := multiStatic_id_runs (oneCamera_sizes ⟨1, 1, 0, 0⟩ [(1 : Iso), ⟨1, ⟨1, 0, 0⟩⟩]
    [[⟨⟨0, 0⟩, ⟨0, 0, 0⟩⟩], [⟨⟨1, 0⟩, ⟨0, 1, 0⟩⟩]] ⟨1, ⟨0, 0, 2⟩⟩ 1 "t" "c" rfl) (by simp) (by
      intro c hc
      have : c = 0 := by simpa using hc
      subst this
      exact ⟨_, _, List.mem_cons_self, rfl, by simp⟩)
  have hR : Reaches (fun s => multiStatic s ⟨[⟨1, 1, 0, 0⟩], [[(1 : Iso), ⟨1, ⟨1, 0, 0⟩⟩]], [[[⟨⟨0, 0⟩, ⟨0, 0, 0⟩⟩], [⟨⟨1, 0⟩, ⟨0, 1, 0⟩⟩]]],
    ⟨1, ⟨0, 0, 2⟩⟩, [1], "t", "c"⟩) r := ⟨_, idCeres_wf _, hr⟩
  obtain ⟨r', hr', -⟩ := C239_static_to_hand_eye _ _ _ _ _ "t" "c" "t" "c" rfl hw Representable.one (Representable.translation _) hv r hR
  exact ⟨r, r', _, _, _, rfl, rfl, hw, Representable.translation _, hv, hR, hr'⟩

/-- A revolute joint below the camera at angle zero. -/
example (intr : Intr) (px : V2) (y : ℝ) : kinCost2 kinExCamera kinExTarget intr ⟨[⟨px, ⟨0, y, 0⟩⟩], [0], []⟩ ⟨px, ⟨0, y, 0⟩⟩ (fun _ _ => 0) =
    .ok (handEyeCost2 px (endPose kinExCamera [0] [0]).inv (1 * endPose kinExTarget [] []) ⟨0, y, 0⟩ intr (poseEigenToCal (1 : Iso).inv) (poseEigenToCal 1)) := by
  have h1 : endPose kinExCamera [0] [0] = 1 := by
    simp [endPose, kinExCamera, DHTransform.mk4, chainPose, jointPose, dhMatrix, Iso.mul_def, M3.mul_def]
    refine Iso.ext rfl ?_
    show (⟨0, 0, 0⟩ : V3) + 0 = 0
    ext <;> simp
  have h2 : (1 : Iso) * endPose kinExTarget [] [] = ⟨1, ⟨0, 0, 1⟩⟩ := by
    rw [Iso.one_mul]; rfl
  refine C239_kinematic kinExCamera kinExTarget intr _ [0] [] 1 1 1 (paramsAre_zero 1 0) Representable.one Representable.one
    ⟨[⟨px, ⟨0, y, 0⟩⟩], [0], []⟩ ⟨px, ⟨0, y, 0⟩⟩ (by simp [kinExCamera]) (by simp [kinExTarget]) ?_ ?_ ?_
  · rw [h1]; exact Representable.one
  · rw [h2]; exact Representable.translation _
  · show (Spec.targetInCamera 1 (endPose kinExCamera [0] [0]) (1 * endPose kinExTarget [] []) 1 ⟨0, y, 0⟩).z > _
    rw [h1, h2]
    simp [Spec.targetInCamera, Iso.apply, Iso.inv, M3.tr, M3.mulVec, Iso.mul_def, M3.mul_def]
    norm_num

end RCT
