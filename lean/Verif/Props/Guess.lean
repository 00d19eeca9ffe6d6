import Verif.Props.KinematicRuns
import Verif.Props.StaticCameras
import Verif.Props.Intrinsic

/-!
# What an unmoved solver reports, and which images the intrinsic calibration uses

Further theorems about C34 and C43.
-/

namespace RCT
open Spec

/-! ## C34 Guess is returned when the solver does not move (static cameras, kinematic and intrinsic calibration) -/

/-- Multi camera PnP. -/
theorem C34_multi_camera_pnp (s : Ceres Pose6) (p : McPnpProblem) (res : McPnpResult) (hstay : ∀ pb st, s.solve pb st = st)
    (hg : Representable p.guess) (h : mcPnp s p = .ok res) : res.baseToTarget = p.guess := by
  unfold mcPnp at h
  rw [Res.bind_ok_iff] at h
  obtain ⟨pb, -, h⟩ := h
  cases h
  simp only [hstay]
  exact hg.roundtrip

theorem map_range_getElem? {α β : Type} (l : List α) (f : Nat → β) (g : α → β) (h : ∀ i a, l[i]? = some a → f i = g a) :
    (List.range l.length).map f = l.map g := by
  apply List.ext_getElem?
  intro i
  simp only [List.getElem?_map]
  by_cases hi : i < l.length
  · rw [List.getElem?_range hi, List.getElem?_eq_getElem hi]
    simp [h i _ (List.getElem?_eq_getElem hi)]
  · rw [List.getElem?_eq_none (by simpa using hi), List.getElem?_eq_none (by simpa using hi)]
    rfl

/-- Static cameras, moving target: every camera keeps its guess and the target keeps its guess. -/
theorem C34_multi_static (s : Ceres Pose6) (p : MsProblem) (res : MsResult) (hstay : ∀ pb st, s.solve pb st = st)
    (ht : Representable p.wristToTargetGuess) (hc : ∀ g ∈ p.baseToCameraGuess, Representable g)
    (h : multiStatic s p = .ok res) :
    res.wristToTarget = p.wristToTargetGuess ∧ res.baseToCamera = p.baseToCameraGuess := by
  unfold multiStatic at h
  simp only [Res.bind_ok_iff] at h
  obtain ⟨pb, -, cov, -, h⟩ := h
  cases h
  simp only [hstay]
  refine ⟨by simpa [msInit, msTgt] using ht.roundtrip, ?_⟩
  rw [map_range_getElem? p.baseToCameraGuess _ id, List.map_id]
  intro i g hi
  have hm : g ∈ p.baseToCameraGuess := List.mem_of_getElem? hi
  have : msInit p (msCam i) = poseEigenToCal g.inv := by simp [msInit, msCam, msTgt, hi]
  rw [this, (hc g hm).inv.roundtrip, Iso.inv_inv (hc g hm).rigid]
  rfl

/-- Static cameras only, with at least one image (without images the cameras are lost: `C39_negation`). -/
theorem C34_camera_only (s : Ceres Pose6) (p : CoProblem) (res : CoResult) (hstay : ∀ pb st, s.solve pb st = st)
    (h0 : p.baseToTargetGuess ≠ []) (ht : ∀ g ∈ p.baseToTargetGuess, Representable g)
    (hc : ∀ g ∈ p.baseToCameraGuess, Representable g) (h : cameraOnly s p = .ok res) :
    res.baseToTarget = p.baseToTargetGuess ∧ res.baseToCamera = p.baseToCameraGuess := by
  unfold cameraOnly at h
  simp only [Res.bind_ok_iff] at h
  obtain ⟨pb, -, h⟩ := h
  cases h
  simp only [hstay]
  constructor
  · rw [map_range_getElem? p.baseToTargetGuess _ id, List.map_id]
    intro i g hi
    have hm : g ∈ p.baseToTargetGuess := List.mem_of_getElem? hi
    have : coInit p (coTgt i) = poseEigenToCal g := by simp [coInit, coTgt, hi]
    rw [this, (ht g hm).roundtrip]
    rfl
  · rw [map_range_getElem? p.baseToCameraGuess _ id, List.map_id]
    intro i g hi
    have hm : g ∈ p.baseToCameraGuess := List.mem_of_getElem? hi
    have : coInit p (coCam i) = poseEigenToCal g.inv := by
      have h1 : (2 * i + 1) % 2 = 1 := by omega
      have h2 : (2 * i + 1) / 2 = i := by omega
      simp [coInit, coCam, h1, h2, hi, h0]
    rw [this, (hc g hm).inv.roundtrip, Iso.inv_inv (hc g hm).rigid]
    rfl

/-- Wrist only. -/
theorem C34_wrist_only (s : Ceres Pose6) (p : WoProblem) (res : WoResult) (hstay : ∀ pb st, s.solve pb st = st)
    (ht : Representable p.wristToTargetGuess) (h : wristOnly s p = .ok res) :
    res.wristToTarget = p.wristToTargetGuess ∧ res.baseToCamera = p.baseToCameraGuess := by
  unfold wristOnly at h
  simp only [Res.bind_ok_iff] at h
  obtain ⟨pb, -, h⟩ := h
  cases h
  simp only [hstay]
  refine ⟨by simpa [woInit, woTgt] using ht.roundtrip, ?_⟩
  have : woInit p woCorr = poseEigenToCal 1 := by simp [woInit, woTgt, woCorr]
  rw [this, Representable.one.roundtrip, Iso.inv_one]
  simp [Iso.one_mul]

theorem kinOffsets_zero (c : DHChain) : ∀ o ∈ kinOffsets c (fun _ => 0), o = ⟨0, 0, 0, 0⟩ := by
  intro o ho
  unfold kinOffsets at ho
  split at ho
  · exact (List.mem_replicate.1 ho).2
  · simp only [Mem.dhRows, List.mem_map] at ho
    obtain ⟨_, _, rfl⟩ := ho
    rfl

/-- Kinematic calibration: no offsets, and the guesses of the three transforms. -/
theorem C34_kinematic (K : KCeres) (hK : K.WF) (p : KinProblem) (costs : List ((Nat → Mem) → Res (List ℝ)))
    (r : KinResult) (hstay : ∀ bs pb st, (K.run bs).solve pb st = st) (h1 : KinRepresentable p.cmToC)
    (h2 : KinRepresentable p.tmToT) (h3 : KinRepresentable p.cbToTb) (h : kinOptimize K p costs = .ok r) :
    r.cmToC = p.cmToC ∧ r.tmToT = p.tmToT ∧ r.cbToTb = p.cbToTb ∧
      (∀ o ∈ r.cameraOffsets, o = ⟨0, 0, 0, 0⟩) ∧ ∀ o ∈ r.targetOffsets, o = ⟨0, 0, 0, 0⟩ := by
  obtain ⟨R⟩ := kinOptimize_ok hK h
  have hst := R.st_eq
  rw [hstay] at hst
  rw [R.cmToC, R.tmToT, R.cbToTb, R.cameraOffsets, R.targetOffsets, hst]
  refine ⟨?_, ?_, ?_, ?_, ?_⟩
  · exact (kinTransform_aaOf h1 _)
  · exact (kinTransform_aaOf h2 _)
  · exact (kinTransform_aaOf h3 _)
  · exact kinOffsets_zero _
  · exact kinOffsets_zero _

/-- Intrinsic calibration: the guess, and no distortion. -/
theorem C34_intrinsic (s3 : Ceres V3) (s : Ceres Mem) (p : IntrinsicProblem) (res : IntrinsicResult)
    (hstay : ∀ pb st, s.solve pb st = st) (h : intrinsic s3 s p = .ok res) :
    res.intrinsics = p.guess ∧ res.distortions = [0, 0, 0, 0, 0] := by
  unfold intrinsic at h
  simp only [Res.bind_ok_iff] at h
  obtain ⟨poses, -, cov, -, h⟩ := h
  cases h
  simp only [hstay]
  exact ⟨rfl, rfl⟩

theorem kinRepresentable_one : KinRepresentable 1 := by
  refine ⟨Representable.one.1, Or.inl ?_⟩
  rcases Representable.one.2 with h | h
  · exact h
  · exfalso
    have : rotAngle (1 : Iso).R = 0 := by simp [rotAngle]
    rw [this] at h; norm_num at h

/-- Non-vacuity: runs that return, with a solver that does not move. -/
example : (∃ res, multiStatic (idCeres Pose6) ⟨[⟨1, 1, 0, 0⟩], [[1]], [[[⟨⟨0, 0⟩, ⟨0, 0, 1⟩⟩]]], 1, [1], "t", "c"⟩ = .ok res) ∧
    (∃ res, mcPnp (idCeres Pose6) ⟨[⟨1, 1, 0, 0⟩], [1], [[⟨⟨0, 0⟩, ⟨0, 0, 1⟩⟩]], exRotX 1⟩ = .ok res) ∧
    (∃ res, cameraOnly (idCeres Pose6) ⟨true, [⟨1, 1, 0, 0⟩], [1], [[[⟨⟨0, 0⟩, ⟨0, 0, 1⟩⟩]]], [1]⟩ = .ok res) ∧
    (∃ res, wristOnly (idCeres Pose6) ⟨[⟨1, 1, 0, 0⟩], [1], [[[⟨⟨0, 0⟩, ⟨0, 0, 1⟩⟩]]], 1, [1]⟩ = .ok res) ∧
    (∃ res, intrinsic (idCeres V3) (idCeres Mem) ⟨[[⟨⟨0, 0⟩, ⟨0, 0, 1⟩⟩]], ⟨1, 1, 0, 0⟩, "pose"⟩ = .ok res) ∧
    (∃ r, kinematic6 idKCeres kinExProblem 1 [⟨1, [0], []⟩] = .ok r) ∧
    (∀ pb st, (idCeres Pose6).solve pb st = st) ∧ (∀ bs pb st, (idKCeres.run bs).solve pb st = st) ∧
    KinRepresentable kinExProblem.cmToC ∧ KinRepresentable kinExProblem.tmToT ∧ KinRepresentable kinExProblem.cbToTb := by
  refine ⟨msEx_returns, ⟨_, rfl⟩, ⟨_, rfl⟩, ⟨_, rfl⟩, intr_examples.2, kinEx_returns 1 0, fun _ _ => rfl, fun _ _ _ => rfl,
    ?_, ?_, ?_⟩
  all_goals exact kinRepresentable_one

/-! ## C43 Intrinsic calibration skips unusable images

`C43_partial` speaks about the images whose pose is estimated; here this is reduced to the outcome of PnP. -/

/-- A target half a metre in front of the camera, facing it. -/
noncomputable def Spec.facingPose : Iso := ⟨⟨1, 0, 0, 0, -1, 0, 0, 0, -1⟩, ⟨0, 0, 1 / 2⟩⟩

theorem facingPose_rep : Representable facingPose := by
  refine ⟨(rigid_iff _).1 (M3.IsRot.of_cols ?_ ?_ ?_ ?_ ?_ ?_ ?_), Or.inr ?_⟩
  any_goals norm_num [facingPose, M3.det]
  have : rotAngle facingPose.R = Real.pi := by
    unfold rotAngle
    norm_num [facingPose]
  rw [show (⟨1, 0, 0, 0, -1, 0, 0, 0, -1⟩ : M3) = facingPose.R from rfl, this]
  have := Real.pi_gt_three
  nlinarith

theorem guessInitialPose_eq : poseCalToEigen guessInitialPose = facingPose := by
  have hR : AngleAxis.toMat ⟨Real.pi, ⟨1, 0, 0⟩⟩ = ⟨1, 0, 0, 0, -1, 0, 0, 0, -1⟩ := by
    ext <;> simp [AngleAxis.toMat]
  unfold guessInitialPose
  rw [hR]
  exact facingPose_rep.roundtrip

/-- The PnP problem posed for an image: the given intrinsics, and a target half a metre in front of the camera, facing
it. -/
noncomputable def imagePnp (s : Ceres V3) (p : IntrinsicProblem) (obs : List Corr2) : Res PnPResult :=
  pnp2 s ⟨p.guess, obs, facingPose, "camera_to_target"⟩

theorem intrSolvePnP_eq (s : Ceres V3) (p : IntrinsicProblem) (obs : List Corr2) :
    intrSolvePnP s p.guess obs guessInitialPose = (imagePnp s p obs).bind fun r =>
      if r.converged = true then .ok (poseEigenToCal r.cameraToTarget) else .throw .runtimeError := by
  unfold imagePnp
  rw [← guessInitialPose_eq]
  rfl

/-- If PnP returns or throws for every image, the calibration goes on, and its problem contains exactly the features of
the images for which PnP converged. -/
theorem C43_partial_skips (s3 : Ceres V3) (p : IntrinsicProblem)
    (hends : ∀ obs ∈ p.observations, (∃ r, imagePnp s3 p obs = .ok r) ∨ ∃ e, imagePnp s3 p obs = .throw e) :
    ∃ poses, intrPoses s3 p = .ok poses ∧
      (∀ i : Nat, i ∈ validIdx poses ↔ ∃ obs r, p.observations[i]? = some obs ∧ imagePnp s3 p obs = .ok r ∧
        r.converged = true) ∧
      (intrBuild p poses).map ResBlock.blocks =
        (usableFeatures p.observations (validIdx poses)).map fun f => [poseBlk f.1, intrBlk] := by
  have key : ∀ obs, intrSolvePnP s3 p.guess obs guessInitialPose = (imagePnp s3 p obs).bind fun r =>
      if r.converged = true then .ok (poseEigenToCal r.cameraToTarget) else .throw .runtimeError := intrSolvePnP_eq s3 p
  obtain ⟨poses, hp⟩ : ∃ poses, intrPoses s3 p = .ok poses := by
    refine Res.mapList_returns fun obs ho => ?_
    rw [key]
    rcases hends obs ho with ⟨r, hr⟩ | ⟨e, he⟩
    · rw [hr, Res.ok_bind]
      by_cases hc : r.converged = true
      · exact ⟨some (poseEigenToCal r.cameraToTarget), by rw [if_pos hc]⟩
      · exact ⟨none, by rw [if_neg hc]⟩
    · exact ⟨none, by rw [he]; rfl⟩
  obtain ⟨-, h1, -, h3⟩ := C43_partial s3 p poses hp
  refine ⟨poses, hp, fun i => (h1 i).trans ?_, h3⟩
  constructor
  · rintro ⟨obs, q, ho, hq⟩
    rw [key, Res.bind_ok_iff] at hq
    obtain ⟨r, hr, hq⟩ := hq
    refine ⟨obs, r, ho, hr, ?_⟩
    by_contra hc
    rw [if_neg hc] at hq
    cases hq
  · rintro ⟨obs, r, ho, hr, hc⟩
    exact ⟨obs, _, ho, by rw [key, hr, Res.ok_bind, if_pos hc]⟩

/-- Hence a single image for which PnP does not converge or throws lets the process abort: no result for the others. -/
theorem C43_negation_unusable (s3 : Ceres V3) (s : Ceres Mem) (p : IntrinsicProblem)
    (hends : ∀ obs ∈ p.observations, (∃ r, imagePnp s3 p obs = .ok r) ∨ ∃ e, imagePnp s3 p obs = .throw e)
    (obs : List Corr2) (ho : obs ∈ p.observations) (hbad : ∀ r, imagePnp s3 p obs = .ok r → r.converged = false) :
    intrinsic s3 s p = .abort := by
  obtain ⟨poses, hp, hv, -⟩ := C43_partial_skips s3 p hends
  have hlen := (C43_partial s3 p poses hp).1
  obtain ⟨i, hi, rfl⟩ := List.mem_iff_getElem.1 ho
  apply C43_negation s3 s p poses hp i
  rw [List.getElem?_eq_getElem (by omega)]
  cases hq : poses[i]'(by omega) with
  | none => rfl
  | some q =>
    obtain ⟨obs', r, h1, h2, h3⟩ := (hv i).1 (mem_validIdx.2 ⟨q, by rw [List.getElem?_eq_getElem (by omega), hq]⟩)
    rw [List.getElem?_eq_getElem hi] at h1
    cases h1
    rw [hbad r h2] at h3
    cases h3

/-- A result is returned only if PnP converged for all images. -/
theorem C43_partial_returns_converged (s3 : Ceres V3) (s : Ceres Mem) (p : IntrinsicProblem) (res : IntrinsicResult)
    (h : intrinsic s3 s p = .ok res) :
    ∀ obs ∈ p.observations, ∃ r, imagePnp s3 p obs = .ok r ∧ r.converged = true := by
  intro obs ho
  obtain ⟨q, hq⟩ := C43_partial_returns s3 s p res h obs ho
  rw [intrSolvePnP_eq] at hq
  rw [Res.bind_ok_iff] at hq
  obtain ⟨r, hr, hq⟩ := hq
  refine ⟨r, hr, ?_⟩
  by_contra hc
  rw [if_neg hc] at hq
  cases hq

/-- Non-vacuity: with a solver that never converges, PnP returns without convergence. -/
example : ∃ r, imagePnp (stuckCeres V3) ⟨[[⟨⟨0, 0⟩, ⟨0, 0, 1⟩⟩]], ⟨1, 1, 0, 0⟩, "pose"⟩ [⟨⟨0, 0⟩, ⟨0, 0, 1⟩⟩] = .ok r ∧
    r.converged = false := by
  obtain ⟨r, hr⟩ := pnpFinish_returns (stuckCeres V3)
    (⟨⟨1, 1, 0, 0⟩, [⟨⟨0, 0⟩, ⟨0, 0, 1⟩⟩], facingPose, "camera_to_target"⟩ : PnPProblem Corr2)
    [(⟨⟨0, 0⟩, ⟨0, 0, 1⟩⟩ : Corr2)] (by simp)
    (fun c => ⟨[pnpRot, pnpTrans], evalV2 (pnpCost2 ⟨1, 1, 0, 0⟩ c.inTarget c.inImage)⟩) (fun _ _ => rfl) rfl rfl
  refine ⟨r, hr, ?_⟩
  unfold pnpFinish at hr
  simp only [Res.bind_ok_iff] at hr
  obtain ⟨cov, -, hr⟩ := hr
  cases hr; rfl

end RCT
