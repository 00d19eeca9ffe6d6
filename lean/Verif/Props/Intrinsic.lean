import Verif.Model.Intrinsic
import Verif.Spec.Distortion
import Verif.Spec.StaticCameras
import Verif.Lemmas.Loops
import Verif.Lemmas.Maps
import Verif.Props.PnP

/-!
# C42, C43, C89: intrinsic calibration
-/

namespace RCT
open Spec

/-! ## C42 Distortion model reduces to the pinhole model -/

theorem C42_pinhole (fx fy cx cy : ℝ) (p : V3) (hz : p.z ≠ 0) :
    projectPoints2 ⟨fx, fy, cx, cy, 0, 0, 0, 0, 0⟩ p = pinhole ⟨fx, fy, cx, cy⟩ p := by
  simp [projectPoints2, pinhole, hz]

theorem C42_principal_ray (i : Intr9) (z : ℝ) : projectPoints2 i ⟨0, 0, z⟩ = ⟨i.cx, i.cy⟩ := by
  simp [projectPoints2]

/-- In general the projection is the OpenCV lens model. -/
theorem C42_brown (i : Intr9) (p : V3) (hz : p.z ≠ 0) :
    projectPoints2 i p = brown ⟨i.fx, i.fy, i.cx, i.cy⟩ i.k1 i.k2 i.p1 i.p2 i.k3 (p.x / p.z) (p.y / p.z) := by
  have h2 : ∀ x y : ℝ, Real.sqrt (x ^ 2 + y ^ 2) ^ 2 = x ^ 2 + y ^ 2 := fun x y => Real.sq_sqrt (by positivity)
  have h4 : ∀ x y : ℝ, Real.sqrt (x ^ 2 + y ^ 2) ^ 4 = (x ^ 2 + y ^ 2) ^ 2 := fun x y => by
    rw [show 4 = 2 * 2 from rfl, pow_mul, h2]
  have h6 : ∀ x y : ℝ, Real.sqrt (x ^ 2 + y ^ 2) ^ 6 = (x ^ 2 + y ^ 2) ^ 3 := fun x y => by
    rw [show 6 = 2 * 3 from rfl, pow_mul, h2]
  simp only [projectPoints2, brown, hz, if_false, h2, h4, h6]
  ext <;> simp only <;> ring

example : (⟨1, 2, 4⟩ : V3).z ≠ 0 := by norm_num

/-! ## C89 Intrinsic result explains the final residuals -/

theorem mem_validIdx {poses : List (Option Pose6)} {i : Nat} : i ∈ validIdx poses ↔ ∃ q, poses[i]? = some (some q) := by
  simp only [validIdx, List.mem_filter, List.mem_range, List.getD_eq_getElem?_getD]
  constructor
  · rintro ⟨h, h'⟩
    rw [List.getElem?_eq_getElem h, Option.getD_some, Option.isSome_iff_exists] at h'
    obtain ⟨q, hq⟩ := h'
    exact ⟨q, by rw [List.getElem?_eq_getElem h, hq]⟩
  · rintro ⟨q, hq⟩
    exact ⟨(List.getElem?_eq_some_iff.1 hq).1, by rw [hq]; rfl⟩

/-- The features of the images whose pose estimation succeeded. -/
def usableFeatures (obs : List (List Corr2)) (usable : List Nat) : List (Nat × Corr2) :=
  usable.flatMap fun i => (obs.getD i []).map fun k => (i, k)

theorem intrBuild_eq (p : IntrinsicProblem) (poses : List (Option Pose6)) :
    intrBuild p poses = (usableFeatures p.observations (validIdx poses)).map fun f =>
      ⟨[poseBlk f.1, intrBlk], evalMem2 (intrinsicCost f.2.inTarget f.2.inImage)⟩ := by
  simp [intrBuild, usableFeatures, List.map_flatMap, Function.comp_def]

theorem intrinsic_ok {s3 : Ceres V3} {s : Ceres Mem} {p : IntrinsicProblem} {res : IntrinsicResult}
    (h : intrinsic s3 s p = .ok res) :
    ∃ poses, intrPoses s3 p = .ok poses ∧
      computeCovariance (s.covSolverF (intrBuild p poses) (s.solve (intrBuild p poses) (intrInit p poses)) intrSize)
        (intrBlk :: (List.range p.observations.length).map poseBlk) (intrNames p) [] = .ok res.covariance ∧
      res.finalCost = costPerObs (intrBuild p poses) (s.solve (intrBuild p poses) (intrInit p poses)) ∧
      res.intrinsics = ⟨s.solve (intrBuild p poses) (intrInit p poses) intrBlk 0,
        s.solve (intrBuild p poses) (intrInit p poses) intrBlk 1, s.solve (intrBuild p poses) (intrInit p poses) intrBlk 2,
        s.solve (intrBuild p poses) (intrInit p poses) intrBlk 3⟩ ∧
      res.distortions = [s.solve (intrBuild p poses) (intrInit p poses) intrBlk 4,
        s.solve (intrBuild p poses) (intrInit p poses) intrBlk 5, s.solve (intrBuild p poses) (intrInit p poses) intrBlk 6,
        s.solve (intrBuild p poses) (intrInit p poses) intrBlk 7, s.solve (intrBuild p poses) (intrInit p poses) intrBlk 8] := by
  unfold intrinsic at h
  simp only [Res.bind_ok_iff] at h
  obtain ⟨poses, h1, cov, h2, h⟩ := h
  cases h
  exact ⟨poses, h1, h2, rfl, rfl, rfl⟩

/-- For every run that returns: with `k1, k2, p1, p2, k3` the reported distortions in this order, and the reported
intrinsics, the final residuals are the errors of the OpenCV lens model, with the target of each image at its final pose (which is not reported). -/
theorem C89_residuals (s3 : Ceres V3) (s : Ceres Mem) (p : IntrinsicProblem) (res : IntrinsicResult)
    (h : intrinsic s3 s p = .ok res) :
    ∃ (k1 k2 p1 p2 k3 : ℝ) (poses : List (Option Pose6)), res.distortions = [k1, k2, p1, p2, k3] ∧
      intrPoses s3 p = .ok poses ∧
      ∀ T : Nat → Iso, (∀ i, T i = poseCalToEigen (s.solve (intrBuild p poses) (intrInit p poses) (poseBlk i)).pose) →
      ((∀ f ∈ usableFeatures p.observations (validIdx poses), ((T f.1).apply f.2.inTarget).z ≠ 0) →
        residuals (intrBuild p poses) (s.solve (intrBuild p poses) (intrInit p poses)) =
          (usableFeatures p.observations (validIdx poses)).flatMap fun f =>
            let c := (T f.1).apply f.2.inTarget
            diff2 (brown res.intrinsics k1 k2 p1 p2 k3 (c.x / c.z) (c.y / c.z)) f.2.inImage) := by
  obtain ⟨poses, h1, h2, h3, h4, h5⟩ := intrinsic_ok h
  refine ⟨_, _, _, _, _, poses, h5, h1, ?_⟩
  intro T hT hz
  have hT' := funext hT
  subst hT'
  rw [h4]
  obtain ⟨st, hst⟩ : ∃ st, st = s.solve (intrBuild p poses) (intrInit p poses) := ⟨_, rfl⟩
  rw [← hst] at hz ⊢
  rw [intrBuild_eq, residuals_map]
  apply flatMap_congr'
  intro f hf
  have := C42_brown (st intrBlk).intr9 _ (hz f hf)
  simp only [ResBlock.residual, List.map_cons, List.map_nil, evalMem2, intrinsicCost, transformPoint_eq, diff2, this]
  rfl

/-! ## C43 Intrinsic calibration skips unusable images

Full statement: when pose estimation fails for some images, exactly these are ignored and a result is returned for the
others. The first part holds for the cost (`C43_partial`); but a result is never returned (`C43_negation`): the covariance
is requested for the poses of all images, also of the ignored ones, which are not part of the problem. -/

/-- The problem contains exactly the features of the images with a successful pose estimate, each attached to the pose
of its image and to the intrinsics. -/
theorem C43_partial (s3 : Ceres V3) (p : IntrinsicProblem) (poses : List (Option Pose6)) (h : intrPoses s3 p = .ok poses) :
    poses.length = p.observations.length ∧
    (∀ i : Nat, i ∈ validIdx poses ↔ ∃ obs q, p.observations[i]? = some obs ∧
      intrSolvePnP s3 p.guess obs guessInitialPose = .ok q) ∧
    (validIdx poses).Pairwise (· < ·) ∧
    (intrBuild p poses).map ResBlock.blocks =
      (usableFeatures p.observations (validIdx poses)).map fun f => [poseBlk f.1, intrBlk] := by
  have hlen := Res.mapList_ok_length h
  refine ⟨hlen, ?_, ?_, ?_⟩
  · intro i
    rw [mem_validIdx]
    unfold intrPoses at h
    rw [Res.mapList_ok_iff] at h
    constructor
    · rintro ⟨q, hq⟩
      have hi := (List.getElem?_eq_some_iff.1 hq).1
      have := h.get (by omega) hi
      refine ⟨_, q, List.getElem?_eq_getElem (by omega), ?_⟩
      simp only [List.get_eq_getElem, (List.getElem?_eq_some_iff.1 hq).2] at this
      revert this
      cases hs : intrSolvePnP s3 p.guess p.observations[i] guessInitialPose <;> simp
    · rintro ⟨obs, q, ho, hs⟩
      have hi := (List.getElem?_eq_some_iff.1 ho).1
      have := h.get hi (by omega)
      simp only [List.get_eq_getElem, (List.getElem?_eq_some_iff.1 ho).2, hs, Res.ok.injEq] at this
      exact ⟨q, by rw [List.getElem?_eq_getElem (by omega), this]⟩
  · unfold validIdx
    exact List.pairwise_lt_range.filter _
  · rw [intrBuild_eq, List.map_map]; rfl

theorem poseBlk_inj (a b : Nat) (h : poseBlk a = poseBlk b) : a = b := by unfold poseBlk at h; omega

theorem intrNames_size (p : IntrinsicProblem) : (intrNames p).size = p.observations.length + 1 := by
  unfold intrNames
  rw [size_foldl_insert (fun i => labelsIntrinsicPose.map fun l => p.labelExtr ++ toString i ++ "_" ++ l) poseBlk poseBlk_inj]
  · rw [SMap.size_insert_new [] _ _ rfl]; simp [SMap.size]; omega
  · intro c _
    rw [SMap.find_insert, if_neg (by simp [poseBlk, intrBlk])]; rfl

theorem intrNames_find (p : IntrinsicProblem) (b : Nat)
    (hb : b ∈ intrBlk :: (List.range p.observations.length).map poseBlk) :
    ∃ l, (intrNames p).find b = some l ∧ l.length = intrSize b := by
  unfold intrNames
  simp only [List.mem_cons, List.mem_map, List.mem_range] at hb
  rcases hb with rfl | ⟨i, hi, rfl⟩
  · refine ⟨labelsIntrinsic, ?_, rfl⟩
    rw [find_foldl_insert_ne (fun i => labelsIntrinsicPose.map fun l => p.labelExtr ++ toString i ++ "_" ++ l) poseBlk _ _ _
      (by intro c _; simp [poseBlk, intrBlk]), SMap.find_insert, if_pos rfl]
  · refine ⟨_, find_foldl_insert (fun i => labelsIntrinsicPose.map fun l => p.labelExtr ++ toString i ++ "_" ++ l) poseBlk
      poseBlk_inj _ _ i hi, ?_⟩
    simp [labelsIntrinsicPose, intrSize, poseBlk, intrBlk]

/-- Whenever pose estimation throws for at least one image (and ends for all images), the process is aborted. -/
theorem C43_negation (s3 : Ceres V3) (s : Ceres Mem) (p : IntrinsicProblem) (poses : List (Option Pose6))
    (h : intrPoses s3 p = .ok poses) (i : Nat) (hi : poses[i]? = some none) : intrinsic s3 s p = .abort := by
  unfold intrinsic
  rw [h, Res.ok_bind]
  simp only
  have hlen : poses.length = p.observations.length := (C43_partial s3 p poses h).1
  rw [computeCovariance_abort]
  · rfl
  · rw [intrNames_size]; simp
  · intro b hb
    obtain ⟨l, h1, h2⟩ := intrNames_find p b hb
    refine ⟨l, h1, ?_⟩
    unfold Ceres.covSolverF
    simp only
    split
    · right; rw [h2]
    · left; rfl
  · refine ⟨poseBlk i, ?_, ?_⟩
    · simp only [List.mem_cons, List.mem_map, List.mem_range]
      exact Or.inr ⟨i, by have := (List.getElem?_eq_some_iff.1 hi).1; omega, rfl⟩
    · unfold Ceres.covSolverF
      simp only
      rw [if_neg]
      rw [mem_usedBlocks]
      rintro ⟨b, hb, hmem⟩
      rw [intrBuild_eq, List.mem_map] at hb
      obtain ⟨f, hf, rfl⟩ := hb
      simp only [usableFeatures, List.mem_flatMap, List.mem_map] at hf
      obtain ⟨j, hj, k, -, rfl⟩ := hf
      simp only [List.mem_cons, List.not_mem_nil, or_false] at hmem
      rcases hmem with hm | hm
      · have := poseBlk_inj _ _ hm
        subst this
        rw [mem_validIdx] at hj
        obtain ⟨q, hq⟩ := hj
        rw [hi] at hq; cases hq
      · unfold poseBlk intrBlk at hm; omega

/-- In particular a run returns only if pose estimation succeeded for every image. -/
theorem C43_partial_returns (s3 : Ceres V3) (s : Ceres Mem) (p : IntrinsicProblem) (res : IntrinsicResult)
    (h : intrinsic s3 s p = .ok res) : ∀ obs ∈ p.observations, ∃ q, intrSolvePnP s3 p.guess obs guessInitialPose = .ok q := by
  obtain ⟨poses, h1, -⟩ := intrinsic_ok h
  intro obs hobs
  obtain ⟨i, hi, hio⟩ := List.mem_iff_getElem.1 hobs
  have hlen := (C43_partial s3 p poses h1).1
  cases hq : poses[i]'(by omega) with
  | none =>
    rw [C43_negation s3 s p poses h1 i (by rw [List.getElem?_eq_getElem (by omega), hq])] at h
    cases h
  | some q =>
    obtain ⟨obs', q', ho, hs⟩ := ((C43_partial s3 p poses h1).2.1 i).1
      (mem_validIdx.2 ⟨q, by rw [List.getElem?_eq_getElem (by omega), hq]⟩)
    rw [List.getElem?_eq_getElem hi, hio] at ho
    cases ho
    exact ⟨q', hs⟩

/-- With at least one image, features in every image, successful pose estimates and a working covariance service there is
a result. -/
theorem C43_partial_result (s3 : Ceres V3) (s : Ceres Mem) (p : IntrinsicProblem) (h0 : p.observations ≠ [])
    (h1 : ∀ obs ∈ p.observations, obs ≠ [] ∧ ∃ q, intrSolvePnP s3 p.guess obs guessInitialPose = .ok q)
    (h2 : ∀ pb st l, s.covCompute pb st l = .ok true) (h3 : ∀ pb st l, (s.covMatrix pb st l).isSome) :
    ∃ res, intrinsic s3 s p = .ok res := by
  obtain ⟨poses, hp⟩ : ∃ poses, intrPoses s3 p = .ok poses := by
    refine Res.mapList_returns fun obs ho => ?_
    obtain ⟨-, q, hq⟩ := h1 obs ho
    exact ⟨some q, by rw [hq]⟩
  have hlen := (C43_partial s3 p poses hp).1
  have hused : ∀ b ∈ intrBlk :: (List.range p.observations.length).map poseBlk, b ∈ usedBlocks (intrBuild p poses) := by
    have key : ∀ i < p.observations.length, ∃ k, (i, k) ∈ usableFeatures p.observations (validIdx poses) := by
      intro i hi
      obtain ⟨hne, q, hq⟩ := h1 p.observations[i] (List.getElem_mem hi)
      obtain ⟨k, l, hkl⟩ := List.exists_cons_of_ne_nil hne
      refine ⟨k, ?_⟩
      simp only [usableFeatures, List.mem_flatMap, List.mem_map]
      refine ⟨i, ((C43_partial s3 p poses hp).2.1 i).2 ⟨_, q, List.getElem?_eq_getElem hi, hq⟩, k, ?_, rfl⟩
      simp [List.getD_eq_getElem?_getD, List.getElem?_eq_getElem hi, hkl]
    intro b hb
    rw [mem_usedBlocks, intrBuild_eq]
    simp only [List.mem_cons, List.mem_map, List.mem_range] at hb
    rcases hb with rfl | ⟨i, hi, rfl⟩
    · obtain ⟨k, hk⟩ := key 0 (List.length_pos_iff.2 h0)
      exact ⟨_, List.mem_map.2 ⟨_, hk, rfl⟩, by simp⟩
    · obtain ⟨k, hk⟩ := key i hi
      exact ⟨_, List.mem_map.2 ⟨_, hk, rfl⟩, by simp⟩
  obtain ⟨cov, hc⟩ := computeCovariance_returns
    (cs := s.covSolverF (intrBuild p poses) (s.solve (intrBuild p poses) (intrInit p poses)) intrSize)
    (blocks := intrBlk :: (List.range p.observations.length).map poseBlk) (names := intrNames p) (masks := [])
    (by rw [intrNames_size]; simp)
    (fun b hb => by
      obtain ⟨l, e1, e2⟩ := intrNames_find p b hb
      refine ⟨l, e1, ?_⟩
      unfold Ceres.covSolverF
      simp only
      rw [if_pos (hused b hb), e2]) (h2 _ _ _) (h3 _ _ _)
  unfold intrinsic
  rw [hp, Res.ok_bind]
  simp only
  rw [hc]
  exact ⟨_, rfl⟩

/-- A solver that never converges: every pose estimate fails. -/
def stuckCeres (β : Type) : Ceres β := { idCeres β with converged := fun _ _ => false }

/-- Both situations occur. -/
theorem intr_examples :
    (∃ poses, intrPoses (stuckCeres V3) ⟨[[⟨⟨0, 0⟩, ⟨0, 0, 1⟩⟩]], ⟨1, 1, 0, 0⟩, "pose"⟩ = .ok poses ∧ poses[0]? = some none) ∧
    ∃ res, intrinsic (idCeres V3) (idCeres Mem) ⟨[[⟨⟨0, 0⟩, ⟨0, 0, 1⟩⟩]], ⟨1, 1, 0, 0⟩, "pose"⟩ = .ok res := by
  constructor
  · obtain ⟨r, hr⟩ := pnpFinish_returns (stuckCeres V3)
      (⟨⟨1, 1, 0, 0⟩, [⟨⟨0, 0⟩, ⟨0, 0, 1⟩⟩], poseCalToEigen guessInitialPose, "camera_to_target"⟩ : PnPProblem Corr2)
      [(⟨⟨0, 0⟩, ⟨0, 0, 1⟩⟩ : Corr2)] (by simp)
      (fun c => ⟨[pnpRot, pnpTrans], evalV2 (pnpCost2 ⟨1, 1, 0, 0⟩ c.inTarget c.inImage)⟩) (fun _ _ => rfl) rfl rfl
    have hc : r.converged = false := by
      have h' := hr
      unfold pnpFinish at h'
      simp only [Res.bind_ok_iff] at h'
      obtain ⟨cov, -, h'⟩ := h'
      cases h'; rfl
    have : intrSolvePnP (stuckCeres V3) ⟨1, 1, 0, 0⟩ [⟨⟨0, 0⟩, ⟨0, 0, 1⟩⟩] guessInitialPose = .throw .runtimeError := by
      unfold intrSolvePnP pnp2 pnpBuild2
      rw [hr, Res.ok_bind, if_neg (by simp [hc])]
    refine ⟨[none], ?_, rfl⟩
    simp [intrPoses, Res.mapList, this]
  · refine C43_partial_result _ _ _ (by simp) ?_ (fun _ _ _ => rfl) (fun _ _ _ => rfl)
    intro obs ho
    simp only [List.mem_singleton] at ho
    subst ho
    refine ⟨by simp, ?_⟩
    obtain ⟨r, hr⟩ := pnpFinish_returns (idCeres V3)
      (⟨⟨1, 1, 0, 0⟩, [⟨⟨0, 0⟩, ⟨0, 0, 1⟩⟩], poseCalToEigen guessInitialPose, "camera_to_target"⟩ : PnPProblem Corr2)
      [(⟨⟨0, 0⟩, ⟨0, 0, 1⟩⟩ : Corr2)] (by simp)
      (fun c => ⟨[pnpRot, pnpTrans], evalV2 (pnpCost2 ⟨1, 1, 0, 0⟩ c.inTarget c.inImage)⟩) (fun _ _ => rfl) rfl rfl
    have hc : r.converged = true := by
      have h' := hr
      unfold pnpFinish at h'
      simp only [Res.bind_ok_iff] at h'
      obtain ⟨cov, -, h'⟩ := h'
      cases h'; rfl
    refine ⟨poseEigenToCal r.cameraToTarget, ?_⟩
    unfold intrSolvePnP pnp2 pnpBuild2
    rw [hr, Res.ok_bind, if_pos hc]

end RCT
