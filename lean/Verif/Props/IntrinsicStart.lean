import Verif.Props.Guess
import Verif.Props.Fit
import Verif.Props.IdentifyIntrinsic
import Verif.Spec.SingleMains
import Verif.Lemmas.Noise

/-!
# Where intrinsic calibration starts (C215)
-/

namespace RCT
open Spec

/-- Reprojection errors of a camera without distortion that sees image `i` of the target at `T i`. -/
noncomputable def Spec.imageErrors (intr : Intr) (T : Nat → Iso) (l : List (List Corr2)) : List ℝ :=
  (List.range l.length).flatMap fun i => pixelErrors intr (T i) (l.getD i [])

/-- Number of features of all images. -/
def Spec.featureCount (l : List (List Corr2)) : Nat := (l.map List.length).sum

theorem validIdx_all {s3 : Ceres V3} {s : Ceres Mem} {p : IntrinsicProblem} {res : IntrinsicResult}
    (h : intrinsic s3 s p = .ok res) {poses : List (Option Pose6)} (hp : intrPoses s3 p = .ok poses) :
    validIdx poses = List.range p.observations.length := by
  obtain ⟨hlen, hval, -⟩ := C43_partial s3 p poses hp
  have hall := C43_partial_returns s3 s p res h
  unfold validIdx at hval ⊢
  rw [hlen] at hval ⊢
  rw [List.filter_eq_self]
  intro i hi
  rw [List.mem_range] at hi
  obtain ⟨q, hq⟩ := hall p.observations[i] (by simp)
  have := (hval i).2 ⟨_, q, by simp [hi], hq⟩
  exact (List.mem_filter.1 this).2

/-- The initial values of the pose of an image. -/
theorem intrInit_pose {s3 : Ceres V3} {p : IntrinsicProblem} {poses : List (Option Pose6)} (hp : intrPoses s3 p = .ok poses)
    {i : Nat} {obs : List Corr2} (ho : p.observations[i]? = some obs) {r : PnPResult} (hr : imagePnp s3 p obs = .ok r)
    (hc : r.converged = true) : (intrInit p poses (poseBlk i)).pose = poseEigenToCal r.cameraToTarget := by
  have hlen := Res.mapList_ok_length hp
  have hi := (List.getElem?_eq_some_iff.1 ho).1
  unfold intrPoses at hp
  rw [Res.mapList_ok_iff] at hp
  have := hp.get hi (by omega)
  simp only [List.get_eq_getElem, (List.getElem?_eq_some_iff.1 ho).2, intrSolvePnP_eq, hr, Res.ok_bind, hc, if_true, Res.ok.injEq] at this
  have e : poses.getD i none = some (poseEigenToCal r.cameraToTarget) := by
    rw [List.getD_eq_getElem?_getD, List.getElem?_eq_getElem (by omega), this]; rfl
  have e2 : intrInit p poses (poseBlk i) = (poseEigenToCal r.cameraToTarget).mem := by
    have ei : i + 1 - 1 = i := rfl
    simp only [intrInit, poseBlk, intrBlk, ei, e]
    rfl
  rw [e2]; rfl

/-- A camera without distortion. -/
theorem brown_plain (g : Intr) (v : V3) : brown g 0 0 0 0 0 (v.x / v.z) (v.y / v.z) = pinhole g v := by
  simp [brown, pinhole]

/-- The residuals at the start. -/
theorem intrBuild_start {s3 : Ceres V3} {s : Ceres Mem} {p : IntrinsicProblem} {res : IntrinsicResult}
    (h : intrinsic s3 s p = .ok res) {poses : List (Option Pose6)} (hp : intrPoses s3 p = .ok poses) (T : Nat → Iso)
    (hT : ∀ i, i < p.observations.length → poseCalToEigen (intrInit p poses (poseBlk i)).pose = T i)
    (hz : ∀ i, i < p.observations.length → ∀ k ∈ p.observations.getD i [], ((T i).apply k.inTarget).z ≠ 0) :
    residuals (intrBuild p poses) (intrInit p poses) = imageErrors p.guess T p.observations := by
  have e : imageErrors p.guess T p.observations = (usableFeatures p.observations (validIdx poses)).flatMap fun f =>
      diff2 (pinhole p.guess ((T f.1).apply f.2.inTarget)) f.2.inImage := by
    rw [validIdx_all h hp]
    simp [imageErrors, pixelErrors, usableFeatures, List.flatMap_assoc, List.flatMap_map]
  rw [e, intrBuild_eq, residuals_map]
  apply flatMap_congr'
  intro f hf
  obtain ⟨h1, h2⟩ := (intrinsic_features h hp f).1 hf
  have hz' := hz f.1 h1 f.2 h2
  rw [← hT f.1 h1] at hz' ⊢
  have := C42_brown (intrInit p poses intrBlk).intr9 _ hz'
  have e9 : (intrInit p poses intrBlk).intr9 = ⟨p.guess.fx, p.guess.fy, p.guess.cx, p.guess.cy, 0, 0, 0, 0, 0⟩ := by
    simp [intrInit, Mem.intr9]
  simp only [ResBlock.residual, List.map_cons, List.map_nil, evalMem2, intrinsicCost, transformPoint_eq, diff2, this]
  simp only [e9, brown_plain]

/-! ## C215 Intrinsic calibration starts where the pose estimation of the images ends -/

/-- In every run that returns, PnP with the guessed camera converged for every image; the initial cost is half the mean squared
reprojection error of the guessed camera, without distortion, with the target of every image at the pose of PnP. -/
theorem C215_initial (s3 : Ceres V3) (s : Ceres Mem) (p : IntrinsicProblem) (res : IntrinsicResult)
    (h : intrinsic s3 s p = .ok res) :
    ∃ r : Nat → PnPResult,
      (∀ i (hi : i < p.observations.length), pnp2 s3 ⟨p.guess, p.observations[i], facingPose, "camera_to_target"⟩ = .ok (r i) ∧
        (r i).converged = true) ∧
      ((∀ i, i < p.observations.length → Representable (r i).cameraToTarget ∧
          ∀ k ∈ p.observations.getD i [], ((r i).cameraToTarget.apply k.inTarget).z ≠ 0) →
        res.initialCost = meanCost (imageErrors p.guess (fun i => (r i).cameraToTarget) p.observations)) := by
  have hex : ∀ i (hi : i < p.observations.length), ∃ r, imagePnp s3 p p.observations[i] = .ok r ∧ r.converged = true := by
    intro i hi
    obtain ⟨q, hq⟩ := C43_partial_returns s3 s p res h p.observations[i] (by simp)
    rw [intrSolvePnP_eq, Res.bind_ok_iff] at hq
    obtain ⟨r, hr, hq⟩ := hq
    refine ⟨r, hr, ?_⟩
    by_contra hc
    rw [if_neg hc] at hq
    cases hq
  choose r hr using hex
  obtain ⟨r0, -⟩ : ∃ r0 : PnPResult, True := ⟨⟨true, none, none, 1, ⟨[], [], [], ⟨0, 0, fun _ _ => 0⟩, ⟨0, 0, fun _ _ => 0⟩⟩⟩, trivial⟩
  refine ⟨fun i => if hi : i < p.observations.length then r i hi else r0, fun i hi => ?_, fun hrep => ?_⟩
  · simp only [hi, dif_pos]
    exact hr i hi
  · have h' := h
    unfold intrinsic at h'
    simp only [Res.bind_ok_iff] at h'
    obtain ⟨poses, hp, cov, -, h'⟩ := h'
    cases h'
    show costPerObs _ _ = _
    rw [costPerObs_eq_meanCost, intrBuild_start h hp _ (fun i hi => ?_) fun i hi => (hrep i hi).2]
    rw [intrInit_pose hp (List.getElem?_eq_getElem hi) (hr i hi).1 (hr i hi).2]
    have := (hrep i hi).1.roundtrip
    simp only [hi, dif_pos] at this ⊢
    exact this

theorem length_pixelErrors (g : Intr) (T : Iso) (cs : List Corr2) : (pixelErrors g T cs).length = 2 * cs.length := by
  simp [pixelErrors, diff2, List.length_flatMap, mul_comm]

theorem specSumSq_flatMap {α : Type} (l : List α) (f : α → List ℝ) : Spec.sumSq (l.flatMap f) = (l.map fun a => Spec.sumSq (f a)).sum := by
  induction l with
  | nil => simp [Spec.sumSq]
  | cons a l ih => simp only [List.flatMap_cons, List.map_cons, List.sum_cons, ← ih]; simp [Spec.sumSq]

/-- With the target clearly in front of the camera in all images: the initial cost is the mean of the final costs of PnP, each image
counted as often as it has features. If the solver does not increase the cost, the calibration never ends with more than that. -/
theorem C215_mean (s3 : Ceres V3) (s : Ceres Mem) (p : IntrinsicProblem) (res : IntrinsicResult)
    (h : intrinsic s3 s p = .ok res) (r : Nat → PnPResult)
    (hr : ∀ i (hi : i < p.observations.length),
      pnp2 s3 ⟨p.guess, p.observations[i], facingPose, "camera_to_target"⟩ = .ok (r i))
    (hrep : ∀ i, i < p.observations.length → Representable (r i).cameraToTarget ∧
      ClearlyInFront (r i).cameraToTarget (p.observations.getD i []))
    (f : Nat → ℝ) (hf : ∀ i, i < p.observations.length → (r i).finalCost = some (f i)) (e : ℝ) (he : res.initialCost = some e) :
    e * featureCount p.observations = ((List.range p.observations.length).map fun i =>
      f i * (p.observations.getD i []).length).sum ∧
    (s.WF → ∀ e', res.finalCost = some e' → e' * featureCount p.observations ≤ ((List.range p.observations.length).map fun i =>
      f i * (p.observations.getD i []).length).sum) := by
  obtain ⟨r', hr', hini⟩ := C215_initial s3 s p res h
  have hrr : ∀ i, i < p.observations.length → r' i = r i := fun i hi => by
    have := (hr' i hi).1
    rw [hr i hi] at this
    exact (Res.ok.inj this).symm
  have hz : ∀ i, i < p.observations.length → ∀ k ∈ p.observations.getD i [], ((r i).cameraToTarget.apply k.inTarget).z ≠ 0 :=
    fun i hi k hk => (lt_trans (by norm_num) ((hrep i hi).2 k hk)).ne'
  have h1 := hini fun i hi => by rw [hrr i hi]; exact ⟨(hrep i hi).1, hz i hi⟩
  rw [he] at h1
  have hlen : (imageErrors p.guess (fun i => (r' i).cameraToTarget) p.observations).length = 2 * featureCount p.observations := by
    simp only [imageErrors, List.length_flatMap, length_pixelErrors, featureCount]
    rw [List.sum_map_mul_left]
    congr 1
    congr 1
    apply List.ext_getElem
    · simp
    · intro i h1 h2
      simp at h1
      simp [h1]
  have hsum := meanCost_sumSq h1.symm
  rw [hlen] at hsum
  have hparts : Spec.sumSq (imageErrors p.guess (fun i => (r' i).cameraToTarget) p.observations) =
      4 * ((List.range p.observations.length).map fun i => f i * (p.observations.getD i []).length).sum := by
    unfold imageErrors
    rw [specSumSq_flatMap, ← List.sum_map_mul_left]
    congr 1
    apply List.map_congr_left
    intro i hi
    rw [List.mem_range] at hi
    have hg : p.observations.getD i [] = p.observations[i] := by simp [hi]
    have hfin := C124_final s3 _ _ (hr i hi) (by
      have := (hrep i hi).2
      rw [hg] at this
      exact this)
    rw [hf i hi] at hfin
    have := meanCost_sumSq hfin.symm
    rw [length_pixelErrors] at this
    simp only [hrr i hi, hg] at this ⊢
    rw [this]
    push_cast
    ring
  have key : e * featureCount p.observations = ((List.range p.observations.length).map fun i =>
      f i * (p.observations.getD i []).length).sum := by
    rw [hparts] at hsum
    push_cast at hsum
    linarith
  refine ⟨key, fun hs e' he' => ?_⟩
  rw [← key]
  have hle : e' ≤ e := by
    have h' := h
    unfold intrinsic at h'
    simp only [Res.bind_ok_iff] at h'
    obtain ⟨poses, hp, cov, -, h'⟩ := h'
    cases h'
    replace he : costPerObs _ _ = some e := he
    replace he' : costPerObs _ _ = some e' := he'
    rw [costPerObs_eq_meanCost] at he he'
    refine meanCost_le ?_ ?_ _ _ he' he
    · rw [intrBuild_eq, residuals_map, residuals_map]
      simp [List.length_flatMap, ResBlock.residual, evalMem2, intrinsicCost]
    · have := hs.descent (intrBuild p poses) (intrInit p poses)
      rw [cost_eq_sumSq, cost_eq_sumSq] at this
      linarith
  gcongr

/-- An image of three features. -/
noncomputable def startCorrs : List Corr2 := [⟨⟨1, 0⟩, ⟨0, 0, 0⟩⟩, ⟨⟨0, 0⟩, ⟨1, 0, 0⟩⟩, ⟨⟨0, 0⟩, ⟨0, 1, 0⟩⟩]

theorem startCorrs_front : ClearlyInFront facingPose startCorrs := by
  intro k hk
  simp only [startCorrs, List.mem_cons, List.not_mem_nil, or_false] at hk
  rcases hk with rfl | rfl | rfl <;> norm_num [facingPose, Iso.apply, M3.mulVec]

theorem startCorrs_errors : pixelErrors ⟨1, 1, 0, 0⟩ facingPose startCorrs ≠ [] ∧
    Spec.sumSq (pixelErrors ⟨1, 1, 0, 0⟩ facingPose startCorrs) = 9 := by
  constructor
  · simp [startCorrs, pixelErrors, diff2]
  · norm_num [Spec.sumSq, startCorrs, pixelErrors, diff2, pinhole, facingPose, Iso.apply, M3.mulVec]

/-- Two images of three features; the solver stays at its start, so that PnP ends at its own start. -/
example : ∃ (p : IntrinsicProblem) (res : IntrinsicResult) (r : Nat → PnPResult) (f : Nat → ℝ) (e : ℝ), p.observations.length = 2 ∧
    intrinsic (idCeres V3) (idCeres Mem) p = .ok res ∧
    (∀ i (hi : i < p.observations.length),
      pnp2 (idCeres V3) ⟨p.guess, p.observations[i], facingPose, "camera_to_target"⟩ = .ok (r i)) ∧
    (∀ i, i < p.observations.length → Representable (r i).cameraToTarget ∧
      ClearlyInFront (r i).cameraToTarget (p.observations.getD i [])) ∧
    (∀ i, i < p.observations.length → (r i).finalCost = some (f i)) ∧ res.initialCost = some e ∧ e ≠ 0 := by
  obtain ⟨cs, hcs⟩ : ∃ cs, cs = startCorrs := ⟨_, rfl⟩
  obtain ⟨p, hp⟩ : ∃ p : IntrinsicProblem, p = ⟨[cs, cs], ⟨1, 1, 0, 0⟩, "pose"⟩ := ⟨_, rfl⟩
  have hob : p.observations = [cs, cs] := by rw [hp]
  have hgu : p.guess = ⟨1, 1, 0, 0⟩ := by rw [hp]
  obtain ⟨res, h⟩ := intrinsic_returns [cs, cs] (by simp) (by simp [hcs, startCorrs]) ⟨1, 1, 0, 0⟩
  rw [← hp] at h
  obtain ⟨r, hr, hini⟩ := C215_initial _ _ p res h
  have hstay : ∀ pb st, (idCeres V3).solve pb st = st := fun _ _ => rfl
  have hpose : ∀ i, i < p.observations.length → (r i).cameraToTarget = facingPose := by
    intro i hi
    have := C34_pnp (idCeres V3) _ _ hstay ?_ (hr i hi).1
    · exact this
    · exact facingPose_rep.1
  have hobs : ∀ i, i < p.observations.length → p.observations.getD i [] = cs := by
    rw [hob]
    intro i hi
    match i, hi with
    | 0, _ => rfl
    | 1, _ => rfl
  have hfront : ∀ i, i < p.observations.length → ClearlyInFront (r i).cameraToTarget (p.observations.getD i []) := by
    intro i hi
    rw [hpose i hi, hobs i hi, hcs]
    exact startCorrs_front
  have h0 : (0 : ℝ) < 1 / 10 ^ 10 := by norm_num
  have h1 := hini fun i hi => ⟨by rw [hpose i hi]; exact facingPose_rep, fun k hk => (h0.trans (hfront i hi k hk)).ne'⟩
  have hf : ∀ i (hi : i < p.observations.length), ∃ f, (r i).finalCost = some f := by
    intro i hi
    have hg : p.observations.getD i [] = p.observations[i] := by simp [hi]
    have := C124_final _ _ _ (hr i hi).1 (by
      have := hfront i hi
      rw [hg] at this
      exact this)
    have hne : pixelErrors p.guess (r i).cameraToTarget p.observations[i] ≠ [] := by
      rw [← hg, hobs i hi, hpose i hi, hgu, hcs]; exact startCorrs_errors.1
    exact ⟨_, this.trans (if_neg hne)⟩
  choose f hf using hf
  have e1 : imageErrors p.guess (fun i => (r i).cameraToTarget) p.observations =
      pixelErrors ⟨1, 1, 0, 0⟩ facingPose startCorrs ++ pixelErrors ⟨1, 1, 0, 0⟩ facingPose startCorrs := by
    have e0 := hpose 0 (by simp [hob])
    have e1 := hpose 1 (by simp [hob])
    unfold imageErrors
    rw [hob, hgu]
    simp [List.range_succ, e0, e1, hcs]
  rw [e1] at h1
  have hval : meanCost (pixelErrors ⟨1, 1, 0, 0⟩ facingPose startCorrs ++ pixelErrors ⟨1, 1, 0, 0⟩ facingPose startCorrs) =
      some (3 / 4) := by
    unfold meanCost
    rw [if_neg (by simp [startCorrs_errors.1]), specSumSq_append, startCorrs_errors.2, List.length_append, length_pixelErrors]
    norm_num [startCorrs]
  rw [hval] at h1
  have hlen : p.observations.length = 2 := by rw [hob]; rfl
  obtain ⟨f', hf'⟩ : ∃ f' : Nat → ℝ, ∀ i, i < p.observations.length → (r i).finalCost = some (f' i) :=
    ⟨fun i => if hi : i < p.observations.length then f i hi else 0, fun i hi => by simp only [hi, dif_pos]; exact hf i hi⟩
  exact ⟨p, res, r, f', 3 / 4, hlen, h, fun i hi => (hr i hi).1,
    fun i hi => ⟨by rw [hpose i hi]; exact facingPose_rep, hfront i hi⟩, hf', h1, by norm_num⟩

end RCT
