import Verif.Lemmas.Noise
import Verif.Props.Identify

/-!
# C203, C204 Errors of calibrations from noisy 3D measurements

What the final cost says about the distance between the reported and the true transforms if the measured points deviate from
the true ones by at most a known distance.
-/

namespace RCT
open Spec

/-! ## C203 The pose of the target in the camera -/

/-- The printed final cost and the noise bound the error of the reported position of every point of the target. -/
theorem C203_pnp (s : Ceres V3) (p : PnPProblem Corr3) (res : PnPResult) (h : pnp3 s p = .ok res) (T : Iso) (noise F : ℝ)
    (hn : NoiseBelow noise p.correspondences (fun k => k.inImage) fun k => T.apply k.inTarget) (hF : res.finalCost = some F)
    (k : ℝ) (q : V3) (hq : Spanned k (p.correspondences.map fun k => k.inTarget) q) :
    (res.cameraToTarget.apply q - T.apply q).norm ≤ k * featureBound noise p.correspondences.length F := by
  rw [C124_final_3d s p res h] at hF
  have hle := fun {a : Corr3} (ha : a ∈ p.correspondences) => feature_le hF hn ha
  have hne : p.correspondences ≠ [] := by rintro h0; rw [h0] at hF; simp [pointErrors, meanCost] at hF
  obtain ⟨a, ha⟩ := List.exists_mem_of_ne_nil _ hne
  refine spanned_le ((V3.norm_nonneg _).trans (hle ha)) (fun x hx => ?_) hq
  obtain ⟨c, hc, rfl⟩ := List.mem_map.1 hx
  exact hle hc

/-- They also bound the error of the orientation, if three features form a triangle. -/
theorem C203_pnp_turn (s : Ceres V3) (p : PnPProblem Corr3) (res : PnPResult) (h : pnp3 s p = .ok res) (T : Iso)
    (hT : RigidMotion T) (noise F : ℝ)
    (hn : NoiseBelow noise p.correspondences (fun k => k.inImage) fun k => T.apply k.inTarget) (hF : res.finalCost = some F)
    (size area : ℝ) (hA : 0 < area) (a b c : Corr3) (ha : a ∈ p.correspondences) (hb : b ∈ p.correspondences)
    (hc : c ∈ p.correspondences) (hw : WideTriangle size area a.inTarget b.inTarget c.inTarget) (v : V3) :
    (res.cameraToTarget.R.mulVec v - T.R.mulVec v).norm ≤
      8 * featureBound noise p.correspondences.length F * size / area * v.norm := by
  rw [C124_final_3d s p res h] at hF
  exact turn_of_triangle ((rigid_iff _).2 (C35_rigid_3d s p res h)) ((rigid_iff _).2 hT) hw (feature_le hF hn ha)
    (feature_le hF hn hb) (feature_le hF hn hc) hA v

/-- The best possible cost: a result that fits the data at least as well as the truth does. -/
theorem featureBound_best {α : Type} {l : List α} {g m t : α → V3} {noise F : ℝ} (h0 : 0 ≤ noise)
    (hF : meanCost (l.flatMap fun a => diff3 (g a) (m a)) = some F) (hn : NoiseBelow noise l m t)
    (hb : Spec.sumSq (l.flatMap fun a => diff3 (g a) (m a)) ≤ Spec.sumSq (l.flatMap fun a => diff3 (t a) (m a))) :
    featureBound noise l.length F ≤ (1 + Real.sqrt l.length) * noise := by
  have h1 := meanCost_sumSq hF
  rw [diff3_length] at h1
  have h2 := sumSq_flatMap_le l (fun a => diff3 (t a) (m a)) (noise * noise) (by
    intro a ha
    rw [sumSq_diff3, ← V3.norm_sq, V3.norm_sub_comm]
    exact mul_self_le_mul_self (V3.norm_nonneg _) (hn a ha))
  unfold featureBound
  have h3 : Real.sqrt (6 * l.length * F) ≤ Real.sqrt (l.length * (noise * noise)) := by
    apply Real.sqrt_le_sqrt
    push_cast at h1
    linarith
  rw [Real.sqrt_mul (Nat.cast_nonneg l.length), Real.sqrt_mul_self h0] at h3
  linarith

/-- If the result fits the measurements at least as well as the true pose does, its error is bounded by the noise alone. -/
theorem C203_pnp_best (s : Ceres V3) (p : PnPProblem Corr3) (res : PnPResult) (h : pnp3 s p = .ok res) (T : Iso) (noise : ℝ)
    (hn : NoiseBelow noise p.correspondences (fun k => k.inImage) fun k => T.apply k.inTarget)
    (hb : Spec.sumSq (pointErrors res.cameraToTarget p.correspondences) ≤ Spec.sumSq (pointErrors T p.correspondences))
    (k : ℝ) (q : V3) (hk : 0 ≤ k) (hne : p.correspondences ≠ [])
    (hq : Spanned k (p.correspondences.map fun k => k.inTarget) q) :
    (res.cameraToTarget.apply q - T.apply q).norm ≤ k * ((1 + Real.sqrt p.correspondences.length) * noise) := by
  obtain ⟨F, hF⟩ : ∃ F, res.finalCost = some F := by
    rw [C124_final_3d s p res h, meanCost, if_neg]
    · exact ⟨_, rfl⟩
    · cases hp : p.correspondences with
      | nil => exact absurd hp hne
      | cons c l => simp [pointErrors, diff3]
  refine (C203_pnp s p res h T noise F hn hF k q hq).trans (mul_le_mul_of_nonneg_left ?_ hk)
  obtain ⟨a, ha⟩ := List.exists_mem_of_ne_nil _ hne
  rw [C124_final_3d s p res h] at hF
  exact featureBound_best ((V3.norm_nonneg _).trans (hn a ha)) hF hn hb

/-- A solver that does not increase the cost, started at the truth, stays within this bound. -/
theorem C203_pnp_from_truth (s : Ceres V3) (hs : s.WF) (p : PnPProblem Corr3) (res : PnPResult) (h : pnp3 s p = .ok res)
    (hg : RigidMotion p.guess) (noise : ℝ)
    (hn : NoiseBelow noise p.correspondences (fun k => k.inImage) fun k => p.guess.apply k.inTarget)
    (k : ℝ) (q : V3) (hk : 0 ≤ k) (hne : p.correspondences ≠ [])
    (hq : Spanned k (p.correspondences.map fun k => k.inTarget) q) :
    (res.cameraToTarget.apply q - p.guess.apply q).norm ≤ k * ((1 + Real.sqrt p.correspondences.length) * noise) :=
  C203_pnp_best s p res h p.guess noise hn (C127_pnp_3d s hs p res h hg) k q hk hne hq

theorem inCamera3_eq (X Y : Iso) (o : Obs Corr3) (k : Corr3) : inCamera3 X Y (o, k) = (poseInCamera X Y o).apply k.inTarget := by
  simp [inCamera3, Spec.targetInCamera, poseInCamera, Iso.apply_mul]

/-- The same for hand-eye calibration and the pose of the target in the camera in every observation. -/
theorem C203_hand_eye (s : Ceres Pose6) (p : HandEyeProblem Corr3) (res : HandEyeResult) (h : handEye3 s p = .ok res)
    (hm : MountsRepresentable p.observations) (hr : RigidMotion res.cameraMountToCamera) (X Y : Iso) (noise F : ℝ)
    (hn : NoiseBelow noise (features p.observations) (fun f => f.2.inImage) (inCamera3 X Y)) (hF : res.finalCost = some F)
    (o : Obs Corr3) (ho : o ∈ p.observations) (k : ℝ) (q : V3) (hq : Spanned k (o.corrs.map fun k => k.inTarget) q) :
    ((poseInCamera res.cameraMountToCamera res.targetMountToTarget o).apply q - (poseInCamera X Y o).apply q).norm ≤
      k * featureBound noise (features p.observations).length F := by
  rw [heFinal3 s p res h hm hr] at hF
  have hle := fun {f : Obs Corr3 × Corr3} (hf : f ∈ features p.observations) => feature_le hF hn hf
  have hne : features p.observations ≠ [] := by rintro h0; rw [reprojErrors3, h0] at hF; simp [meanCost] at hF
  obtain ⟨a, ha⟩ := List.exists_mem_of_ne_nil _ hne
  refine spanned_le ((V3.norm_nonneg _).trans (hle ha)) (fun x hx => ?_) hq
  obtain ⟨c, hc, rfl⟩ := List.mem_map.1 hx
  have := hle (feature_mem ho hc)
  rwa [inCamera3_eq, inCamera3_eq] at this

theorem C203_hand_eye_turn (s : Ceres Pose6) (p : HandEyeProblem Corr3) (res : HandEyeResult) (h : handEye3 s p = .ok res)
    (hm : MountsRepresentable p.observations) (hr : RigidMotion res.cameraMountToCamera)
    (hr' : RigidMotion res.targetMountToTarget) (X Y : Iso) (hX : RigidMotion X) (hY : RigidMotion Y) (noise F : ℝ)
    (hn : NoiseBelow noise (features p.observations) (fun f => f.2.inImage) (inCamera3 X Y)) (hF : res.finalCost = some F)
    (o : Obs Corr3) (ho : o ∈ p.observations) (size area : ℝ) (hA : 0 < area) (hw : SeesWide size area o) (v : V3) :
    ((poseInCamera res.cameraMountToCamera res.targetMountToTarget o).R.mulVec v - (poseInCamera X Y o).R.mulVec v).norm ≤
      8 * featureBound noise (features p.observations).length F * size / area * v.norm := by
  rw [heFinal3 s p res h hm hr] at hF
  obtain ⟨a, ha, b, hb, c, hc, hw⟩ := hw
  have rig : ∀ {A B : Iso}, RigidMotion A → RigidMotion B → (poseInCamera A B o).IsRigid := fun hA hB =>
    ((rigid_iff _).2 hA).inv.mul ((hm o ho).1.rigid.inv.mul ((hm o ho).2.rigid.mul ((rigid_iff _).2 hB)))
  have hle := fun {c : Corr3} (hc : c ∈ o.corrs) => feature_le hF hn (feature_mem ho hc)
  simp only [inCamera3_eq] at hle
  exact turn_of_triangle (rig hr hr') (rig hX hY) hw (hle ha) (hle hb) (hle hc) hA v

/-- If the result fits the measurements at least as well as the true calibration does (as it does after a descent from there),
the bound for the features is a multiple of the noise alone. -/
theorem C203_hand_eye_best (s : Ceres Pose6) (p : HandEyeProblem Corr3) (res : HandEyeResult) (h : handEye3 s p = .ok res)
    (hm : MountsRepresentable p.observations) (hr : RigidMotion res.cameraMountToCamera) (X Y : Iso) (noise F : ℝ)
    (hn : NoiseBelow noise (features p.observations) (fun f => f.2.inImage) (inCamera3 X Y)) (hF : res.finalCost = some F)
    (hb : Spec.sumSq (reprojErrors3 res.cameraMountToCamera res.targetMountToTarget p.observations) ≤
      Spec.sumSq (reprojErrors3 X Y p.observations)) :
    featureBound noise (features p.observations).length F ≤ (1 + Real.sqrt (features p.observations).length) * noise := by
  rw [heFinal3 s p res h hm hr] at hF
  have hne : features p.observations ≠ [] := by rintro h0; rw [reprojErrors3, h0] at hF; simp [meanCost] at hF
  obtain ⟨a, ha⟩ := List.exists_mem_of_ne_nil _ hne
  exact featureBound_best ((V3.norm_nonneg _).trans (hn a ha)) hF hn hb

/-! ### Cases -/

/-- The four corners of the unit square, each measured a hundredth too far to the right. -/
noncomputable def shakenSquare (T : Iso) : List Corr3 :=
  squarePoints.map fun q => ⟨T.apply q + ⟨1 / 100, 0, 0⟩, q⟩

theorem shakenSquare_noise (T : Iso) : NoiseBelow (1 / 100) (shakenSquare T) (fun k => k.inImage) fun k => T.apply k.inTarget := by
  intro a ha
  obtain ⟨q, -, rfl⟩ := List.mem_map.1 ha
  have e : T.apply q + ⟨1 / 100, 0, 0⟩ - T.apply q = ⟨1 / 100, 0, 0⟩ := by ext <;> simp
  simp only [e]
  apply V3.norm_le_of_normSq (by norm_num)
  norm_num [V3.normSq, V3.dot]

/-- The centre of the square is spanned by its corners. -/
theorem square_centre (T : Iso) : Spanned 1 ((shakenSquare T).map fun k => k.inTarget) ⟨1 / 2, 1 / 2, 0⟩ :=
  ⟨[(1 / 2, ⟨0, 0, 0⟩), (1 / 2, ⟨1, 1, 0⟩)], by simp [shakenSquare, squarePoints], by norm_num, by norm_num, by norm_num⟩

theorem square_wide : WideTriangle 2 1 ⟨0, 0, 0⟩ ⟨1, 0, 0⟩ ⟨1, 1, 0⟩ :=
  ⟨V3.norm_le_of_normSq (by norm_num) (by norm_num [V3.normSq, V3.dot]),
    V3.norm_le_of_normSq (by norm_num) (by norm_num [V3.normSq, V3.dot]), by
      norm_num [V3.cross, V3.norm, V3.normSq, V3.dot]⟩

/-- A run of PnP on the shaken square, from the true pose. -/
example : ∃ (p : PnPProblem Corr3) (res : PnPResult) (F : ℝ), pnp3 (idCeres V3) p = .ok res ∧ (idCeres V3).WF ∧
    RigidMotion p.guess ∧ p.correspondences ≠ [] ∧ res.finalCost = some F ∧ 0 < F ∧
    NoiseBelow (1 / 100) p.correspondences (fun k => k.inImage) (fun k => p.guess.apply k.inTarget) ∧
    Spanned 1 (p.correspondences.map fun k => k.inTarget) ⟨1 / 2, 1 / 2, 0⟩ ∧
    (∃ a ∈ p.correspondences, ∃ b ∈ p.correspondences, ∃ c ∈ p.correspondences,
      WideTriangle 2 1 a.inTarget b.inTarget c.inTarget) ∧
    Spec.sumSq (pointErrors res.cameraToTarget p.correspondences) ≤ Spec.sumSq (pointErrors p.guess p.correspondences) := by
  obtain ⟨p, hp⟩ : ∃ p : PnPProblem Corr3, p = ⟨⟨1, 1, 0, 0⟩, shakenSquare 1, 1, "camera_to_target"⟩ := ⟨_, rfl⟩
  have hg : RigidMotion p.guess := by rw [hp]; exact Representable.one.1
  have hpc : p.correspondences = shakenSquare 1 := by rw [hp]
  have hpg : p.guess = 1 := by rw [hp]
  obtain ⟨res, h⟩ : ∃ res, pnp3 (idCeres V3) p = .ok res := by
    rw [hp]
    exact pnpFinish_returns _ _ (shakenSquare 1) (by simp [shakenSquare, squarePoints]) _ (fun _ _ => rfl) rfl rfl
  have hb := C127_pnp_3d (idCeres V3) (idCeres_wf _) p res h hg
  have hT : res.cameraToTarget = 1 := by
    rw [C34_pnp_3d (idCeres V3) p res (fun _ _ => rfl) hg h, hpg]
  refine ⟨p, res, (1 / 100) ^ 2 / 6, h, idCeres_wf _, hg, by rw [hpc]; simp [shakenSquare, squarePoints], ?_, by norm_num, ?_, ?_, ?_, hb⟩
  · rw [C124_final_3d _ p res h, hT, hpc]
    norm_num [meanCost, pointErrors, shakenSquare, squarePoints, diff3, Spec.sumSq]
    exact fun h => nomatch h
  · rw [hpc, hpg]; exact shakenSquare_noise 1
  · rw [hpc]; exact square_centre 1
  · rw [hpc]
    exact ⟨_, List.mem_map.2 ⟨⟨0, 0, 0⟩, by simp [squarePoints], rfl⟩, _, List.mem_map.2 ⟨⟨1, 0, 0⟩, by simp [squarePoints], rfl⟩,
      _, List.mem_map.2 ⟨⟨1, 1, 0⟩, by simp [squarePoints], rfl⟩, square_wide⟩

/-! ## C204 The calibration itself -/

theorem poseInCamera_mount {κ : Type} (X Y : Iso) (o : Obs κ) : poseInCamera X Y o = X.inv * (mountPose o * Y) := by
  simp [poseInCamera, mountPose, Iso.mul_assoc]

/-- How much the rotations are off. -/
theorem C204_turn (s : Ceres Pose6) (p : HandEyeProblem Corr3) (res : HandEyeResult) (h : handEye3 s p = .ok res)
    (hm : MountsRepresentable p.observations) (hr : RigidMotion res.cameraMountToCamera)
    (hr' : RigidMotion res.targetMountToTarget) (X Y : Iso) (hX : RigidMotion X) (hY : RigidMotion Y) (noise F : ℝ)
    (hn : NoiseBelow noise (features p.observations) (fun f => f.2.inImage) (inCamera3 X Y)) (hF : res.finalCost = some F)
    (a b o : Obs Corr3) (size area : ℝ) (hA : 0 < area)
    (hobs : ∀ i ∈ [a, b, o], i ∈ p.observations ∧ SeesWide size area i) (v : V3) :
    (X.R.mulVec v - res.cameraMountToCamera.R.mulVec v).norm * (axesProduct a b o).norm ≤
      512 * featureBound noise (features p.observations).length F * size / area * v.norm := by
  have rX := (rigid_iff _).2 hX
  have rX' := (rigid_iff _).2 hr
  have rY' := (rigid_iff _).2 hr'
  have hC : ∀ i ∈ [a, b, o], (mountPose i).IsRigid := fun i hi =>
    (hm i (hobs i hi).1).1.rigid.inv.mul (hm i (hobs i hi).1).2.rigid
  have k := handEye_near rX rX' rY' (hC a (by simp)) (hC b (by simp)) (hC o (by simp)) (Y := Y)
    (r := 8 * featureBound noise (features p.observations).length F * size / area) (by
      intro C hC v
      have : ∃ i ∈ [a, b, o], C = mountPose i := by
        simp only [List.mem_cons, List.not_mem_nil, or_false] at hC
        rcases hC with rfl | rfl | rfl
        · exact ⟨a, by simp, rfl⟩
        · exact ⟨b, by simp, rfl⟩
        · exact ⟨o, by simp, rfl⟩
      obtain ⟨i, hi, rfl⟩ := this
      rw [← poseInCamera_mount, ← poseInCamera_mount]
      exact C203_hand_eye_turn s p res h hm hr hr' X Y hX hY noise F hn hF i (hobs i hi).1 size area hA (hobs i hi).2 v)
    (res.cameraMountToCamera.R.mulVec v)
  rw [M3.IsRot.norm rX', ← M3.mulVec_mul] at k
  have e1 : (X * res.cameraMountToCamera.inv).R * res.cameraMountToCamera.R = X.R := by
    have := congrArg Iso.R (Iso.mul_assoc X res.cameraMountToCamera.inv res.cameraMountToCamera)
    rw [Iso.inv_mul rX', Iso.mul_one] at this
    exact this
  rw [e1] at k
  unfold axesProduct mountMotion
  unfold mountPose at k
  refine k.trans (le_of_eq ?_)
  ring

/-- The reported pose of the target is off by hardly more. -/
theorem C204_target_turn (s : Ceres Pose6) (p : HandEyeProblem Corr3) (res : HandEyeResult) (h : handEye3 s p = .ok res)
    (hm : MountsRepresentable p.observations) (hr : RigidMotion res.cameraMountToCamera)
    (hr' : RigidMotion res.targetMountToTarget) (X Y : Iso) (hX : RigidMotion X) (hY : RigidMotion Y) (noise F : ℝ)
    (hn : NoiseBelow noise (features p.observations) (fun f => f.2.inImage) (inCamera3 X Y)) (hF : res.finalCost = some F)
    (a b o : Obs Corr3) (size area : ℝ) (hA : 0 < area)
    (hobs : ∀ i ∈ [a, b, o], i ∈ p.observations ∧ SeesWide size area i) (v : V3) :
    (Y.R.mulVec v - res.targetMountToTarget.R.mulVec v).norm * (axesProduct a b o).norm ≤
      8 * featureBound noise (features p.observations).length F * size / area * (64 + (axesProduct a b o).norm) * v.norm := by
  have rX := (rigid_iff _).2 hX
  have hCo := (hm o (hobs o (by simp)).1).1.rigid.inv.mul (hm o (hobs o (by simp)).1).2.rigid
  have h1 := C203_hand_eye_turn s p res h hm hr hr' X Y hX hY noise F hn hF o (hobs o (by simp)).1 size area hA
    (hobs o (by simp)).2 v
  obtain ⟨w, hw⟩ : ∃ w, w = (poseInCamera res.cameraMountToCamera res.targetMountToTarget o).R.mulVec v := ⟨_, rfl⟩
  have h2 := C204_turn s p res h hm hr hr' X Y hX hY noise F hn hF a b o size area hA hobs w
  have rX' := (rigid_iff _).2 hr
  have hwn : w.norm = v.norm := by
    rw [hw]
    exact M3.IsRot.norm (rX'.inv.mul ((hm o (hobs o (by simp)).1).1.rigid.inv.mul ((hm o (hobs o (by simp)).1).2.rigid.mul
      ((rigid_iff _).2 hr')))) v
  rw [hwn] at h2
  have e1 : (mountPose o).R.mulVec (Y.R.mulVec v) = X.R.mulVec ((poseInCamera X Y o).R.mulVec v) := by
    rw [← M3.mulVec_mul, ← M3.mulVec_mul, poseInCamera_mount]
    have := congrArg Iso.R (Iso.mul_inv_cancel_left rX (mountPose o * Y))
    simp only [Iso.mul_R] at this ⊢
    rw [this]
  have e2 : (mountPose o).R.mulVec (res.targetMountToTarget.R.mulVec v) = res.cameraMountToCamera.R.mulVec w := by
    rw [hw, ← M3.mulVec_mul, ← M3.mulVec_mul, poseInCamera_mount]
    have := congrArg Iso.R (Iso.mul_inv_cancel_left rX' (mountPose o * res.targetMountToTarget))
    simp only [Iso.mul_R] at this ⊢
    rw [this]
  have h3 : (Y.R.mulVec v - res.targetMountToTarget.R.mulVec v).norm =
      (X.R.mulVec ((poseInCamera X Y o).R.mulVec v) - res.cameraMountToCamera.R.mulVec w).norm := by
    rw [← e1, ← e2, ← M3.mulVec_sub]; exact (M3.IsRot.norm hCo _).symm
  have h4 := V3.norm_sub_le (X.R.mulVec ((poseInCamera X Y o).R.mulVec v)) (X.R.mulVec w) (res.cameraMountToCamera.R.mulVec w)
  have h5 : (X.R.mulVec ((poseInCamera X Y o).R.mulVec v) - X.R.mulVec w).norm ≤
      8 * featureBound noise (features p.observations).length F * size / area * v.norm := by
    rw [← M3.mulVec_sub, M3.IsRot.norm rX, V3.norm_sub_comm, hw]; exact h1
  rw [h3]
  have h6 := mul_le_mul_of_nonneg_right (h4.trans (add_le_add_left h5 _)) (V3.norm_nonneg (axesProduct a b o))
  refine h6.trans ?_
  rw [add_mul]
  refine (add_le_add_right h2 _).trans (le_of_eq ?_)
  ring

/-- How much the positions of the camera on its mount and of a point `q` of the target on its mount are off. The point is
spanned by the features of each of the three observations; `travel` is how far it moves relative to the camera mount between
them, and `reach` its distance from the camera. -/
theorem C204_position (s : Ceres Pose6) (p : HandEyeProblem Corr3) (res : HandEyeResult) (h : handEye3 s p = .ok res)
    (hm : MountsRepresentable p.observations) (hr : RigidMotion res.cameraMountToCamera)
    (hr' : RigidMotion res.targetMountToTarget) (X Y : Iso) (hX : RigidMotion X) (hY : RigidMotion Y) (noise F : ℝ)
    (hn : NoiseBelow noise (features p.observations) (fun f => f.2.inImage) (inCamera3 X Y)) (hF : res.finalCost = some F)
    (a b o : Obs Corr3) (size area : ℝ) (hA : 0 < area)
    (hobs : ∀ i ∈ [a, b, o], i ∈ p.observations ∧ SeesWide size area i) (k : ℝ) (q : V3)
    (hq : ∀ i ∈ [a, b, o], Spanned k (i.corrs.map fun k => k.inTarget) q) (hs : 0 < (axesProduct a b o).norm) (travel turn bound : ℝ)
    (ht : ∀ i ∈ [a, b], ((mountPose i * res.targetMountToTarget).apply q - (mountPose o * res.targetMountToTarget).apply q).norm ≤
      travel)
    (hturn : turn = 512 * featureBound noise (features p.observations).length F * size / area / (axesProduct a b o).norm)
    (hbound : bound = 12 * (2 * (k * featureBound noise (features p.observations).length F) + turn * travel) /
      (axesProduct a b o).norm) :
    (X.t - res.cameraMountToCamera.t).norm ≤
        bound + turn * ((poseInCamera res.cameraMountToCamera res.targetMountToTarget o).apply q).norm ∧
      (Y.apply q - res.targetMountToTarget.apply q).norm ≤
        bound + k * featureBound noise (features p.observations).length F := by
  have rX := (rigid_iff _).2 hX
  have rX' := (rigid_iff _).2 hr
  have rY' := (rigid_iff _).2 hr'
  have hC : ∀ i ∈ [a, b, o], (mountPose i).IsRigid := fun i hi =>
    (hm i (hobs i hi).1).1.rigid.inv.mul (hm i (hobs i hi).1).2.rigid
  obtain ⟨X', hX'⟩ : ∃ X', X' = res.cameraMountToCamera := ⟨_, rfl⟩
  obtain ⟨Y', hY'⟩ : ∃ Y', Y' = res.targetMountToTarget := ⟨_, rfl⟩
  obtain ⟨d, hd⟩ : ∃ d, d = k * featureBound noise (features p.observations).length F := ⟨_, rfl⟩
  have hpt : ∀ i ∈ [a, b, o], ((X'.inv * (mountPose i * Y')).apply q - (X.inv * (mountPose i * Y)).apply q).norm ≤ d := by
    intro i hi
    rw [hX', hY', hd, ← poseInCamera_mount, ← poseInCamera_mount]
    exact C203_hand_eye s p res h hm hr X Y noise F hn hF i (hobs i hi).1 k q (hq i hi)
  have htn : ∀ v, ((X * X'.inv).R.mulVec v - v).norm ≤ turn * v.norm := by
    intro v
    have := C204_turn s p res h hm hr hr' X Y hX hY noise F hn hF a b o size area hA hobs (X'.R.tr.mulVec v)
    rw [← hX'] at this rX'
    rw [(M3.IsRot.tr rX').norm, ← M3.mulVec_mul X'.R, M3.IsRot.mul_tr rX', M3.one_mulVec, ← M3.mulVec_mul] at this
    have e1 : X.R * X'.R.tr = (X * X'.inv).R := by simp [Iso.inv]
    rw [e1] at this
    rw [hturn, div_mul_eq_mul_div, le_div_iff₀ hs]
    exact this
  have hturn0 : 0 ≤ turn := by
    have := (V3.norm_nonneg _).trans (htn ⟨1, 0, 0⟩)
    have e : (⟨1, 0, 0⟩ : V3).norm = 1 := by simp [V3.norm, V3.normSq, V3.dot]
    rwa [e, mul_one] at this
  rw [← hX'] at rX'
  rw [← hY'] at rY'
  have hfr := fun i (hi : i ∈ [a, b, o]) => frames_near rX rY' (hpt i hi)
  obtain ⟨z, hz⟩ : ∃ z, z = (mountPose o).apply (Y'.apply q) := ⟨_, rfl⟩
  have hmot : ∀ i ∈ [a, b, o], (mountPose i * (mountPose o).inv).apply z = (mountPose i).apply (Y'.apply q) := by
    intro i hi
    rw [hz, ← Iso.apply_mul, Iso.mul_assoc, Iso.inv_mul (hC o (by simp)), Iso.mul_one]
  have hcm : ∀ i ∈ [a, b], ((X * X'.inv).apply ((mountPose i * (mountPose o).inv).apply z) -
      (mountPose i * (mountPose o).inv).apply ((X * X'.inv).apply z)).norm ≤ 2 * d := by
    intro i hi
    have hi' : i ∈ [a, b, o] := by
      simp only [List.mem_cons, List.not_mem_nil, or_false] at hi ⊢; tauto
    rw [hz]
    exact near_comm (hC i hi') (hC o (by simp)) (hfr i hi') (hfr o (by simp))
  have hl : ∀ i ∈ [a, b], ((mountPose i * (mountPose o).inv).apply z - z).norm ≤ travel := by
    intro i hi
    have hi' : i ∈ [a, b, o] := by
      simp only [List.mem_cons, List.not_mem_nil, or_false] at hi ⊢; tauto
    rw [hmot i hi', hz, hY', ← Iso.apply_mul, ← Iso.apply_mul]
    exact ht i hi
  have key := shift_near ((hC a (by simp)).mul (hC o (by simp)).inv) ((hC b (by simp)).mul (hC o (by simp)).inv) htn
    (hcm a (by simp)) (hcm b (by simp)) hturn0 (hl a (by simp)) (hl b (by simp))
  have key' : ((X * X'.inv).apply z - z).norm ≤ bound := by
    rw [hbound, ← hd, le_div_iff₀ hs]
    have : axesProduct a b o = (turnVector (mountPose a * (mountPose o).inv).R).cross (turnVector (mountPose b * (mountPose o).inv).R) := rfl
    rw [this]
    exact key
  rw [← hX', ← hY', ← hd]
  constructor
  · have e1 : X.t - X'.t = ((X * X'.inv).apply z - z) + ((X * X'.inv).R.mulVec (X'.t - z) - (X'.t - z)) := by
      have e2 : X.t = (X * X'.inv).apply X'.t := by
        have := congrArg Iso.t (Iso.mul_assoc X X'.inv X')
        rw [Iso.inv_mul rX', Iso.mul_one, Iso.mul_t] at this
        exact this.symm
      rw [e2]
      ext <;> simp [Iso.apply, M3.mulVec] <;> ring
    rw [e1]
    have h1 := V3.norm_add_le ((X * X'.inv).apply z - z) ((X * X'.inv).R.mulVec (X'.t - z) - (X'.t - z))
    have h2 := htn (X'.t - z)
    have e3 : (X'.t - z).norm = ((poseInCamera X' Y' o).apply q).norm := by
      rw [poseInCamera_mount, Iso.apply_mul, Iso.apply_mul, ← hz, V3.norm_sub_comm]
      have : X'.inv.apply z = X'.inv.R.mulVec (z - X'.t) := by
        simp only [Iso.inv, Iso.apply, M3.mulVec_sub]; ext <;> simp <;> ring
      rw [this]
      exact ((M3.IsRot.tr rX').norm _).symm
    rw [e3] at h2
    linarith
  · have h1 := hfr o (by simp)
    have e1 : (Y * Y'.inv).apply (Y'.apply q) = Y.apply q := by
      rw [← Iso.apply_mul, Iso.mul_assoc, Iso.inv_mul rY', Iso.mul_one]
    rw [e1, ← hz, V3.norm_sub_comm] at h1
    have h2 := V3.norm_sub_le ((mountPose o).apply (Y.apply q)) ((X * X'.inv).apply z) z
    rw [hz] at h2 key' h1
    rw [(hC o (by simp)).dist] at h2
    linarith

/-- A hand-eye calibration from three observations of the shaken square, with turns of the robot about two axes. -/
example : ∃ (p : HandEyeProblem Corr3) (res : HandEyeResult) (X Y : Iso) (a b o : Obs Corr3) (F travel : ℝ),
    handEye3 (idCeres Pose6) p = .ok res ∧ MountsRepresentable p.observations ∧ RigidMotion res.cameraMountToCamera ∧
    RigidMotion res.targetMountToTarget ∧ RigidMotion X ∧ RigidMotion Y ∧
    NoiseBelow (1 / 100) (features p.observations) (fun f => f.2.inImage) (inCamera3 X Y) ∧ res.finalCost = some F ∧ 0 < F ∧
    (∀ i ∈ [a, b, o], i ∈ p.observations ∧ SeesWide 2 1 i) ∧
    (∀ i ∈ [a, b, o], Spanned 1 (i.corrs.map fun k => k.inTarget) ⟨1 / 2, 1 / 2, 0⟩) ∧ 0 < (axesProduct a b o).norm ∧
    (∀ i ∈ [a, b], ((mountPose i * res.targetMountToTarget).apply ⟨1 / 2, 1 / 2, 0⟩ -
      (mountPose o * res.targetMountToTarget).apply ⟨1 / 2, 1 / 2, 0⟩).norm ≤ travel) ∧
    Spec.sumSq (reprojErrors3 res.cameraMountToCamera res.targetMountToTarget p.observations) ≤
      Spec.sumSq (reprojErrors3 X Y p.observations) := by
  obtain ⟨ob, hob⟩ : ∃ ob : Iso → Obs Corr3, ob = fun A => ⟨shakenSquare A.inv, A, 1⟩ := ⟨_, rfl⟩
  obtain ⟨p, hp⟩ : ∃ p : HandEyeProblem Corr3, p = ⟨[ob 1, ob quarterX, ob quarterZ], ⟨1, 1, 0, 0⟩, 1, 1, "c", "t",
    labelsIsometry3d⟩ := ⟨_, rfl⟩
  have hpo : p.observations = [ob 1, ob quarterX, ob quarterZ] := by rw [hp]
  obtain ⟨res, h⟩ : ∃ res, handEye3 (idCeres Pose6) p = .ok res := by
    unfold handEye3
    rw [heBuild3_eq]
    refine heFinish_id_returns p (by rw [hp]; rfl) _ ?_ _ (fun _ _ => rfl)
    rw [hpo, hob]; simp [features, shakenSquare, squarePoints]
  obtain ⟨h1, h2⟩ := C34_hand_eye_3d (idCeres Pose6) p res (fun _ _ => rfl) (by rw [hp]; exact .one) (by rw [hp]; exact .one) h
  have h1' : res.cameraMountToCamera = 1 := by rw [h1, hp]
  have h2' : res.targetMountToTarget = 1 := by rw [h2, hp]
  have hmem : ∀ o ∈ p.observations, ∃ A, Representable A ∧ o = ob A := by
    rw [hpo]; intro o ho
    simp only [List.mem_cons, List.not_mem_nil, or_false] at ho
    rcases ho with rfl | rfl | rfl
    · exact ⟨_, .one, rfl⟩
    · exact ⟨_, quarterX_rep, rfl⟩
    · exact ⟨_, quarterZ_rep, rfl⟩
  have hm : MountsRepresentable p.observations := by
    intro o ho
    obtain ⟨A, hA, rfl⟩ := hmem o ho
    rw [hob]; exact ⟨hA, .one⟩
  have hr : RigidMotion res.cameraMountToCamera := by rw [h1']; exact Representable.one.1
  have hr' : RigidMotion res.targetMountToTarget := by rw [h2']; exact Representable.one.1
  have hin : ∀ A k, inCamera3 1 1 (ob A, k) = A.inv.apply k.inTarget := by
    intro A k
    rw [inCamera3_eq, hob]
    simp [poseInCamera, Iso.inv_one]
  have hF : ∃ F, res.finalCost = some F ∧ 0 < F := by
    rw [heFinal3 _ p res h hm hr, h1', h2']
    have hone : ∀ f ∈ features p.observations, diff3 (inCamera3 1 1 f) f.2.inImage = [-(1 / 100), 0, 0] := by
      intro f hf
      obtain ⟨o, ho, hf⟩ := List.mem_flatMap.1 hf
      obtain ⟨k, hk, rfl⟩ := List.mem_map.1 hf
      obtain ⟨A, -, rfl⟩ := hmem o ho
      rw [hin]
      rw [hob] at hk
      obtain ⟨q, -, rfl⟩ := List.mem_map.1 hk
      simp [diff3]
    have e : reprojErrors3 1 1 p.observations = (features p.observations).flatMap fun _ => [-(1 / 100), 0, 0] := by
      unfold reprojErrors3
      exact flatMap_congr' hone
    rw [e, hpo, hob]
    refine ⟨(1 / 100) ^ 2 / 6, ?_, by norm_num⟩
    norm_num [meanCost, features, shakenSquare, squarePoints, Spec.sumSq]
    exact fun h => nomatch h
  obtain ⟨F, hF, hF0⟩ := hF
  obtain ⟨m, hm1⟩ : ∃ m : Iso → ℝ, m = fun A => ((mountPose (ob A) * res.targetMountToTarget).apply ⟨1 / 2, 1 / 2, 0⟩ -
      (mountPose (ob 1) * res.targetMountToTarget).apply ⟨1 / 2, 1 / 2, 0⟩).norm := ⟨_, rfl⟩
  refine ⟨p, res, 1, 1, ob quarterX, ob quarterZ, ob 1, F, max (m quarterX) (m quarterZ), h, hm, hr, hr',
    Representable.one.1, Representable.one.1, ?_, hF, hF0, ?_, ?_, ?_, ?_, ?_⟩
  · intro f hf
    obtain ⟨o, ho, hf⟩ := List.mem_flatMap.1 hf
    obtain ⟨k, hk, rfl⟩ := List.mem_map.1 hf
    obtain ⟨A, -, rfl⟩ := hmem o ho
    simp only [hin]
    rw [hob] at hk
    exact shakenSquare_noise A.inv k hk
  · rw [hpo]; intro o ho
    have : ∀ A, SeesWide 2 1 (ob A) := by
      rw [hob]; intro A
      exact ⟨_, List.mem_map.2 ⟨⟨0, 0, 0⟩, by simp [squarePoints], rfl⟩, _, List.mem_map.2 ⟨⟨1, 0, 0⟩, by simp [squarePoints], rfl⟩,
        _, List.mem_map.2 ⟨⟨1, 1, 0⟩, by simp [squarePoints], rfl⟩, square_wide⟩
    simp only [List.mem_cons, List.not_mem_nil, or_false] at ho
    rcases ho with rfl | rfl | rfl <;> exact ⟨by simp, this _⟩
  · intro o ho
    have : ∀ A, Spanned 1 ((ob A).corrs.map fun k => k.inTarget) ⟨1 / 2, 1 / 2, 0⟩ := by
      rw [hob]; exact fun A => square_centre A.inv
    simp only [List.mem_cons, List.not_mem_nil, or_false] at ho
    rcases ho with rfl | rfl | rfl <;> exact this _
  · apply V3.norm_pos
    rw [hob]; exact quarter_axes
  · intro i hi
    simp only [List.mem_cons, List.not_mem_nil, or_false] at hi
    rcases hi with rfl | rfl
    · refine le_trans (le_of_eq ?_) (le_max_left _ _); rw [hm1]
    · refine le_trans (le_of_eq ?_) (le_max_right _ _); rw [hm1]
  · rw [h1', h2']

end RCT
