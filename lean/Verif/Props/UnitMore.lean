import Verif.Props.Unit
import Verif.Props.IntrinsicStart
import Verif.Props.Near
import Verif.Props.RankIntrinsic
import Verif.Props.MultiEndToEnd
import Verif.Spec.UnitMore

/-!
# C225 The unit of length: cameras with a free target, a common correction, and intrinsic calibration
-/

namespace RCT

open Spec

/-! ## Intrinsic calibration -/

/-- The initial cost of a calibration from one point. -/
theorem one_point_start {s3 : Ceres V3} {s : Ceres Mem} {g : Intr} {k : Corr2} {r : IntrinsicResult}
    (h : intrinsic s3 s ⟨[[k]], g, "pose"⟩ = .ok r) :
    ∃ R : PnPResult, pnp2 s3 ⟨g, [k], facingPose, "camera_to_target"⟩ = .ok R ∧
      ∀ xy, projectPoints2 ⟨g.fx, g.fy, g.cx, g.cy, 0, 0, 0, 0, 0⟩ ((poseCalToEigen (poseEigenToCal R.cameraToTarget)).apply k.inTarget) = xy →
        r.initialCost = some (((xy.x - k.inImage.x) ^ 2 + (xy.y - k.inImage.y) ^ 2) / 4) := by
  obtain ⟨p, hp⟩ : ∃ p : IntrinsicProblem, p = ⟨[[k]], g, "pose"⟩ := ⟨_, rfl⟩
  rw [← hp] at h
  obtain ⟨q, hq⟩ := C43_partial_returns s3 s p r h [k] (by rw [hp]; simp)
  rw [intrSolvePnP_eq, Res.bind_ok_iff] at hq
  obtain ⟨R, hR, hq⟩ := hq
  have hc : R.converged = true := by
    by_contra hc
    rw [if_neg hc] at hq
    cases hq
  have h' := h
  unfold intrinsic at h
  obtain ⟨poses, hposes, h⟩ := (Res.bind_ok_iff _ _ _).1 h
  simp only [Res.bind_ok_iff] at h
  obtain ⟨cov, -, h⟩ := h
  cases h
  have hpose := intrInit_pose hposes (i := 0) (obs := [k]) (by rw [hp]; rfl) hR hc
  have hv := validIdx_all h' hposes
  refine ⟨R, by unfold imagePnp at hR; rw [hp] at hR; exact hR, fun xy hxy => ?_⟩
  have e9 : (intrInit p poses intrBlk).intr9 = ⟨g.fx, g.fy, g.cx, g.cy, 0, 0, 0, 0, 0⟩ := by
    rw [hp]; simp [intrInit, Mem.intr9]
  have hb : intrBuild p poses = [⟨[poseBlk 0, intrBlk], evalMem2 (intrinsicCost k.inTarget k.inImage)⟩] := by
    unfold intrBuild
    rw [hv, hp]
    rfl
  have hres : residuals (intrBuild p poses) (intrInit p poses) = [xy.x - k.inImage.x, xy.y - k.inImage.y] := by
    rw [hb]
    simp only [residuals, ResBlock.residual, List.flatMap_cons, List.flatMap_nil, List.append_nil, List.map_cons, List.map_nil, evalMem2,
      intrinsicCost, transformPoint_eq, hpose, e9, hxy]
  simp only [costPerObs, cost, hres, List.length_cons, List.length_nil]
  norm_num
  ring

theorem perturbed_ratio {b δ1 δ2 δ3 X z : ℝ} (hb : b = 1 / 1000) (h1 : |δ1| ≤ 1 / 10 ^ 18) (h2 : |δ2| ≤ 1 / 10 ^ 18) (h3 : |δ3| ≤ 1 / 10 ^ 18)
    (h : (z > 1 / 10 ^ 10 ∧ X = 2 * b * z) ∨ (z ≤ 1 / 10 ^ 10 ∧ X = 2 * b)) :
    ((if z + δ3 = 0 then X + δ1 else (X + δ1) / (z + δ3)) - 2 * b) ^ 2 + (if z + δ3 = 0 then δ2 else δ2 / (z + δ3)) ^ 2 ≠ b ^ 2 := by
  rw [abs_le] at h1 h2 h3
  have small : ∀ u w : ℝ, |u| ≤ b / 2 → |w| ≤ b / 2 → u ^ 2 + w ^ 2 ≠ b ^ 2 := by
    intro u w hu hw heq
    have := sq_le_sq' (by linarith [abs_le.1 hu |>.1]) (abs_le.1 hu).2
    have := sq_le_sq' (by linarith [abs_le.1 hw |>.1]) (abs_le.1 hw).2
    rw [hb] at *
    norm_num at *
    linarith
  have large : ∀ u w : ℝ, b < |u| → u ^ 2 + w ^ 2 ≠ b ^ 2 := by
    intro u w hu heq
    have h0 : 0 ≤ b := by rw [hb]; norm_num
    have := pow_lt_pow_left₀ hu h0 two_ne_zero
    rw [sq_abs] at this
    nlinarith [sq_nonneg w]
  rcases h with ⟨hz, rfl⟩ | ⟨hz, rfl⟩
  · have hpos : 1 / (2 * 10 ^ 10) < z + δ3 := by norm_num at *; linarith
    have hne : z + δ3 ≠ 0 := by intro h; rw [h] at hpos; norm_num at hpos
    rw [if_neg hne, if_neg hne]
    have hp : 0 < z + δ3 := by norm_num at hpos; linarith
    apply small
    · rw [show (2 * b * z + δ1) / (z + δ3) - 2 * b = (δ1 - 2 * b * δ3) / (z + δ3) by field_simp; ring, abs_div, abs_of_pos hp, div_le_iff₀ hp, abs_le]
      rw [hb] at *
      norm_num at *
      constructor <;> linarith
    · rw [abs_div, abs_of_pos hp, div_le_iff₀ hp, abs_le]
      rw [hb] at *
      norm_num at *
      constructor <;> linarith
  · by_cases h0 : z + δ3 = 0
    · rw [if_pos h0, if_pos h0]
      apply small
      · rw [abs_le, hb] at *; norm_num at *; constructor <;> linarith
      · rw [abs_le, hb] at *; norm_num at *; constructor <;> linarith
    · rw [if_neg h0, if_neg h0]
      apply large
      have hX : 0 < 2 * b + δ1 := by rw [hb]; norm_num at *; linarith
      rcases lt_or_gt_of_ne h0 with hn | hp
      · have := div_neg_of_pos_of_neg hX hn
        rw [abs_of_neg (by rw [hb] at *; norm_num at *; linarith)]
        rw [hb] at *; norm_num at *; linarith
      · have : 1 < (2 * b + δ1) / (z + δ3) := by
          rw [lt_div_iff₀ hp]
          rw [hb]; norm_num at *; linarith
        rw [abs_of_pos (by rw [hb] at *; norm_num at *; linarith)]
        rw [hb] at *; norm_num at *; linarith

theorem exact_image {s : Ceres V3} (hs : s.WF) {b : ℝ} {R : PnPResult}
    (h : pnp2 s ⟨⟨1, 1, 0, 0⟩, [⟨⟨2 * b, 0⟩, ⟨b, 0, 0⟩⟩], facingPose, "camera_to_target"⟩ = .ok R) :
    projectPointE ⟨1, 1, 0, 0⟩ (R.cameraToTarget.apply ⟨b, 0, 0⟩) = ⟨2 * b, 0⟩ := by
  have hface : facingPose.apply ⟨b, 0, 0⟩ = ⟨b, 0, 1 / 2⟩ := by
    simp only [facingPose, Iso.apply, M3.mulVec]; ext <;> simp
  have h0 : projectPointE ⟨1, 1, 0, 0⟩ ⟨b, 0, 1 / 2⟩ = ⟨2 * b, 0⟩ := by
    unfold projectPointE
    rw [if_pos (by norm_num)]
    simp only [M3.mulVec]
    ext <;> simp
    ring
  obtain ⟨-, h2, -⟩ := pnpFinish_ok h
  have hd := hs.descent (pnpBuild2 ⟨⟨1, 1, 0, 0⟩, [⟨⟨2 * b, 0⟩, ⟨b, 0, 0⟩⟩], facingPose, "camera_to_target"⟩) (pnpInit facingPose)
  have hc : ∀ st : Nat → V3, cost (pnpBuild2 ⟨⟨1, 1, 0, 0⟩, [⟨⟨2 * b, 0⟩, ⟨b, 0, 0⟩⟩], facingPose, "camera_to_target"⟩) st =
      (((projectPointE ⟨1, 1, 0, 0⟩ ((pnpTransform (st pnpRot) (st pnpTrans)).apply ⟨b, 0, 0⟩)).x - 2 * b) ^ 2 +
        ((projectPointE ⟨1, 1, 0, 0⟩ ((pnpTransform (st pnpRot) (st pnpTrans)).apply ⟨b, 0, 0⟩)).y) ^ 2) / 2 := by
    intro st
    simp only [cost, residuals, pnpBuild2, List.map_cons, List.map_nil, ResBlock.residual, List.flatMap_cons, List.flatMap_nil, List.append_nil,
      evalV2, pnpCost2, List.sum_cons, List.sum_nil]
    ring
  rw [hc, hc, ← h2, pnpInit_transform facingPose_rep.rigid, hface, h0] at hd
  generalize projectPointE ⟨1, 1, 0, 0⟩ (R.cameraToTarget.apply ⟨b, 0, 0⟩) = q at hd
  obtain ⟨x, y⟩ := q
  simp only [sub_self] at hd
  have h1 : (x - 2 * b) ^ 2 = 0 := by nlinarith [sq_nonneg (x - 2 * b), sq_nonneg y]
  have h3 : y ^ 2 = 0 := by nlinarith [sq_nonneg (x - 2 * b), sq_nonneg y]
  rw [pow_eq_zero_iff two_ne_zero] at h1 h3
  rw [h3, sub_eq_zero.1 h1]

theorem image_plain (v : V3) : projectPoints2 ⟨1, 1, 0, 0, 0, 0, 0, 0, 0⟩ v =
    ⟨if v.z = 0 then v.x else v.x / v.z, if v.z = 0 then v.y else v.y / v.z⟩ := by
  unfold projectPoints2
  ext <;> simp

theorem other_unit_start {s3 : Ceres V3} {s : Ceres Mem} (hs3 : s3.WF) {b : ℝ} (hb : b = 1 / 1000) {r' : IntrinsicResult}
    (hr' : intrinsic s3 s ⟨[[⟨⟨2 * b, 0⟩, ⟨b, 0, 0⟩⟩]], ⟨1, 1, 0, 0⟩, "pose"⟩ = .ok r') : r'.initialCost ≠ some (b ^ 2 / 4) := by
  intro heq
  obtain ⟨R', hR', hcost'⟩ := one_point_start hr'
  rw [hcost' _ (image_plain _)] at heq
  have hzero := exact_image hs3 hR'
  have hTr : RigidMotion R'.cameraToTarget := C35_rigid s3 _ R' hR'
  have hnear := (C171_roundtrip _ hTr).2 ⟨b, 0, 0⟩
  generalize R'.cameraToTarget.apply ⟨b, 0, 0⟩ = c at hzero hnear
  simp only at heq
  generalize (poseCalToEigen (poseEigenToCal R'.cameraToTarget)).apply ⟨b, 0, 0⟩ = c' at heq hnear
  have hnb : (⟨b, 0, 0⟩ : V3).norm = b := by
    have : (0 : ℝ) ≤ b := by rw [hb]; norm_num
    simp [V3.norm, V3.normSq, V3.dot, Real.sqrt_mul_self this]
  rw [hnb] at hnear
  have hle : (c' - c).norm ≤ 1 / 10 ^ 18 := hnear.trans (by rw [hb]; norm_num)
  have hx : |(c' - c).x| ≤ 1 / 10 ^ 18 := (V3.abs_x_le _).trans hle
  have hy : |(c' - c).y| ≤ 1 / 10 ^ 18 := (V3.abs_y_le _).trans hle
  have hz : |(c' - c).z| ≤ 1 / 10 ^ 18 := (V3.abs_z_le _).trans hle
  have hcases : c.y = 0 ∧ ((c.z > 1 / 10 ^ 10 ∧ c.x = 2 * b * c.z) ∨ (c.z ≤ 1 / 10 ^ 10 ∧ c.x = 2 * b)) := by
    unfold projectPointE at hzero
    by_cases h : c.z - 0 > 1 / 10 ^ 10
    · rw [if_pos h] at hzero
      simp only [M3.mulVec, V2.mk.injEq] at hzero
      rw [sub_zero] at h
      have h0 : c.z ≠ 0 := by intro h'; rw [h'] at h; norm_num at h
      obtain ⟨e1, e2⟩ := hzero
      have e1' : c.x / c.z = 2 * b := by linarith
      have e2' : c.y / c.z = 0 := by linarith
      rw [div_eq_iff h0] at e1' e2'
      exact ⟨by linarith, Or.inl ⟨h, e1'⟩⟩
    · rw [if_neg h] at hzero
      simp only [M3.mulVec, V2.mk.injEq] at hzero
      rw [sub_zero] at h
      exact ⟨by linarith [hzero.2], Or.inr ⟨not_lt.1 h, by linarith [hzero.1]⟩⟩
  have key := perturbed_ratio (X := c.x) (z := c.z) hb hx hy hz hcases.2
  have e1 : c.x + (c' - c).x = c'.x := by simp
  have e2 : (c' - c).y = c'.y := by simp [hcases.1]
  have e3 : c.z + (c' - c).z = c'.z := by simp
  rw [e1, e2, e3] at key
  rw [Option.some.injEq] at heq
  apply key
  linear_combination 4 * heq

/-- A point of the target written in a unit half as large: every image is first placed half a unit in front of
the camera, whatever the unit, so no result has the same initial cost. -/
theorem C225_negation_intrinsic : ∃ (p : IntrinsicProblem) (k : ℝ) (r : IntrinsicResult), 0 < k ∧ ReachesIntrinsic p r ∧
    ∀ r', ReachesIntrinsic (IntrinsicProblem.inUnit k p) r' → r'.initialCost ≠ r.initialCost := by
  obtain ⟨b, hb⟩ : ∃ b : ℝ, b = 1 / 1000 := ⟨_, rfl⟩
  have hface : facingPose.apply ⟨b / 2, 0, 0⟩ = ⟨b / 2, 0, 1 / 2⟩ := by
    simp only [facingPose, Iso.apply, M3.mulVec]; ext <;> simp
  obtain ⟨r, hr⟩ := intrinsic_returns [[⟨⟨2 * b, 0⟩, ⟨b / 2, 0, 0⟩⟩]] (by simp) (by simp) ⟨1, 1, 0, 0⟩
  obtain ⟨R, hR, hcost⟩ := one_point_start hr
  obtain ⟨P, hP⟩ : ∃ P : PnPProblem Corr2, P = ⟨⟨1, 1, 0, 0⟩, [⟨⟨2 * b, 0⟩, ⟨b / 2, 0, 0⟩⟩], facingPose, "camera_to_target"⟩ := ⟨_, rfl⟩
  rw [← hP] at hR
  have hT : R.cameraToTarget = facingPose := by
    have := C34_pnp _ P R (fun _ _ => rfl) (by rw [hP]; exact facingPose_rep.1) hR
    rw [this, hP]
  rw [hT, facingPose_rep.roundtrip] at hcost
  have hc := hcost ⟨b, 0⟩ (by
    rw [hface, image_plain]
    ext
    · rw [if_neg (by norm_num)]; ring
    · simp)
  have e : IntrinsicProblem.inUnit 2 ⟨[[⟨⟨2 * b, 0⟩, ⟨b / 2, 0, 0⟩⟩]], ⟨1, 1, 0, 0⟩, "pose"⟩ =
      ⟨[[⟨⟨2 * b, 0⟩, ⟨b, 0, 0⟩⟩]], ⟨1, 1, 0, 0⟩, "pose"⟩ := by
    simp only [IntrinsicProblem.inUnit, List.map_cons, List.map_nil, Corr2.inUnit, V3.smul, mul_zero]
    rw [show 2 * (b / 2) = b by ring]
  refine ⟨⟨[[⟨⟨2 * b, 0⟩, ⟨b / 2, 0, 0⟩⟩]], ⟨1, 1, 0, 0⟩, "pose"⟩, 2, r, by norm_num, ⟨_, _, idCeres_wf V3, idCeres_wf Mem, hr⟩, ?_⟩
  rw [e]
  rintro r' ⟨s3, s, hs3, -, hr'⟩ heq
  refine other_unit_start hs3 hb hr' ?_
  rw [heq, hc]
  simp only [sub_self, sub_zero]
  rw [show (b - 2 * b) ^ 2 + 0 ^ 2 = b ^ 2 by ring]

/-! ## One correction of all cameras -/

theorem byCamera_inUnit (k : ℝ) (obs : List (List (List Corr2))) (n : Nat) (images : Nat → Nat) :
    byCamera (obs.map fun c => c.map fun l => l.map (Corr2.inUnit k)) n images = (byCamera obs n images).map (Feature.inUnit k) := by
  unfold byCamera
  simp only [featuresOf_inUnit, List.map_flatMap]

theorem byImage_inUnit (k : ℝ) (obs : List (List (List Corr2))) (n m : Nat) :
    byImage (obs.map fun c => c.map fun l => l.map (Corr2.inUnit k)) n m = (byImage obs n m).map (Feature.inUnit k) := by
  unfold byImage
  simp only [featuresOf_inUnit, List.map_flatMap]

theorem woSizes_inUnit {k : ℝ} {p : WoProblem} (hp : WoSizes p) : WoSizes (WoProblem.inUnit k p) := by
  refine ⟨by simp [WoProblem.inUnit, hp.intr], fun c hc => ?_⟩
  simp only [WoProblem.inUnit, List.length_map, List.getElem?_map] at hc ⊢
  obtain ⟨oc, h1, h2⟩ := hp.images c hc
  exact ⟨_, by rw [h1]; rfl, by rw [List.length_map, h2]⟩

theorem coSizes_inUnit {k : ℝ} {p : CoProblem} (hp : CoSizes p) : CoSizes (CoProblem.inUnit k p) := by
  refine ⟨by simp [CoProblem.inUnit, hp.intr], fun c hc => ?_⟩
  simp only [CoProblem.inUnit, List.length_map, List.getElem?_map] at hc ⊢
  obtain ⟨oc, h1, h2⟩ := hp.images c hc
  exact ⟨_, by rw [h1]; rfl, by rw [List.length_map, h2]⟩

theorem getD_inUnit (k : ℝ) (l : List Iso) (i : Nat) : (l.map (Iso.inUnit k)).getD i 1 = Iso.inUnit k (l.getD i 1) := by
  rw [← getD_map (Iso.inUnit k), inUnit_one]

theorem inUnit_mul (k : ℝ) (A B : Iso) : Iso.inUnit k (A * B) = Iso.inUnit k A * Iso.inUnit k B := by
  have : ∀ v, (Iso.inUnit k A).apply (V3.smul k v) = V3.smul k (A.apply v) := inUnit_apply k A
  show (⟨A.R * B.R, V3.smul k (A.apply B.t)⟩ : Iso) = ⟨A.R * B.R, (Iso.inUnit k A).apply (V3.smul k B.t)⟩
  rw [this]

/-- The target point of a feature in the frame of its camera, at given parameter values. -/
noncomputable def woPoint (p : WoProblem) (st : Nat → Pose6) (f : Feature) : V3 :=
  poseTransformPoint (poseEigenToCal (p.baseToCameraGuess.getD f.cam 1).inv) (transformPoint (st woCorr).rot (st woCorr).trans
    (poseTransformPoint (poseEigenToCal (p.wristPoses.getD f.img 1)) (transformPoint (st woTgt).rot (st woTgt).trans f.corr.inTarget)))

theorem woBlock_inUnit {k : ℝ} (hk : 0 < k) (p : WoProblem) (f : Feature) (st : Nat → Pose6) (hz : (woPoint p st f).z ≠ 0) :
    (woBlock (WoProblem.inUnit k p) (Feature.inUnit k f)).residual (fun a => (st a).inUnit k) =
      ((woBlock p f).residual st).map fun x => 1 * x := by
  have hw : (WoProblem.inUnit k p).wristPoses.getD f.img 1 = Iso.inUnit k (p.wristPoses.getD f.img 1) := getD_inUnit k _ _
  have hc : (WoProblem.inUnit k p).baseToCameraGuess.getD f.cam 1 = Iso.inUnit k (p.baseToCameraGuess.getD f.cam 1) := getD_inUnit k _ _
  have hi : (WoProblem.inUnit k p).intr = p.intr := rfl
  simp only [woBlock, ResBlock.residual, List.map_cons, List.map_nil, eval2, woCost, Feature.inUnit, Corr2.inUnit, hw, hc, hi, inUnit_inv,
    transformPoint_inUnit, poseTransformPoint_inUnit, one_mul]
  unfold woPoint at hz
  rw [projectPoint_inUnit hk _ hz]

/-- All features of a problem. -/
def woFeatures (p : WoProblem) : List Feature := byCamera p.observations p.baseToCameraGuess.length fun _ => p.wristPoses.length

theorem woPoint_depth {p : WoProblem} (hw : ∀ w ∈ p.wristPoses, Representable w) (hc : ∀ c ∈ p.baseToCameraGuess, Representable c)
    (st : Nat → Pose6) (T : Iso) (hT : poseCalToEigen (st woTgt) = T) (hr : (poseCalToEigen (st woCorr)).IsRigid)
    (hz : NoZeroDepth (p.baseToCameraGuess.map fun g => (poseCalToEigen (st woCorr)).inv * g) (fun _ i => p.wristPoses.getD i 1 * T) (woFeatures p))
    (f : Feature) (hf : f ∈ woFeatures p) : (woPoint p st f).z ≠ 0 := by
  have hz' := hz f hf
  obtain ⟨m1, m2, -⟩ := mem_byCamera hf
  have hcr := hc _ (List.getElem_mem m1)
  have hwr := hw _ (List.getElem_mem m2)
  have hw0 : p.wristPoses.getD f.img 1 = p.wristPoses[f.img] := getD_of_some (List.getElem?_eq_getElem m2)
  have hc0 : p.baseToCameraGuess.getD f.cam 1 = p.baseToCameraGuess[f.cam] := getD_of_some (List.getElem?_eq_getElem m1)
  have hc1 : (p.baseToCameraGuess.map fun g => (poseCalToEigen (st woCorr)).inv * g).getD f.cam 1 =
      (poseCalToEigen (st woCorr)).inv * p.baseToCameraGuess[f.cam] := by
    rw [getD_of_some (by rw [List.getElem?_map, List.getElem?_eq_getElem m1]; rfl)]
  unfold staticDepth at hz'
  beta_reduce at hz'
  rw [hc1, hw0, Iso.mul_inv_rev hr.inv, Iso.inv_inv hr, ← hT] at hz'
  unfold woPoint
  rw [hw0, hc0]
  simp only [transformPoint_eq, hwr.act, hcr.inv.act]
  simpa only [Iso.apply_mul] using hz'

/-- One correction of all cameras.

Full statement: as for hand-eye calibration.
Missing from the full claim: guesses and results with a feature at depth zero, poses that the six values do not represent, and results whose
camera poses are not rigid. -/
theorem C225_wrist_only_partial (p : WoProblem) (hp : WoSizes p) (hw : ∀ w ∈ p.wristPoses, Representable w)
    (hc : ∀ c ∈ p.baseToCameraGuess, Representable c) (ht : Representable p.wristToTargetGuess)
    (hz : NoZeroDepth p.baseToCameraGuess (fun _ i => p.wristPoses.getD i 1 * p.wristToTargetGuess) (woFeatures p))
    {k : ℝ} (hk : 0 < k) (r : WoResult) (h : Reaches (fun s => wristOnly s p) r) (hr : ∀ c ∈ r.baseToCamera, RigidMotion c)
    (hz' : NoZeroDepth r.baseToCamera (fun _ i => p.wristPoses.getD i 1 * r.wristToTarget) (woFeatures p)) :
    ∃ r', Reaches (fun s => wristOnly s (WoProblem.inUnit k p)) r' ∧ WoResult.SameInUnit k 1 r r' := by
  obtain ⟨s, hs, h⟩ := h
  obtain ⟨pb, hb⟩ := hp.built
  obtain ⟨pb', hb'⟩ := (woSizes_inUnit (k := k) hp).built
  have e := woBuild_eq hb
  have e' := woBuild_eq hb'
  have hfe : byCamera (WoProblem.inUnit k p).observations (WoProblem.inUnit k p).baseToCameraGuess.length
      (fun _ => (WoProblem.inUnit k p).wristPoses.length) = (woFeatures p).map (Feature.inUnit k) := by
    unfold WoProblem.inUnit woFeatures
    simp only [List.length_map]
    exact byCamera_inUnit _ _ _ _
  rw [hfe, List.map_map] at e'
  change pb = (woFeatures p).map (woBlock p) at e
  beta_reduce at h
  unfold wristOnly at h
  rw [hb, Res.ok_bind] at h
  cases h
  have hi1 : woInit p woCorr = poseEigenToCal 1 := by simp [woInit, woCorr, woTgt]
  have hinit : woInit (WoProblem.inUnit k p) = fun a => (woInit p a).inUnit k := by
    funext a
    unfold woInit WoProblem.inUnit
    by_cases ha : a = woTgt
    · simp only [if_pos ha, poseEigenToCal_inUnit]
    · simp only [if_neg ha]
      rw [← poseEigenToCal_inUnit, inUnit_one]
  have hI : residuals pb' (fun a => (woInit p a).inUnit k) = (residuals pb (woInit p)).map fun x => 1 * x := by
    rw [e, e']
    refine residuals_map_scaled _ _ _ _ _ _ fun f hf => woBlock_inUnit hk p f _ ?_
    refine woPoint_depth hw hc _ p.wristToTargetGuess ?_ ?_ ?_ f hf
    · have : woInit p woTgt = poseEigenToCal p.wristToTargetGuess := by simp [woInit]
      rw [this, ht.roundtrip]
    · rw [hi1, Representable.one.roundtrip]; exact Representable.one.rigid
    · rw [hi1, Representable.one.roundtrip, Iso.inv_one]
      simpa only [Iso.one_mul, List.map_id'] using hz
  have hF : residuals pb' (fun a => (s.solve pb (woInit p) a).inUnit k) = (residuals pb (s.solve pb (woInit p))).map fun x => 1 * x := by
    have key : ∀ f ∈ woFeatures p, (woPoint p (s.solve pb (woInit p)) f).z ≠ 0 := by
      intro f hf
      refine woPoint_depth hw hc _ _ rfl ?_ hz' f hf
      obtain ⟨m1, -, -⟩ := mem_byCamera hf
      have hg := List.getElem_mem m1
      have h0 := hr _ (List.mem_map_of_mem (f := fun g => (poseCalToEigen (s.solve pb (woInit p) woCorr)).inv * g) hg)
      have h1 := ((rigid_iff _).2 h0).mul (hc _ hg).rigid.inv
      rw [Iso.mul_assoc, Iso.mul_inv (hc _ hg).rigid, Iso.mul_one] at h1
      exact Iso.IsRigid.of_inv h1
    generalize s.solve pb (woInit p) = st at key
    rw [e, e']
    exact residuals_map_scaled _ _ _ _ _ _ fun f hf => woBlock_inUnit hk p f _ (key f hf)
  obtain ⟨s', hs', h1, h2, h3, h4, h5, h6⟩ := carry hs 1 (by rw [e, e', List.map_map, List.map_map]; rfl)
    (fun a ha => by show Pose6.inUnit k _ = Pose6.inUnit k _; rw [hs.frame _ _ _ ha]) hI hF
  rw [one_pow] at h5 h6
  refine ⟨⟨s.converged pb (woInit p), times 1 (costPerObs pb (woInit p)), times 1 (costPerObs pb (s.solve pb (woInit p))),
    poseCalToEigen ((s.solve pb (woInit p) woTgt).inUnit k),
    (WoProblem.inUnit k p).baseToCameraGuess.map (fun g => (poseCalToEigen ((s.solve pb (woInit p) woCorr).inUnit k)).inv * g)⟩,
    ⟨s', hs', ?_⟩, rfl, rfl, rfl, poseCalToEigen_inUnit _ _, ?_⟩
  · beta_reduce
    unfold wristOnly
    rw [hb', Res.ok_bind]
    simp only [hinit, h1, h2, h5, h6]
  · show (p.baseToCameraGuess.map (Iso.inUnit k)).map _ = _
    simp only [List.map_map]
    refine List.map_congr_left fun c _ => ?_
    simp only [Function.comp, poseCalToEigen_inUnit, inUnit_inv, inUnit_mul]

/-! ## Cameras and targets -/

/-- The target point of a feature in the frame of its camera, at given parameter values. -/
noncomputable def coPoint (p : CoProblem) (st : Nat → Pose6) (f : Feature) : V3 :=
  if p.fixFirst = true ∧ f.cam = 0 then
    poseTransformPoint (poseEigenToCal (p.baseToCameraGuess.getD f.cam 1).inv) (transformPoint (st (coTgt f.img)).rot (st (coTgt f.img)).trans
      f.corr.inTarget)
  else transformPoint (st (coCam f.cam)).rot (st (coCam f.cam)).trans (transformPoint (st (coTgt f.img)).rot (st (coTgt f.img)).trans f.corr.inTarget)

theorem coBlock_inUnit {k : ℝ} (hk : 0 < k) (p : CoProblem) (f : Feature) (st : Nat → Pose6) (hz : (coPoint p st f).z ≠ 0) :
    (coBlock (CoProblem.inUnit k p) (Feature.inUnit k f)).residual (fun a => (st a).inUnit k) =
      ((coBlock p f).residual st).map fun x => 1 * x := by
  have hc : (CoProblem.inUnit k p).baseToCameraGuess.getD f.cam 1 = Iso.inUnit k (p.baseToCameraGuess.getD f.cam 1) := getD_inUnit k _ _
  have hi : (CoProblem.inUnit k p).intr = p.intr := rfl
  have hfx : (CoProblem.inUnit k p).fixFirst = p.fixFirst := rfl
  unfold coPoint at hz
  by_cases hx : p.fixFirst = true ∧ f.cam = 0
  · rw [if_pos hx] at hz
    simp only [coBlock, Feature.inUnit, hfx, if_pos hx]
    simp only [ResBlock.residual, List.map_cons, List.map_nil, eval1, coFixedCost, Corr2.inUnit, hc, hi, inUnit_inv,
      transformPoint_inUnit, poseTransformPoint_inUnit, one_mul]
    rw [projectPoint_inUnit hk _ hz]
  · rw [if_neg hx] at hz
    simp only [coBlock, Feature.inUnit, hfx, if_neg hx]
    simp only [ResBlock.residual, List.map_cons, List.map_nil, eval2, coFreeCost, Corr2.inUnit, hi, transformPoint_inUnit, one_mul]
    rw [projectPoint_inUnit hk _ hz]

/-- All features of a problem. -/
def coFeatures (p : CoProblem) : List Feature := byImage p.observations p.baseToCameraGuess.length p.baseToTargetGuess.length

theorem coPoint_depth {p : CoProblem} (hc : ∀ c ∈ p.baseToCameraGuess, Representable c) (st : Nat → Pose6) (cams : List Iso) (tgts : Nat → Iso)
    (hcams : ∀ c : Nat, c < p.baseToCameraGuess.length → cams[c]? = some (poseCalToEigen (st (coCam c))).inv)
    (hfix : p.fixFirst = true → ∀ g, p.baseToCameraGuess[0]? = some g → cams[0]? = some g)
    (htgt : ∀ i : Nat, i < p.baseToTargetGuess.length → poseCalToEigen (st (coTgt i)) = tgts i) (hr : ∀ c ∈ cams, RigidMotion c)
    (hz : NoZeroDepth cams (fun _ i => tgts i) (coFeatures p)) (f : Feature) (hf : f ∈ coFeatures p) : (coPoint p st f).z ≠ 0 := by
  have hz' := hz f hf
  obtain ⟨m1, m2, -⟩ := mem_byImage hf
  have hcam := hcams f.cam m1
  have hc0 : p.baseToCameraGuess.getD f.cam 1 = p.baseToCameraGuess[f.cam] := getD_of_some (List.getElem?_eq_getElem m1)
  have hcr := hc _ (List.getElem_mem m1)
  unfold staticDepth at hz'
  beta_reduce at hz'
  unfold coPoint
  by_cases hx : p.fixFirst = true ∧ f.cam = 0
  · rw [if_pos hx, hc0]
    have h0 : cams[f.cam]? = some p.baseToCameraGuess[f.cam] := by
      have := hfix hx.1 p.baseToCameraGuess[f.cam] (by rw [← hx.2]; exact List.getElem?_eq_getElem m1)
      rwa [← hx.2] at this
    rw [getD_of_some h0, ← htgt _ m2] at hz'
    simp only [transformPoint_eq, hcr.inv.act]
    simpa only [Iso.apply_mul] using hz'
  · rw [if_neg hx]
    have hrig := Iso.IsRigid.of_inv ((rigid_iff _).2 (hr _ (List.mem_of_getElem? hcam)))
    rw [getD_of_some hcam, Iso.inv_inv hrig, ← htgt _ m2] at hz'
    simp only [transformPoint_eq]
    simpa only [Iso.apply_mul] using hz'

theorem coInit_inUnit (k : ℝ) (p : CoProblem) : coInit (CoProblem.inUnit k p) = fun a => (coInit p a).inUnit k := by
  funext a
  unfold coInit CoProblem.inUnit
  simp only [List.length_map, List.getElem?_map]
  split
  · cases p.baseToTargetGuess[a / 2]? with
    | none => simp [Pose6.inUnit]
    | some g => rfl
  · split
    · simp [Pose6.inUnit]
    · cases p.baseToCameraGuess[a / 2]? with
      | none => simp [Pose6.inUnit]
      | some g => simp only [Option.map_some, inUnit_inv]; rfl

/-- The block of a fixed camera is not part of the problem. -/
theorem co_fixed_unused {p : CoProblem} (hf : p.fixFirst = true) {pb : List (ResBlock Pose6)} (e : pb = (coFeatures p).map (coBlock p)) :
    coCam 0 ∉ usedBlocks pb := by
  intro h
  unfold usedBlocks at h
  rw [List.mem_dedup, List.mem_flatMap, e] at h
  obtain ⟨b, hb, h⟩ := h
  obtain ⟨f, -, rfl⟩ := List.mem_map.1 hb
  unfold coBlock at h
  split at h
  · simp only [List.mem_singleton, coCam, coTgt] at h
    omega
  · rename_i hn
    simp only [List.mem_cons, List.not_mem_nil, or_false, coCam, coTgt] at h
    rcases h with h | h
    · exact hn ⟨hf, by omega⟩
    · omega

/-- Cameras and targets, both free.

Full statement: as for hand-eye calibration.
Missing from the full claim: guesses and results with a feature at depth zero, poses that the six values do not represent, and results whose
camera poses are not rigid. -/
theorem C225_camera_only_partial (p : CoProblem) (hp : CoSizes p) (ht : ∀ t ∈ p.baseToTargetGuess, Representable t)
    (hc : ∀ c ∈ p.baseToCameraGuess, Representable c)
    (hz : NoZeroDepth p.baseToCameraGuess (fun _ i => p.baseToTargetGuess.getD i 1) (coFeatures p))
    {k : ℝ} (hk : 0 < k) (r : CoResult) (h : Reaches (fun s => cameraOnly s p) r) (hr : ∀ c ∈ r.baseToCamera, RigidMotion c)
    (hz' : NoZeroDepth r.baseToCamera (fun _ i => r.baseToTarget.getD i 1) (coFeatures p)) :
    ∃ r', Reaches (fun s => cameraOnly s (CoProblem.inUnit k p)) r' ∧ CoResult.SameInUnit k 1 r r' := by
  obtain ⟨s, hs, h⟩ := h
  obtain ⟨pb, hb⟩ := hp.built
  obtain ⟨pb', hb'⟩ := (coSizes_inUnit (k := k) hp).built
  have e := coBuild_eq hb
  have e' := coBuild_eq hb'
  have hlt : (CoProblem.inUnit k p).baseToTargetGuess.length = p.baseToTargetGuess.length := List.length_map _
  have hlc : (CoProblem.inUnit k p).baseToCameraGuess.length = p.baseToCameraGuess.length := List.length_map _
  have hfe : byImage (CoProblem.inUnit k p).observations (CoProblem.inUnit k p).baseToCameraGuess.length
      (CoProblem.inUnit k p).baseToTargetGuess.length = (coFeatures p).map (Feature.inUnit k) := by
    rw [hlt, hlc]
    exact byImage_inUnit _ _ _ _
  rw [hfe, List.map_map] at e'
  change pb = (coFeatures p).map (coBlock p) at e
  beta_reduce at h
  unfold cameraOnly at h
  rw [hb, Res.ok_bind] at h
  cases h
  have hodd : ∀ c : Nat, (2 * c + 1) / 2 = c := fun c => by omega
  have i1 : ∀ i (hi : i < p.baseToTargetGuess.length), coInit p (coTgt i) = poseEigenToCal p.baseToTargetGuess[i] := fun i hi => by
    simp [coInit, coTgt, hi]
  have i2 : p.baseToTargetGuess.length ≠ 0 → ∀ c (hc : c < p.baseToCameraGuess.length),
      coInit p (coCam c) = poseEigenToCal p.baseToCameraGuess[c].inv := fun h0 c hc => by
    have h1 : (2 * c + 1) % 2 = 1 := by omega
    simp only [coInit, coCam, hodd, h1, if_neg h0, List.getElem?_eq_getElem hc]
    rfl
  have n0 : ∀ f ∈ coFeatures p, p.baseToTargetGuess.length ≠ 0 := fun f hf => by
    have := (mem_byImage hf).2.1
    omega
  have hI : residuals pb' (fun a => (coInit p a).inUnit k) = (residuals pb (coInit p)).map fun x => 1 * x := by
    rw [e, e']
    refine residuals_map_scaled _ _ _ _ _ _ fun f hf => coBlock_inUnit hk p f _ ?_
    refine coPoint_depth hc _ p.baseToCameraGuess (fun i => p.baseToTargetGuess.getD i 1) ?_ (fun _ g hg => hg) ?_ (fun c h => (hc c h).1) hz f hf
    · intro c hc'
      have hgr := hc _ (List.getElem_mem hc')
      rw [i2 (n0 f hf) c hc', hgr.inv.roundtrip, Iso.inv_inv hgr.rigid, List.getElem?_eq_getElem hc']
    · intro i hi
      rw [i1 i hi, (ht _ (List.getElem_mem hi)).roundtrip, getD_of_some (List.getElem?_eq_getElem hi)]
  have hF : residuals pb' (fun a => (s.solve pb (coInit p) a).inUnit k) = (residuals pb (s.solve pb (coInit p))).map fun x => 1 * x := by
    have key : ∀ f ∈ coFeatures p, (coPoint p (s.solve pb (coInit p)) f).z ≠ 0 := by
      intro f hf
      refine coPoint_depth hc _ _ (fun i => ((List.range p.baseToTargetGuess.length).map fun i => poseCalToEigen (s.solve pb (coInit p) (coTgt i))).getD i 1)
        (fun c hc' => by rw [List.getElem?_map, List.getElem?_range hc']; rfl) ?_ ?_ hr hz' f hf
      · intro hfx g hg
        obtain ⟨h0, h1⟩ := List.getElem?_eq_some_iff.1 hg
        have hgr := hc g (List.mem_of_getElem? hg)
        rw [List.getElem?_map, List.getElem?_range h0]
        show some (poseCalToEigen (s.solve pb (coInit p) (coCam 0))).inv = some g
        rw [hs.frame _ _ _ (co_fixed_unused hfx e), i2 (n0 f hf) 0 h0, h1, hgr.inv.roundtrip, Iso.inv_inv hgr.rigid]
      · intro i hi
        rw [getD_of_some (by rw [List.getElem?_map, List.getElem?_range hi]; rfl)]
    generalize s.solve pb (coInit p) = st at key
    rw [e, e']
    exact residuals_map_scaled _ _ _ _ _ _ fun f hf => coBlock_inUnit hk p f _ (key f hf)
  obtain ⟨s', hs', h1, h2, h3, h4, h5, h6⟩ := carry hs 1 (by
      rw [e, e', List.map_map, List.map_map]
      refine List.map_congr_left fun f _ => ?_
      have hfx : (CoProblem.inUnit k p).fixFirst = p.fixFirst := rfl
      by_cases hx : p.fixFirst = true ∧ f.cam = 0
      · simp only [Function.comp, coBlock, Feature.inUnit, hfx, if_pos hx]
      · simp only [Function.comp, coBlock, Feature.inUnit, hfx, if_neg hx])
    (fun a ha => by show Pose6.inUnit k _ = Pose6.inUnit k _; rw [hs.frame _ _ _ ha]) hI hF
  rw [one_pow] at h5 h6
  refine ⟨⟨s.converged pb (coInit p), times 1 (costPerObs pb (coInit p)), times 1 (costPerObs pb (s.solve pb (coInit p))),
    (List.range p.baseToTargetGuess.length).map (fun i => poseCalToEigen ((s.solve pb (coInit p) (coTgt i)).inUnit k)),
    (List.range p.baseToCameraGuess.length).map (fun c => (poseCalToEigen ((s.solve pb (coInit p) (coCam c)).inUnit k)).inv)⟩,
    ⟨s', hs', ?_⟩, rfl, rfl, rfl, ?_, ?_⟩
  · beta_reduce
    unfold cameraOnly
    rw [hb', Res.ok_bind]
    simp only [coInit_inUnit, h1, h2, h5, h6, hlt, hlc]
  · simp only [List.map_map]
    refine List.map_congr_left fun c _ => ?_
    simp only [Function.comp, poseCalToEigen_inUnit]
  · simp only [List.map_map]
    refine List.map_congr_left fun c _ => ?_
    simp only [Function.comp, poseCalToEigen_inUnit, inUnit_inv]

/-- One camera that sees one point. -/
example : (∃ (p : WoProblem) (r : WoResult), WoSizes p ∧ (∀ w ∈ p.wristPoses, Representable w) ∧ (∀ c ∈ p.baseToCameraGuess, Representable c) ∧
      Representable p.wristToTargetGuess ∧ woFeatures p ≠ [] ∧
      NoZeroDepth p.baseToCameraGuess (fun _ i => p.wristPoses.getD i 1 * p.wristToTargetGuess) (woFeatures p) ∧
      Reaches (fun s => wristOnly s p) r ∧ (∀ c ∈ r.baseToCamera, RigidMotion c) ∧
      NoZeroDepth r.baseToCamera (fun _ i => p.wristPoses.getD i 1 * r.wristToTarget) (woFeatures p)) ∧
    ∃ (p : CoProblem) (r : CoResult), CoSizes p ∧ (∀ t ∈ p.baseToTargetGuess, Representable t) ∧
      (∀ c ∈ p.baseToCameraGuess, Representable c) ∧ coFeatures p ≠ [] ∧
      NoZeroDepth p.baseToCameraGuess (fun _ i => p.baseToTargetGuess.getD i 1) (coFeatures p) ∧ Reaches (fun s => cameraOnly s p) r ∧
      (∀ c ∈ r.baseToCamera, RigidMotion c) ∧ NoZeroDepth r.baseToCamera (fun _ i => r.baseToTarget.getD i 1) (coFeatures p) := by
  have hone : ∀ c ∈ [(1 : Iso)], Representable c := by
    intro c hc; rw [List.mem_singleton.1 hc]; exact Representable.one
  have hr1 := Representable.one.1
  constructor
  · obtain ⟨p, hp⟩ : ∃ p : WoProblem, p = ⟨[⟨1, 1, 0, 0⟩], [1], [[[⟨⟨0, 0⟩, ⟨0, 0, 1⟩⟩]]], 1, [1]⟩ := ⟨_, rfl⟩
    have hs : WoSizes p := by
      rw [hp]
      exact ⟨rfl, fun c hc => by obtain rfl : c = 0 := Nat.lt_one_iff.1 hc; exact ⟨_, rfl, rfl⟩⟩
    obtain ⟨pb, hb⟩ := hs.built
    have hr := (show ∀ {r}, r = _ → wristOnly (idCeres Pose6) p = .ok r from fun h => by unfold wristOnly; rw [hb, Res.ok_bind, h]) rfl
    have hf : woFeatures p = [⟨0, 0, ⟨⟨0, 0⟩, ⟨0, 0, 1⟩⟩⟩] := by rw [hp]; rfl
    have e1 : (idCeres Pose6).solve pb (woInit p) woTgt = poseEigenToCal 1 := by show woInit p woTgt = _; rw [hp]; simp [woInit]
    have e2 : (idCeres Pose6).solve pb (woInit p) woCorr = poseEigenToCal 1 := by show woInit p woCorr = _; simp [woInit, woCorr, woTgt]
    have e3 : p.baseToCameraGuess = [1] := by rw [hp]
    have e4 : p.wristPoses = [1] := by rw [hp]
    have e5 : p.wristToTargetGuess = 1 := by rw [hp]
    rw [e1, e2, Representable.one.roundtrip, e3] at hr
    refine ⟨p, _, hs, by rw [hp]; exact hone, by rw [hp]; exact hone, by rw [hp]; exact Representable.one, by rw [hf]; simp, ?_,
      ⟨_, idCeres_wf Pose6, hr⟩, ?_, ?_⟩
    · intro f hff
      rw [hf, List.mem_singleton] at hff
      rw [hff, e3, e4, e5]
      simp [staticDepth]
    · intro c hc
      simp only [List.map_cons, List.map_nil, List.mem_singleton] at hc
      rw [hc, Iso.inv_one, Iso.mul_one]; exact hr1
    · intro f hff
      rw [hf, List.mem_singleton] at hff
      rw [hff, e4]
      simp [staticDepth]
  · obtain ⟨p, hp⟩ : ∃ p : CoProblem, p = ⟨true, [⟨1, 1, 0, 0⟩], [1], [[[⟨⟨0, 0⟩, ⟨0, 0, 1⟩⟩]]], [1]⟩ := ⟨_, rfl⟩
    have hs : CoSizes p := by
      rw [hp]
      exact ⟨rfl, fun c hc => by obtain rfl : c = 0 := Nat.lt_one_iff.1 hc; exact ⟨_, rfl, rfl⟩⟩
    obtain ⟨pb, hb⟩ := hs.built
    have hr := (show ∀ {r}, r = _ → cameraOnly (idCeres Pose6) p = .ok r from fun h => by unfold cameraOnly; rw [hb, Res.ok_bind, h]) rfl
    have hf : coFeatures p = [⟨0, 0, ⟨⟨0, 0⟩, ⟨0, 0, 1⟩⟩⟩] := by rw [hp]; rfl
    have e1 : (idCeres Pose6).solve pb (coInit p) (coTgt 0) = poseEigenToCal 1 := by show coInit p (coTgt 0) = _; rw [hp]; simp [coInit, coTgt]
    have e2 : (idCeres Pose6).solve pb (coInit p) (coCam 0) = poseEigenToCal 1 := by
      show coInit p (coCam 0) = _; rw [hp]; simp [coInit, coCam, Iso.inv_one]
    have e3 : p.baseToCameraGuess = [1] := by rw [hp]
    have e4 : p.baseToTargetGuess = [1] := by rw [hp]
    rw [e3, e4] at hr
    simp only [List.length_cons, List.length_nil, Nat.zero_add, List.range_one, List.map_cons, List.map_nil, e1, e2, Representable.one.roundtrip,
      Iso.inv_one] at hr
    refine ⟨p, _, hs, by rw [hp]; exact hone, by rw [hp]; exact hone, by rw [hf]; simp, ?_, ⟨_, idCeres_wf Pose6, hr⟩, ?_, ?_⟩
    · intro f hff
      rw [hf, List.mem_singleton] at hff
      rw [hff, e3, e4]
      simp [staticDepth]
    · intro c hc
      rw [List.mem_singleton.1 hc]; exact hr1
    · intro f hff
      rw [hf, List.mem_singleton] at hff
      rw [hff]
      simp [staticDepth]

end RCT
