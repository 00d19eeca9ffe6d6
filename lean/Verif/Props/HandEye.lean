import Verif.Lemmas.HandEye
import Mathlib.Analysis.SpecialFunctions.Trigonometric.Bounds

/-!
# C28 – C32, C34: hand-eye calibration
-/

namespace RCT
open Spec

theorem rotBlock_rigid {p : Pose6} (h : p.rot = 0 ∨ p.rot.normSq > 1 / 2 ^ 52) : (poseCalToEigen p).IsRigid :=
  (poseCalToEigen_rigid_iff p).2 h

/-! ## C28 Hand-eye residual is the reprojection error of the composed transforms

Full statement: for every problem and every parameter state, the residuals are the reprojection errors of the transforms
that are reported for that state. It fails for parameter states (or mount poses) with a rotation so small that the six
values are expanded to first order only, see `C28_negation`. -/

theorem C28_partial (p : HandEyeProblem Corr2) (pb : List (ResBlock Pose6)) (hb : heBuild2 p = .ok pb)
    (hm : MountsRepresentable p.observations) (st : Nat → Pose6)
    (hcam : (st heCam).rot = 0 ∨ (st heCam).rot.normSq > 1 / 2 ^ 52)
    (hz : ∀ f ∈ features p.observations, (inCamera2 (poseCalToEigen (st heCam)).inv (poseCalToEigen (st heTgt)) f).z ≠ 0) :
    residuals pb st =
      reprojErrors2 p.intr (poseCalToEigen (st heCam)).inv (poseCalToEigen (st heTgt)) p.observations := by
  rcases heBuild2_cases p with ⟨-, h⟩ | ⟨-, h⟩
  · rw [h] at hb; cases hb
    rw [residuals_map]
    apply flatMap_congr'
    intro f hf
    have := hm f.1 (mem_features.1 hf).1
    exact heBlock2_residual _ f st this.1 this.2 (rotBlock_rigid hcam) (hz f hf)
  · rw [h] at hb; cases hb

/-- The same for the 3D sensor, without any condition on the depth. -/
theorem C28_partial_3d (p : HandEyeProblem Corr3) (hm : MountsRepresentable p.observations) (st : Nat → Pose6)
    (hcam : (st heCam).rot = 0 ∨ (st heCam).rot.normSq > 1 / 2 ^ 52) :
    residuals (heBuild3 p) st =
      reprojErrors3 (poseCalToEigen (st heCam)).inv (poseCalToEigen (st heTgt)) p.observations := by
  rw [heBuild3_eq, residuals_map]
  apply flatMap_congr'
  intro f hf
  have := hm f.1 (mem_features.1 hf).1
  exact heBlock3_residual f st this.1 this.2 (rotBlock_rigid hcam)

/-- The reported final cost is that of the reported transforms. -/
theorem C28_partial_reported (s : Ceres Pose6) (p : HandEyeProblem Corr2) (res : HandEyeResult)
    (h : handEye2 s p = .ok res) (hm : MountsRepresentable p.observations) :
    ∃ cam tgt : Pose6, res.cameraMountToCamera = (poseCalToEigen cam).inv ∧ res.targetMountToTarget = poseCalToEigen tgt ∧
      ((cam.rot = 0 ∨ cam.rot.normSq > 1 / 2 ^ 52) →
        (∀ f ∈ features p.observations, (inCamera2 res.cameraMountToCamera res.targetMountToTarget f).z ≠ 0) →
        features p.observations ≠ [] →
        res.finalCost = some (((reprojErrors2 p.intr res.cameraMountToCamera res.targetMountToTarget
          p.observations).map fun r => r * r).sum / 2 / (2 * (features p.observations).length))) := by
  unfold handEye2 at h
  rw [Res.bind_ok_iff] at h
  obtain ⟨pb, hb, h⟩ := h
  unfold heFinish at h
  simp only [Res.bind_ok_iff] at h
  obtain ⟨cov, -, h⟩ := h
  cases h
  refine ⟨s.solve pb (heInit p) heCam, s.solve pb (heInit p) heTgt, rfl, rfl, ?_⟩
  intro hcam hz hne
  have hr := C28_partial p pb hb hm _ hcam hz
  have hl : ∀ (l : List (Obs Corr2 × Corr2)) (X Y : Iso),
      (l.flatMap fun f => diff2 (pinhole p.intr (inCamera2 X Y f)) f.2.inImage).length = 2 * l.length := by
    intro l X Y; simp [List.length_flatMap, diff2]; ring
  have hpos : 0 < (features p.observations).length := List.length_pos_iff.2 hne
  simp only [costPerObs, cost, hr]
  rw [reprojErrors2, hl, if_neg (by omega)]
  push_cast
  rfl

/-- A state with a tiny camera rotation: the residual is not the reprojection error of the reported pose. -/
theorem C28_negation : ∃ (p : HandEyeProblem Corr2) (pb : List (ResBlock Pose6)) (st : Nat → Pose6),
    heBuild2 p = .ok pb ∧ MountsRepresentable p.observations ∧
    (∀ f ∈ features p.observations, (inCamera2 (poseCalToEigen (st heCam)).inv (poseCalToEigen (st heTgt)) f).z ≠ 0) ∧
    residuals pb st ≠
      reprojErrors2 p.intr (poseCalToEigen (st heCam)).inv (poseCalToEigen (st heTgt)) p.observations := by
  obtain ⟨p, hp⟩ : ∃ p : HandEyeProblem Corr2, p =
      ⟨[⟨[⟨⟨0, 0⟩, ⟨1, 0, 1⟩⟩], 1, 1⟩], ⟨1, 1, 0, 0⟩, 1, 1, "", "", labelsIsometry3d⟩ := ⟨_, rfl⟩
  have hI : ∀ v : V3, targetPointInCamera 1 1 v (poseEigenToCal 1) (poseEigenToCal 1) = v := by
    intro v
    rw [targetPointInCamera_eq Representable.one Representable.one, Representable.one.roundtrip]; simp
  have hf : features p.observations = [(⟨[⟨⟨0, 0⟩, ⟨1, 0, 1⟩⟩], 1, 1⟩, ⟨⟨0, 0⟩, ⟨1, 0, 1⟩⟩)] := by
    rw [hp]; simp [features]
  have hb : heBuild2 p = .ok ((features p.observations).map (heBlock2 p.intr)) := by
    rcases heBuild2_cases p with ⟨-, h⟩ | ⟨⟨f, h1, h2⟩, -⟩
    · exact h
    · rw [hf, List.mem_singleton] at h1
      subst h1
      exfalso; apply h2
      unfold heVisible
      have : heInit p heCam = poseEigenToCal 1 ∧ heInit p heTgt = poseEigenToCal 1 := by
        rw [hp]; simp [heInit, heCam, heTgt]
      rw [this.1, this.2]
      simp only [Iso.inv_one, hI]
      norm_num
  have hsmall : ¬ (⟨1 / 10 ^ 9, 0, 0, 0, 0, 1⟩ : Pose6).rot.normSq > dblEps := by
    simp only [Pose6.rot, V3.normSq, V3.dot, dblEps]; norm_num
  have hzero : poseCalToEigen ⟨0, 0, 0, 0, 0, 0⟩ = 1 := poseCalToEigen_zero (p := ⟨0, 0, 0, 0, 0, 0⟩) rfl
  obtain ⟨st, hst⟩ : ∃ st : Nat → Pose6, st = fun a => if a = heTgt then ⟨0, 0, 0, 0, 0, 0⟩ else ⟨1 / 10 ^ 9, 0, 0, 0, 0, 1⟩ :=
    ⟨_, rfl⟩
  have s0 : st heCam = ⟨1 / 10 ^ 9, 0, 0, 0, 0, 1⟩ := by rw [hst]; simp [heCam, heTgt]
  have s1 : st heTgt = ⟨0, 0, 0, 0, 0, 0⟩ := by rw [hst]; simp
  have hspec : inCamera2 (poseCalToEigen (st heCam)).inv (poseCalToEigen (st heTgt))
      (⟨[⟨⟨0, 0⟩, ⟨1, 0, 1⟩⟩], 1, 1⟩, ⟨⟨0, 0⟩, ⟨1, 0, 1⟩⟩) = ⟨1, -(1 / 10 ^ 9), 2 + (1 / 10 ^ 9) ^ 2⟩ := by
    rw [s0, s1, hzero, poseCalToEigen_small hsmall]
    simp only [inCamera2, targetInCamera, Iso.inv_one, Iso.mul_one]
    simp only [Iso.inv, Iso.apply, M3.tr, M3.mulVec, Pose6.rot, Pose6.trans]
    ext <;> norm_num
  have hcode : targetPointInCamera 1 1 ⟨1, 0, 1⟩ (st heCam) (st heTgt) = ⟨1, -(1 / 10 ^ 9), 2⟩ := by
    rw [targetPointInCamera_eq Representable.one Representable.one, s0, s1, hzero, poseCalToEigen_small hsmall]
    simp only [Iso.apply_one]
    simp only [Iso.apply, M3.mulVec, Pose6.rot, Pose6.trans]
    ext <;> norm_num
  refine ⟨p, _, st, hb, ?_, ?_, ?_⟩
  · rw [hp]; intro o ho
    simp only [List.mem_singleton] at ho
    rw [ho]; exact ⟨Representable.one, Representable.one⟩
  · intro f h1
    rw [hf, List.mem_singleton] at h1
    rw [h1, hspec]; norm_num
  · unfold reprojErrors2
    rw [residuals_map, hf]
    simp only [List.flatMap_cons, List.flatMap_nil, List.append_nil]
    rw [hspec]
    simp only [heBlock2, ResBlock.residual, List.map_cons, List.map_nil, eval2, handEyeCost2, Iso.inv_one]
    rw [hcode]
    rw [hp]
    simp only [projectPoint, pinhole, diff2]
    intro h
    have := List.cons.inj h |>.1
    norm_num at this

/-- Non-vacuity: a moved camera on a wrist with rotated mounts. -/
example : MountsRepresentable [(⟨[⟨⟨0, 0⟩, ⟨1, 0, 1⟩⟩], exRotX (1 / 2), 1⟩ : Obs Corr2)] := by
  intro o ho
  simp only [List.mem_singleton] at ho
  rw [ho]; exact ⟨exRotX_representable _ (by norm_num) (by norm_num), Representable.one⟩

/-! ## C29 Perfect hand-eye data has zero cost at the truth

Full statement: for all true transforms and mount poses. Proved for transforms the six values represent exactly; for
smaller rotations it is false, `C29_negation`. -/

theorem C29_partial (p : HandEyeProblem Corr2) (pb : List (ResBlock Pose6)) (hb : heBuild2 p = .ok pb)
    (hm : MountsRepresentable p.observations) (Xc Xt : Iso) (hc : Representable Xc) (ht : Representable Xt)
    (hdata : ∀ f ∈ features p.observations, (inCamera2 Xc Xt f).z ≠ 0 ∧ f.2.inImage = pinhole p.intr (inCamera2 Xc Xt f))
    (st : Nat → Pose6) (h0 : st heCam = poseEigenToCal Xc.inv) (h1 : st heTgt = poseEigenToCal Xt) :
    (∀ r ∈ residuals pb st, r = 0) ∧ cost pb st = 0 ∧ ∀ st', cost pb st ≤ cost pb st' := by
  have e0 : (poseCalToEigen (st heCam)).inv = Xc := by rw [h0, hc.inv.roundtrip, Iso.inv_inv hc.rigid]
  have e1 : poseCalToEigen (st heTgt) = Xt := by rw [h1, ht.roundtrip]
  have hrig : (poseCalToEigen (st heCam)).IsRigid := by rw [h0, hc.inv.roundtrip]; exact hc.inv.rigid
  have hr := C28_partial p pb hb hm st ((poseCalToEigen_rigid_iff _).1 hrig) (by
    intro f hf; rw [e0, e1]; exact (hdata f hf).1)
  rw [e0, e1] at hr
  have hzero : ∀ r ∈ residuals pb st, r = 0 := by
    intro r h
    rw [hr] at h
    simp only [reprojErrors2, List.mem_flatMap] at h
    obtain ⟨f, hf, h⟩ := h
    rw [(hdata f hf).2] at h
    simp only [diff2, sub_self, List.mem_cons, List.not_mem_nil, or_false, or_self] at h
    exact h
  have hcost := cost_zero hzero
  exact ⟨hzero, hcost, fun st' => by rw [hcost]; exact cost_nonneg _ _⟩

theorem C29_partial_3d (p : HandEyeProblem Corr3) (hm : MountsRepresentable p.observations) (Xc Xt : Iso)
    (hc : Representable Xc) (ht : Representable Xt)
    (hdata : ∀ f ∈ features p.observations, f.2.inImage = inCamera3 Xc Xt f)
    (st : Nat → Pose6) (h0 : st heCam = poseEigenToCal Xc.inv) (h1 : st heTgt = poseEigenToCal Xt) :
    (∀ r ∈ residuals (heBuild3 p) st, r = 0) ∧ cost (heBuild3 p) st = 0 ∧
      ∀ st', cost (heBuild3 p) st ≤ cost (heBuild3 p) st' := by
  have e0 : (poseCalToEigen (st heCam)).inv = Xc := by rw [h0, hc.inv.roundtrip, Iso.inv_inv hc.rigid]
  have e1 : poseCalToEigen (st heTgt) = Xt := by rw [h1, ht.roundtrip]
  have hrig : (poseCalToEigen (st heCam)).IsRigid := by rw [h0, hc.inv.roundtrip]; exact hc.inv.rigid
  have hr := C28_partial_3d p hm st ((poseCalToEigen_rigid_iff _).1 hrig)
  rw [e0, e1] at hr
  have hzero : ∀ r ∈ residuals (heBuild3 p) st, r = 0 := by
    intro r h
    rw [hr] at h
    simp only [reprojErrors3, List.mem_flatMap] at h
    obtain ⟨f, hf, h⟩ := h
    rw [hdata f hf] at h
    simp only [diff3, sub_self, List.mem_cons, List.not_mem_nil, or_false, or_self] at h
    exact h
  have hcost := cost_zero hzero
  exact ⟨hzero, hcost, fun st' => by rw [hcost]; exact cost_nonneg _ _⟩

/-- Started at the truth on perfect data, every well-behaved solver leaves zero cost. -/
theorem C29_partial_solved (s : Ceres Pose6) (hs : s.WF) (p : HandEyeProblem Corr2) (res : HandEyeResult)
    (h : handEye2 s p = .ok res) (hm : MountsRepresentable p.observations)
    (hc : Representable p.cameraGuess) (ht : Representable p.targetGuess)
    (hdata : ∀ f ∈ features p.observations, (inCamera2 p.cameraGuess p.targetGuess f).z ≠ 0 ∧
      f.2.inImage = pinhole p.intr (inCamera2 p.cameraGuess p.targetGuess f)) :
    ∀ c, res.finalCost = some c → c = 0 := by
  intro c hfc
  unfold handEye2 at h
  rw [Res.bind_ok_iff] at h
  obtain ⟨pb, hb, h⟩ := h
  unfold heFinish at h
  simp only [Res.bind_ok_iff] at h
  obtain ⟨cov, -, h⟩ := h
  cases h
  obtain ⟨-, h0, -⟩ := C29_partial p pb hb hm _ _ hc ht hdata (heInit p) (by simp [heInit, heCam, heTgt])
    (by simp [heInit])
  have hd := hs.descent pb (heInit p)
  rw [h0] at hd
  have hz : cost pb (s.solve pb (heInit p)) = 0 := le_antisymm hd (cost_nonneg _ _)
  simp only [costPerObs] at hfc
  split at hfc
  · cases hfc
  · cases hfc; rw [hz]; simp

/-- One-observation problem with identity mounts and a single feature. -/
noncomputable def exProblem (C T : Iso) (px : V2) (pt : V3) (guessC guessT : Iso) : HandEyeProblem Corr2 :=
  ⟨[⟨[⟨px, pt⟩], C, T⟩], ⟨1, 1, 0, 0⟩, guessT, guessC, "camera", "target", labelsIsometry3d⟩

theorem exProblem_features (C T : Iso) (px : V2) (pt : V3) (gc gt : Iso) :
    features (exProblem C T px pt gc gt).observations = [(⟨[⟨px, pt⟩], C, T⟩, ⟨px, pt⟩)] := by
  simp [exProblem, features]

theorem exProblem_build (C T : Iso) (px : V2) (pt : V3) (gc gt : Iso)
    (h : 0 < (targetPointInCamera C.inv T pt (poseEigenToCal gc.inv) (poseEigenToCal gt)).z) :
    heBuild2 (exProblem C T px pt gc gt) = .ok [heBlock2 ⟨1, 1, 0, 0⟩ (⟨[⟨px, pt⟩], C, T⟩, ⟨px, pt⟩)] := by
  rcases heBuild2_cases (exProblem C T px pt gc gt) with ⟨-, h'⟩ | ⟨⟨f, h1, h2⟩, -⟩
  · rw [h', exProblem_features]; rfl
  · rw [exProblem_features, List.mem_singleton] at h1
    subst h1
    exfalso; apply h2
    unfold heVisible
    simpa [exProblem, heInit, heCam, heTgt] using h

/-- A tiny rotation about x. -/
noncomputable def tinyRot : Iso := ⟨AngleAxis.toMat ⟨1 / 10 ^ 9, ⟨1, 0, 0⟩⟩, 0⟩

theorem tinyRot_rigid : RigidMotion tinyRot :=
  (rigid_iff _).1 (AngleAxis.toMat_isRot (by norm_num [V3.normSq, V3.dot]))

theorem tiny_lt_pi : (1 / 10 ^ 9 : ℝ) < Real.pi := by have := Real.pi_gt_three; norm_num at *; linarith

theorem tinyRot_cal : poseEigenToCal tinyRot = ⟨1 / 10 ^ 9, 0, 0, 0, 0, 0⟩ := by
  unfold tinyRot
  rw [poseEigenToCal_rotX (by norm_num) tiny_lt_pi]
  rfl

theorem tinyRot_inv_cal : poseEigenToCal tinyRot.inv = ⟨-(1 / 10 ^ 9), 0, 0, 0, 0, 0⟩ := by
  unfold tinyRot Iso.inv
  simp only [rotX_tr]
  rw [poseEigenToCal_rotX_neg (by norm_num) tiny_lt_pi]
  simp [M3.mulVec]

theorem tiny_small (e : ℝ) (h : e = 1 / 10 ^ 9 ∨ e = -(1 / 10 ^ 9)) :
    ¬ (⟨e, 0, 0, 0, 0, 0⟩ : Pose6).rot.normSq > dblEps := by
  rcases h with rfl | rfl <;> · simp only [Pose6.rot, V3.normSq, V3.dot, dblEps]; norm_num

theorem tinyRot_act (v : V3) :
    poseTransformPoint (poseEigenToCal tinyRot) v = ⟨v.x, v.y - 1 / 10 ^ 9 * v.z, 1 / 10 ^ 9 * v.y + v.z⟩ := by
  rw [tinyRot_cal, poseTransformPoint_eq, poseCalToEigen_small (tiny_small _ (Or.inl rfl))]
  simp only [Iso.apply, M3.mulVec, Pose6.rot, Pose6.trans]
  ext <;> (simp; try ring)

theorem tinyRot_inv_act (v : V3) :
    poseTransformPoint (poseEigenToCal tinyRot.inv) v = ⟨v.x, v.y + 1 / 10 ^ 9 * v.z, v.z - 1 / 10 ^ 9 * v.y⟩ := by
  rw [tinyRot_inv_cal, poseTransformPoint_eq, poseCalToEigen_small (tiny_small _ (Or.inr rfl))]
  simp only [Iso.apply, M3.mulVec, Pose6.rot, Pose6.trans]
  ext <;> simp <;> ring

theorem tinyRot_apply (v : V3) : tinyRot.apply v = ⟨v.x, Real.cos (1 / 10 ^ 9) * v.y - Real.sin (1 / 10 ^ 9) * v.z,
    Real.sin (1 / 10 ^ 9) * v.y + Real.cos (1 / 10 ^ 9) * v.z⟩ := by
  simp only [tinyRot, Iso.apply, M3.mulVec, AngleAxis.toMat]
  ext <;> simp only [V3.add_x, V3.add_y, V3.add_z, V3.zero_x, V3.zero_y, V3.zero_z] <;> ring

theorem tiny_trig : 0 < Real.cos (1 / 10 ^ 9) ∧ 1 / 10 ^ 9 < Real.tan (1 / 10 ^ 9) := by
  have hp := Real.pi_gt_three
  have h2 : (1 / 10 ^ 9 : ℝ) < Real.pi / 2 := by norm_num at *; linarith
  exact ⟨Real.cos_pos_of_mem_Ioo ⟨by norm_num at *; linarith, h2⟩, Real.lt_tan (by norm_num) h2⟩

/-- Perfect data of a target rotated by 1e-9 rad: the residuals at the truth are not zero. -/
theorem C29_negation : ∃ (p : HandEyeProblem Corr2) (pb : List (ResBlock Pose6)) (Xc Xt : Iso) (st : Nat → Pose6),
    heBuild2 p = .ok pb ∧ RigidMotion Xc ∧ RigidMotion Xt ∧ MountsRepresentable p.observations ∧
    (∀ f ∈ features p.observations, (inCamera2 Xc Xt f).z ≠ 0 ∧ f.2.inImage = pinhole p.intr (inCamera2 Xc Xt f)) ∧
    st heCam = poseEigenToCal Xc.inv ∧ st heTgt = poseEigenToCal Xt ∧ ¬ ∀ r ∈ residuals pb st, r = 0 := by
  obtain ⟨hcos, htan⟩ := tiny_trig
  have hin : ∀ o px, inCamera2 1 tinyRot (⟨o, 1, 1⟩, ⟨px, ⟨0, 0, 1⟩⟩) = ⟨0, -Real.sin (1 / 10 ^ 9), Real.cos (1 / 10 ^ 9)⟩ := by
    intro o px
    simp only [inCamera2, targetInCamera, Iso.inv_one, Iso.one_mul, tinyRot_apply]
    ext <;> simp
  have hcode : ∀ gt : Iso, targetPointInCamera 1 1 ⟨0, 0, 1⟩ (poseEigenToCal 1) (poseEigenToCal gt)
      = poseTransformPoint (poseEigenToCal gt) ⟨0, 0, 1⟩ := by
    intro gt
    rw [targetPointInCamera_eq Representable.one Representable.one, Representable.one.roundtrip, poseTransformPoint_eq]
    simp
  refine ⟨exProblem 1 1 ⟨0, -Real.tan (1 / 10 ^ 9)⟩ ⟨0, 0, 1⟩ 1 1, _, 1, tinyRot,
    fun a => if a = heTgt then poseEigenToCal tinyRot else poseEigenToCal 1, exProblem_build _ _ _ _ _ _ ?_,
    Representable.one.1, tinyRot_rigid, ?_, ?_, ?_, ?_, ?_⟩
  · rw [Iso.inv_one, hcode, Representable.one.act, Iso.apply_one]; norm_num
  · intro o ho
    simp only [exProblem, List.mem_singleton] at ho
    rw [ho]; exact ⟨Representable.one, Representable.one⟩
  · intro f hf
    rw [exProblem_features, List.mem_singleton] at hf
    subst hf
    rw [hin]
    refine ⟨hcos.ne', ?_⟩
    simp only [exProblem, pinhole, Real.tan_eq_sin_div_cos]
    ext <;> simp <;> ring
  · simp [heCam, heTgt]
  · simp
  · intro h
    have := h (-(1 / 10 ^ 9) - -Real.tan (1 / 10 ^ 9)) (by
      simp only [residuals, heBlock2, ResBlock.residual, List.map_cons, List.map_nil, eval2, handEyeCost2, Iso.inv_one,
        List.flatMap_cons, List.flatMap_nil, List.append_nil]
      rw [if_neg (by decide), if_pos trivial, hcode, tinyRot_act]
      simp [projectPoint])
    linarith

/-! ## C30 Hand-eye cost ignores the choice of base frame

Full statement: for every rigid base change. Proved when the mount poses before and after are exactly representable; a
tiny base change breaks it, `C30_negation`. -/

theorem targetPoint_rebase {B C T : Iso} (hB : RigidMotion B) (hC : Representable C) (hT : Representable T)
    (hC' : Representable (B * C)) (hT' : Representable (B * T)) (pt : V3) (cam tgt : Pose6) :
    targetPointInCamera (B * C).inv (B * T) pt cam tgt = targetPointInCamera C.inv T pt cam tgt := by
  have hb := (rigid_iff B).2 hB
  rw [targetPointInCamera_eq hC'.inv hT', targetPointInCamera_eq hC.inv hT, Iso.mul_inv_rev hb]
  simp only [Iso.apply_mul, Iso.inv_apply_apply hb]

theorem features_rebase {κ : Type} (B : Iso) (os : List (Obs κ)) :
    features (rebase B os) =
      (features os).map fun f => (⟨f.1.corrs, B * f.1.toCameraMount, B * f.1.toTargetMount⟩, f.2) := by
  simp [features, rebase, List.flatMap_map, List.map_flatMap, Function.comp_def]

/-- The problem is built exactly when the original one is, and has the same residuals at every parameter state. -/
theorem C30_partial (p : HandEyeProblem Corr2) (B : Iso) (hB : RigidMotion B) (hm : MountsRepresentable p.observations)
    (hm' : MountsRepresentable (rebase B p.observations)) :
    ((heBuild2 { p with observations := rebase B p.observations }).Returns ↔ (heBuild2 p).Returns) ∧
    ∀ pb pb', heBuild2 p = .ok pb → heBuild2 { p with observations := rebase B p.observations } = .ok pb' →
      ∀ st, residuals pb' st = residuals pb st := by
  have hpt : ∀ f ∈ features p.observations, ∀ cam tgt,
      targetPointInCamera (B * f.1.toCameraMount).inv (B * f.1.toTargetMount) f.2.inTarget cam tgt =
        targetPointInCamera f.1.toCameraMount.inv f.1.toTargetMount f.2.inTarget cam tgt := by
    intro f hf cam tgt
    have h1 := hm f.1 (mem_features.1 hf).1
    have h2 := hm' ⟨f.1.corrs, B * f.1.toCameraMount, B * f.1.toTargetMount⟩
      (by simp only [rebase, List.mem_map]; exact ⟨f.1, (mem_features.1 hf).1, rfl⟩)
    exact targetPoint_rebase hB h1.1 h1.2 h2.1 h2.2 _ _ _
  obtain ⟨p', hp'⟩ : ∃ p', p' = { p with observations := rebase B p.observations } := ⟨_, rfl⟩
  have hi : heInit p' = heInit p := by rw [hp']; rfl
  have hfe : features p'.observations =
      (features p.observations).map fun f => (⟨f.1.corrs, B * f.1.toCameraMount, B * f.1.toTargetMount⟩, f.2) := by
    rw [hp']; exact features_rebase B p.observations
  have hvis : (∀ f ∈ features p'.observations, heVisible p' f) ↔ ∀ f ∈ features p.observations, heVisible p f := by
    rw [hfe]
    simp only [List.forall_mem_map]
    constructor
    · intro h f hf
      have := h f hf
      unfold heVisible at this ⊢
      rw [hi] at this
      simpa only [hpt f hf] using this
    · intro h f hf
      have := h f hf
      unfold heVisible at this ⊢
      rw [hi]
      simpa only [hpt f hf] using this
  rw [← hp']
  constructor
  · rcases heBuild2_cases p with ⟨h1, h2⟩ | ⟨⟨f, h0, h1⟩, h2⟩ <;>
      rcases heBuild2_cases p' with ⟨g1, g2⟩ | ⟨⟨g, g0, g1⟩, g2⟩
    · simp [h2, g2]
    · exact absurd (hvis.2 h1 g g0) g1
    · exact absurd (hvis.1 g1 f h0) h1
    · simp [h2, g2]
  · intro pb pb' hb hb' st
    rcases heBuild2_cases p with ⟨-, h2⟩ | ⟨-, h2⟩
    · rcases heBuild2_cases p' with ⟨-, g2⟩ | ⟨-, g2⟩
      · rw [hb] at h2; rw [hb'] at g2
        cases h2; cases g2
        rw [hfe, List.map_map, residuals_map, residuals_map]
        apply flatMap_congr'
        intro f hf
        simp only [Function.comp, heBlock2, ResBlock.residual, List.map_cons, List.map_nil, eval2, handEyeCost2, hpt f hf,
          hp']
      · rw [hb'] at g2; cases g2
    · rw [hb] at h2; cases h2

theorem C30_negation : ∃ (p : HandEyeProblem Corr2) (B : Iso) (pb pb' : List (ResBlock Pose6)) (st : Nat → Pose6),
    RigidMotion B ∧ MountsRepresentable p.observations ∧ heBuild2 p = .ok pb ∧
    heBuild2 { p with observations := rebase B p.observations } = .ok pb' ∧ residuals pb' st ≠ residuals pb st := by
  have hp : (poseCalToEigen ⟨0, 0, 0, 0, 0, 0⟩) = 1 := poseCalToEigen_zero (p := ⟨0, 0, 0, 0, 0, 0⟩) rfl
  have h1 : ∀ v, targetPointInCamera 1 1 v (poseEigenToCal 1) (poseEigenToCal 1) = v := by
    intro v
    rw [targetPointInCamera_eq Representable.one Representable.one, Representable.one.roundtrip]; simp
  have h2 : targetPointInCamera tinyRot.inv tinyRot ⟨1, 0, 1⟩ (poseEigenToCal 1) (poseEigenToCal 1)
      = ⟨1, 0, 1 + 1 / 10 ^ 9 * (1 / 10 ^ 9)⟩ := by
    unfold targetPointInCamera
    simp only [transformPoint_eq, Representable.one.roundtrip, Iso.apply_one]
    rw [tinyRot_act, tinyRot_inv_act]
    ext <;> norm_num
  have hb1 := exProblem_build 1 1 ⟨0, 0⟩ ⟨1, 0, 1⟩ 1 1 (by rw [Iso.inv_one, h1]; norm_num)
  have hb2 := exProblem_build tinyRot tinyRot ⟨0, 0⟩ ⟨1, 0, 1⟩ 1 1 (by rw [Iso.inv_one, h2]; norm_num)
  have heq : ({ exProblem 1 1 ⟨0, 0⟩ ⟨1, 0, 1⟩ 1 1 with
      observations := rebase tinyRot (exProblem 1 1 ⟨0, 0⟩ ⟨1, 0, 1⟩ 1 1).observations } : HandEyeProblem Corr2)
      = exProblem tinyRot tinyRot ⟨0, 0⟩ ⟨1, 0, 1⟩ 1 1 := by
    simp [exProblem, rebase]
  refine ⟨exProblem 1 1 ⟨0, 0⟩ ⟨1, 0, 1⟩ 1 1, tinyRot, _, _, fun _ => poseEigenToCal 1, tinyRot_rigid, ?_, hb1,
    by rw [heq]; exact hb2, ?_⟩
  · intro o ho
    simp only [exProblem, List.mem_singleton] at ho
    rw [ho]; exact ⟨Representable.one, Representable.one⟩
  · simp only [residuals, heBlock2, ResBlock.residual, List.map_cons, List.map_nil, eval2, handEyeCost2, Iso.inv_one,
        List.flatMap_cons, List.flatMap_nil, List.append_nil, h1, h2]
    intro h
    have := (List.cons.inj h).1
    simp [projectPoint] at this
    norm_num at this

example : RigidMotion (exRotX (1 / 2)) ∧
    MountsRepresentable (rebase (exRotX (1 / 2)) [(⟨[⟨⟨0, 0⟩, ⟨1, 0, 1⟩⟩], 1, 1⟩ : Obs Corr2)]) := by
  refine ⟨exRotX_rigid _, ?_⟩
  intro o ho
  simp only [rebase, List.map_cons, List.map_nil, List.mem_singleton, Iso.mul_one] at ho
  rw [ho]
  exact ⟨exRotX_representable _ (by norm_num) (by norm_num), exRotX_representable _ (by norm_num) (by norm_num)⟩

/-! ## C31 Hand-eye refuses guesses that put features behind the camera

Full statement: for all problems. Proved when mount poses and guesses are exactly representable; `C31_negation` shows a
target rotated by 1e-9 rad with a feature of depth zero that is accepted. -/

theorem heFinish_throw {κ : Type} {s : Ceres Pose6} (hs : s.WF) {p : HandEyeProblem κ} {pb : List (ResBlock Pose6)}
    {e : Exc} (h : heFinish s p pb = .throw e) : e = .covariance ∨ e = .outOfRange := by
  unfold heFinish at h
  simp only at h
  cases hc : computeCovariance (s.covSolver pb (s.solve pb (heInit p)) 6) (s.order pb)
      (SMap.insert (SMap.insert [] heCam (poseLabels p.labels p.labelCamera)) heTgt (poseLabels p.labels p.labelTarget)) [] with
  | ok a => rw [hc] at h; cases h
  | abort => rw [hc] at h; cases h
  | ub => rw [hc] at h; cases h
  | throw e' =>
    rw [hc] at h; cases h
    exact computeCovariance_throw (cs := s.covSolver pb (s.solve pb (heInit p)) 6) (hs.compute_no_throw pb _) hc

theorem heVisible_iff (p : HandEyeProblem Corr2) (hc : Representable p.cameraGuess) (ht : Representable p.targetGuess)
    (f : Obs Corr2 × Corr2) (h1 : Representable f.1.toCameraMount) (h2 : Representable f.1.toTargetMount) :
    heVisible p f ↔ 0 < (inCamera2 p.cameraGuess p.targetGuess f).z := by
  unfold heVisible inCamera2
  have e0 : heInit p heCam = poseEigenToCal p.cameraGuess.inv := by simp [heInit, heCam, heTgt]
  have e1 : heInit p heTgt = poseEigenToCal p.targetGuess := by simp [heInit]
  rw [e0, e1, targetPointInCamera_spec h1 h2 _ _ _ (by rw [hc.inv.roundtrip]; exact hc.inv.rigid), hc.inv.roundtrip,
    ht.roundtrip, Iso.inv_inv hc.rigid]

/-- The calibration throws `std::runtime_error` exactly when some feature has non-positive depth for the guesses. -/
theorem C31_partial (s : Ceres Pose6) (hs : s.WF) (p : HandEyeProblem Corr2) (hm : MountsRepresentable p.observations)
    (hc : Representable p.cameraGuess) (ht : Representable p.targetGuess) :
    handEye2 s p = .throw .runtimeError ↔
      ∃ f ∈ features p.observations, (inCamera2 p.cameraGuess p.targetGuess f).z ≤ 0 := by
  have hv : ∀ f ∈ features p.observations, heVisible p f ↔ 0 < (inCamera2 p.cameraGuess p.targetGuess f).z := by
    intro f hf
    have := hm f.1 (mem_features.1 hf).1
    exact heVisible_iff p hc ht f this.1 this.2
  unfold handEye2
  rcases heBuild2_cases p with ⟨h1, h2⟩ | ⟨⟨f, hf, h1⟩, h2⟩
  · rw [h2, Res.ok_bind]
    constructor
    · intro h
      rcases heFinish_throw hs h with h | h <;> cases h
    · rintro ⟨f, hf, hz⟩
      have := (hv f hf).1 (h1 f hf)
      linarith
  · rw [h2]
    constructor
    · intro _
      exact ⟨f, hf, not_lt.1 (fun h => h1 ((hv f hf).2 h))⟩
    · intro _; rfl

/-- When no feature is behind the camera there is one residual block per feature, in order, on the camera and target pose,
and it is the reprojection error of that feature. -/
theorem C31_partial_blocks (p : HandEyeProblem Corr2) (hm : MountsRepresentable p.observations)
    (hc : Representable p.cameraGuess) (ht : Representable p.targetGuess)
    (hv : ∀ f ∈ features p.observations, 0 < (inCamera2 p.cameraGuess p.targetGuess f).z) :
    ∃ pb, heBuild2 p = .ok pb ∧ List.Forall₂ (fun f b => b.blocks = [heCam, heTgt] ∧
      ∀ st : Nat → Pose6, ((st heCam).rot = 0 ∨ (st heCam).rot.normSq > 1 / 2 ^ 52) →
        (inCamera2 (poseCalToEigen (st heCam)).inv (poseCalToEigen (st heTgt)) f).z ≠ 0 →
        b.residual st = diff2 (pinhole p.intr
          (inCamera2 (poseCalToEigen (st heCam)).inv (poseCalToEigen (st heTgt)) f)) f.2.inImage)
      (features p.observations) pb := by
  refine ⟨(features p.observations).map (heBlock2 p.intr), ?_, ?_⟩
  · rcases heBuild2_cases p with ⟨h1, h2⟩ | ⟨⟨f, hf, h1⟩, h2⟩
    · exact h2
    · have := hm f.1 (mem_features.1 hf).1
      exact absurd ((heVisible_iff p hc ht f this.1 this.2).2 (hv f hf)) h1
  · rw [List.forall₂_map_right_iff, List.forall₂_same]
    intro f hf
    refine ⟨rfl, fun st hcam hz => ?_⟩
    have := hm f.1 (mem_features.1 hf).1
    exact heBlock2_residual _ f st this.1 this.2 (rotBlock_rigid hcam) hz

theorem C31_negation : ∃ p : HandEyeProblem Corr2, MountsRepresentable p.observations ∧ RigidMotion p.cameraGuess ∧
    RigidMotion p.targetGuess ∧ (∃ f ∈ features p.observations, (inCamera2 p.cameraGuess p.targetGuess f).z ≤ 0) ∧
    ∀ s : Ceres Pose6, s.WF → handEye2 s p ≠ .throw .runtimeError := by
  obtain ⟨hcos, htan⟩ := tiny_trig
  refine ⟨exProblem 1 1 ⟨0, 0⟩ ⟨0, -1, Real.tan (1 / 10 ^ 9)⟩ 1 tinyRot, ?_, Representable.one.1, tinyRot_rigid,
    ⟨_, by rw [exProblem_features, List.mem_singleton], ?_⟩, ?_⟩
  · intro o ho
    simp only [exProblem, List.mem_singleton] at ho
    rw [ho]; exact ⟨Representable.one, Representable.one⟩
  · simp only [inCamera2, targetInCamera, exProblem, Iso.inv_one, Iso.one_mul, tinyRot_apply]
    rw [Real.tan_eq_sin_div_cos, mul_div_cancel₀ _ hcos.ne']
    linarith
  · intro s hs h
    have hb := exProblem_build 1 1 ⟨0, 0⟩ ⟨0, -1, Real.tan (1 / 10 ^ 9)⟩ 1 tinyRot (by
      rw [Iso.inv_one, targetPointInCamera_eq Representable.one Representable.one, Representable.one.roundtrip]
      simp only [Iso.apply_one, ← poseTransformPoint_eq]
      rw [tinyRot_act]
      simp only
      linarith)
    unfold handEye2 at h
    rw [hb, Res.ok_bind] at h
    rcases heFinish_throw hs h with h | h <;> cases h

example : (inCamera2 1 (exRotX (1 / 2)) (⟨[⟨⟨0, 0⟩, ⟨0, 0, 1⟩⟩], 1, 1⟩, ⟨⟨0, 0⟩, ⟨0, 0, 1⟩⟩)).z > 0 := by
  have : 0 < Real.cos (1 / 2) := Real.cos_pos_of_mem_Ioo ⟨by have := Real.pi_gt_three; linarith, by have := Real.pi_gt_three; linarith⟩
  simp only [inCamera2, targetInCamera, Iso.inv_one, Iso.one_mul, exRotX, Iso.apply, M3.mulVec, AngleAxis.toMat]
  simp
  norm_num at this
  linarith

/-! ## C32 Covariance labels of calibrated poses name the right parameter (hand-eye)

Full statement: the standard deviation labelled with a component name is that of this component. The code is wrong for
every run that returns: the six values are stored rotation first, the labels are translation first. -/

theorem heFinish_ok {κ : Type} {s : Ceres Pose6} {p : HandEyeProblem κ} {pb : List (ResBlock Pose6)} {res : HandEyeResult}
    (h : heFinish s p pb = .ok res) :
    computeCovariance (s.covSolver pb (s.solve pb (heInit p)) 6) (s.order pb)
      (SMap.insert (SMap.insert [] heCam (poseLabels p.labels p.labelCamera)) heTgt (poseLabels p.labels p.labelTarget)) []
        = .ok res.covariance ∧
    res.targetMountToTarget = poseCalToEigen (s.solve pb (heInit p) heTgt) ∧
    res.cameraMountToCamera = (poseCalToEigen (s.solve pb (heInit p) heCam)).inv := by
  unfold heFinish at h
  simp only [Res.bind_ok_iff] at h
  obtain ⟨cov, hc, h⟩ := h
  cases h
  exact ⟨hc, rfl, rfl⟩

/-- Which parameter each reported standard deviation belongs to: entry `k` of the report is the `k`-th stored parameter
of the two pose blocks (in the order ceres lists them); its label is the pose label and the `i`-th of the configured
labels, where `i` is the position of the parameter in the block. -/
theorem heFinish_labels {α κ : Type} (s : Ceres Pose6) (hs : s.WF) (p : HandEyeProblem κ) (l : List α)
    (g : α → ResBlock Pose6) (hg : ∀ a ∈ l, (g a).blocks = [heCam, heTgt]) (res : HandEyeResult)
    (h : heFinish s p (l.map g) = .ok res) :
    l ≠ [] ∧ ∃ (order : List Nat) (full : Nat → Nat → ℝ), order.Perm [heCam, heTgt] ∧
      s.covMatrix (l.map g) (s.solve (l.map g) (heInit p)) order = some full ∧
      res.covariance.standard_deviations.length = 12 ∧
      ∀ k b i : Nat, (elements (fun _ => 6) order)[k]? = some (b, i) →
        res.covariance.covariance_matrix.val k k = full k k ∧
        ∃ lab, p.labels[i]? = some lab ∧ res.covariance.standard_deviations[k]? =
          some ⟨(if b = heCam then p.labelCamera else p.labelTarget) ++ "_" ++ lab, "",
            res.covariance.correlation_matrix.val k k⟩ := by
  obtain ⟨hcov, -, -⟩ := heFinish_ok h
  have hne : l ≠ [] := by
    rintro rfl
    have hsz := (C26_returns _ _ _ _ _ hcov).1
    have : s.order (List.map g []) = [] := by
      have := hs.order_perm (List.map g [])
      simp only [List.map_nil, usedBlocks_nil] at this
      exact List.perm_nil.1 this
    rw [this] at hsz
    simp [SMap.size, SMap.insert, heCam, heTgt] at hsz
  have hperm : (s.order (l.map g)).Perm [heCam, heTgt] :=
    (hs.order_perm _).trans (usedBlocks_const l hne g _ (by decide) hg)
  have hused : ∀ b ∈ s.order (l.map g), b ∈ usedBlocks (l.map g) := fun b hb => (hs.order_perm _).subset hb
  have hbs : elements (fun b => ((s.covSolver (l.map g) (s.solve (l.map g) (heInit p)) 6).blockSize b).getD 0)
      (s.order (l.map g)) = elements (fun _ => 6) (s.order (l.map g)) := by
    unfold elements
    apply flatMap_congr'
    intro b hb
    simp [Ceres.covSolver, hused b hb]
  obtain ⟨full, h1, h2, -, h4⟩ := computeCovariance_unmasked (by
    intro b n hb
    simp only [Ceres.covSolver] at hb
    split at hb
    · cases hb; norm_num
    · cases hb) hcov
  rw [hbs] at h2 h4
  refine ⟨hne, s.order (l.map g), full, hperm, h1, ?_, ?_⟩
  · rw [h2]
    simp only [elements, List.length_flatMap, List.length_map, List.length_range]
    rw [List.map_const', List.sum_replicate, hperm.length_eq]; rfl
  · intro k b i hk
    obtain ⟨h5, lab, str, h6, h7, h8⟩ := h4 k b i hk
    refine ⟨h5 k b i hk, ?_⟩
    have hb : b ∈ [heCam, heTgt] := by
      have := List.mem_of_getElem? hk
      simp only [elements, List.mem_flatMap, List.mem_map] at this
      obtain ⟨b', hb', i', -, h⟩ := this
      cases h
      exact hperm.subset hb'
    rw [SMap.find_insert, SMap.find_insert] at h6
    have hcase : lab = poseLabels p.labels (if b = heCam then p.labelCamera else p.labelTarget) := by
      simp only [List.mem_cons, List.not_mem_nil, or_false] at hb
      rcases hb with rfl | rfl
      · rw [if_neg (by decide), if_pos rfl] at h6; cases h6; rw [if_pos rfl]
      · rw [if_pos rfl] at h6; cases h6; rw [if_neg (by decide)]
    rw [hcase] at h7
    unfold poseLabels at h7
    rw [List.getElem?_map, Option.map_eq_some_iff] at h7
    obtain ⟨x, hx, rfl⟩ := h7
    exact ⟨x, hx, h8⟩

theorem C32_partial (s : Ceres Pose6) (hs : s.WF) (p : HandEyeProblem Corr2) (res : HandEyeResult)
    (h : handEye2 s p = .ok res) :
    ∃ order : List Nat, order.Perm [heCam, heTgt] ∧ res.covariance.standard_deviations.length = 12 ∧
      ∀ k b i : Nat, (elements (fun _ => 6) order)[k]? = some (b, i) →
        ∃ lab, p.labels[i]? = some lab ∧ res.covariance.standard_deviations[k]? =
          some ⟨(if b = heCam then p.labelCamera else p.labelTarget) ++ "_" ++ lab, "",
            res.covariance.correlation_matrix.val k k⟩ := by
  unfold handEye2 at h
  rw [Res.bind_ok_iff] at h
  obtain ⟨pb, hb, h⟩ := h
  rcases heBuild2_cases p with ⟨-, h2⟩ | ⟨-, h2⟩
  · rw [h2] at hb; cases hb
    obtain ⟨-, order, full, h1, -, h3, h4⟩ := heFinish_labels s hs p _ _ (fun _ _ => rfl) res h
    exact ⟨order, h1, h3, fun k b i hk => (h4 k b i hk).2⟩
  · rw [h2] at hb; cases hb

theorem C32_partial_3d (s : Ceres Pose6) (hs : s.WF) (p : HandEyeProblem Corr3) (res : HandEyeResult)
    (h : handEye3 s p = .ok res) :
    ∃ order : List Nat, order.Perm [heCam, heTgt] ∧ res.covariance.standard_deviations.length = 12 ∧
      ∀ k b i : Nat, (elements (fun _ => 6) order)[k]? = some (b, i) →
        ∃ lab, p.labels[i]? = some lab ∧ res.covariance.standard_deviations[k]? =
          some ⟨(if b = heCam then p.labelCamera else p.labelTarget) ++ "_" ++ lab, "",
            res.covariance.correlation_matrix.val k k⟩ := by
  unfold handEye3 at h
  rw [heBuild3_eq] at h
  obtain ⟨-, order, full, h1, -, h3, h4⟩ := heFinish_labels s hs p _ _ (fun _ _ => rfl) res h
  exact ⟨order, h1, h3, fun k b i hk => (h4 k b i hk).2⟩

theorem append_label_ne {a x y : String} (h : x ≠ y) : a ++ "_" ++ x ≠ a ++ "_" ++ y := by
  intro he
  apply h
  have := congrArg String.toList he
  simp only [String.toList_append, List.append_cancel_left_eq] at this
  exact String.toList_injective this

/-- In every run that returns, with the default labels, every one of the twelve labels names a different component
than the parameter it is attached to. -/
theorem C32_negation (s : Ceres Pose6) (hs : s.WF) (p : HandEyeProblem Corr2) (hl : p.labels = ["x", "y", "z", "rx", "ry", "rz"])
    (res : HandEyeResult) (h : handEye2 s p = .ok res) :
    ∃ order : List Nat, order.Perm [heCam, heTgt] ∧ ∀ k b i : Nat, (elements (fun _ => 6) order)[k]? = some (b, i) →
      ∃ n name, componentNames[i]? = some n ∧ (res.covariance.standard_deviations[k]?).map NamedParam.first = some name ∧
        name ≠ (if b = heCam then p.labelCamera else p.labelTarget) ++ "_" ++ n := by
  obtain ⟨order, h1, h2, h3⟩ := C32_partial s hs p res h
  refine ⟨order, h1, fun k b i hk => ?_⟩
  obtain ⟨lab, h4, h5⟩ := h3 k b i hk
  have hi : i < 6 := by
    have := List.mem_of_getElem? hk
    simp only [elements, List.mem_flatMap, List.mem_map, List.mem_range, Prod.mk.injEq] at this
    obtain ⟨_, _, i', hi', _, rfl⟩ := this
    exact hi'
  rw [hl] at h4
  obtain ⟨n, hn, hne⟩ : ∃ n, componentNames[i]? = some n ∧ lab ≠ n := by
    unfold componentNames
    rcases i with _ | _ | _ | _ | _ | _ | i <;> simp at h4 ⊢ <;> first | omega | (subst h4; decide)
  exact ⟨n, _, hn, by rw [h5]; rfl, append_label_ne hne⟩

/-- Non-vacuity: a run that returns a report. -/
theorem exProblem_returns (px : V2) : ∃ res, handEye2 (idCeres Pose6) (exProblem 1 1 px ⟨0, 0, 1⟩ 1 1) = .ok res := by
  have hb := exProblem_build 1 1 px ⟨0, 0, 1⟩ 1 1 (by
    rw [Iso.inv_one, targetPointInCamera_eq Representable.one Representable.one, Representable.one.roundtrip]; simp)
  have hperm := usedBlocks_const [()] (by simp) (fun _ => heBlock2 ⟨1, 1, 0, 0⟩
    (⟨[⟨px, ⟨0, 0, 1⟩⟩], 1, 1⟩, ⟨px, ⟨0, 0, 1⟩⟩)) [heCam, heTgt] (by decide) (fun _ _ => rfl)
  simp only [List.map_cons, List.map_nil] at hperm
  obtain ⟨pb, hpb⟩ : ∃ pb, pb = [heBlock2 ⟨1, 1, 0, 0⟩ (⟨[⟨px, ⟨0, 0, 1⟩⟩], 1, 1⟩, ⟨px, ⟨0, 0, 1⟩⟩)] := ⟨_, rfl⟩
  obtain ⟨p, hp⟩ : ∃ p, p = exProblem 1 1 px ⟨0, 0, 1⟩ 1 1 := ⟨_, rfl⟩
  rw [← hpb] at hperm hb
  rw [← hp] at hb ⊢
  have hlen : p.labels.length = 6 := by rw [hp]; rfl
  unfold handEye2
  rw [hb, Res.ok_bind]
  unfold heFinish
  obtain ⟨cov, hc⟩ := computeCovariance_returns
    (cs := (idCeres Pose6).covSolver pb ((idCeres Pose6).solve pb (heInit p)) 6) (blocks := (idCeres Pose6).order pb)
    (names := SMap.insert (SMap.insert [] heCam (poseLabels p.labels p.labelCamera)) heTgt
      (poseLabels p.labels p.labelTarget)) (masks := [])
    (by
      show SMap.size _ = (usedBlocks pb).length
      rw [hperm.length_eq]; rfl)
    (by
      intro b hb'
      have hu : b ∈ usedBlocks pb := hb'
      refine ⟨poseLabels p.labels (if b = heCam then p.labelCamera else p.labelTarget), ?_, ?_⟩
      · have := hperm.subset hu
        simp only [List.mem_cons, List.not_mem_nil, or_false] at this
        rw [SMap.find_insert, SMap.find_insert]
        rcases this with rfl | rfl
        · rw [if_neg (by decide), if_pos rfl, if_pos rfl]
        · rw [if_pos rfl, if_neg (by decide)]
      · simp [Ceres.covSolver, hu, poseLabels, hlen])
    rfl rfl
  exact ⟨_, (Res.bind_ok_iff _ _ _).2 ⟨cov, hc, rfl⟩⟩

/-! ## C34 Guess is returned when the solver does not move (hand-eye) -/

theorem C34_hand_eye {κ : Type} (s : Ceres Pose6) (p : HandEyeProblem κ) (pb : List (ResBlock Pose6)) (res : HandEyeResult)
    (hstay : s.solve pb (heInit p) = heInit p) (hc : Representable p.cameraGuess) (ht : Representable p.targetGuess)
    (h : heFinish s p pb = .ok res) :
    res.cameraMountToCamera = p.cameraGuess ∧ res.targetMountToTarget = p.targetGuess := by
  obtain ⟨-, h1, h2⟩ := heFinish_ok h
  rw [hstay] at h1 h2
  have e0 : heInit p heCam = poseEigenToCal p.cameraGuess.inv := by simp [heInit, heCam, heTgt]
  have e1 : heInit p heTgt = poseEigenToCal p.targetGuess := by simp [heInit]
  rw [h1, h2, e0, e1, hc.inv.roundtrip, ht.roundtrip, Iso.inv_inv hc.rigid]
  exact ⟨rfl, rfl⟩

/-- For the two public entry points. -/
theorem C34_hand_eye_2d (s : Ceres Pose6) (p : HandEyeProblem Corr2) (res : HandEyeResult)
    (hstay : ∀ pb st, s.solve pb st = st) (hc : Representable p.cameraGuess) (ht : Representable p.targetGuess)
    (h : handEye2 s p = .ok res) :
    res.cameraMountToCamera = p.cameraGuess ∧ res.targetMountToTarget = p.targetGuess := by
  unfold handEye2 at h
  rw [Res.bind_ok_iff] at h
  obtain ⟨pb, -, h⟩ := h
  exact C34_hand_eye s p pb res (hstay _ _) hc ht h

theorem C34_hand_eye_3d (s : Ceres Pose6) (p : HandEyeProblem Corr3) (res : HandEyeResult)
    (hstay : ∀ pb st, s.solve pb st = st) (hc : Representable p.cameraGuess) (ht : Representable p.targetGuess)
    (h : handEye3 s p = .ok res) :
    res.cameraMountToCamera = p.cameraGuess ∧ res.targetMountToTarget = p.targetGuess :=
  C34_hand_eye s p _ res (hstay _ _) hc ht h

end RCT
