import Verif.Model.StaticCameras
import Verif.Spec.StaticCameras
import Verif.Lemmas.Loops
import Verif.Lemmas.Maps
import Verif.Props.PnP

/-!
# C37 – C41 and the static camera part of C32
-/

namespace RCT
open Spec

theorem Iso.IsRigid.of_inv {a : Iso} (h : a.inv.IsRigid) : a.IsRigid := by
  have := M3.IsRot.tr h
  simp only [Iso.inv, M3.tr_tr] at this
  exact this

/-! ## C37 Wrist-only calibration keeps the relative camera poses -/

theorem M3.cancel_left {A B C : M3} (h : A.det ≠ 0) (he : A * B = A * C) : B = C := by
  have key : ∀ X : M3, A.adj * (A * X) = ⟨A.det * X.m00, A.det * X.m01, A.det * X.m02, A.det * X.m10, A.det * X.m11,
      A.det * X.m12, A.det * X.m20, A.det * X.m21, A.det * X.m22⟩ := by
    intro X; simp only [M3.mul_def, M3.adj, M3.det]; ext <;> simp only <;> ring
  have h2 := key B
  rw [he, key C] at h2
  simp only [M3.mk.injEq, mul_right_inj' h] at h2
  ext1 <;> simp [h2]

theorem M3.mulVec_cancel {A : M3} {v w : V3} (h : A.det ≠ 0) (he : A.mulVec v = A.mulVec w) : v = w := by
  have key : ∀ x : V3, A.adj.mulVec (A.mulVec x) = V3.smul A.det x := by
    intro X; ext <;> simp [M3.adj, M3.det, M3.mulVec] <;> ring
  have h2 := key v
  rw [he, key w] at h2
  have hx := congrArg V3.x h2
  have hy := congrArg V3.y h2
  have hz := congrArg V3.z h2
  simp only [V3.smul, mul_right_inj' h] at hx hy hz
  ext1 <;> simp [hx, hy, hz]

theorem Iso.cancel_left {a b c : Iso} (h : a.R.det ≠ 0) (he : a * b = a * c) : b = c := by
  have h1 := congrArg Iso.R he
  have h2 := congrArg Iso.t he
  simp only [Iso.mul_R, Iso.mul_t] at h1 h2
  ext1
  · exact M3.cancel_left h h1
  · apply M3.mulVec_cancel h
    ext
    · have := congrArg V3.x h2; simpa using this
    · have := congrArg V3.y h2; simpa using this
    · have := congrArg V3.z h2; simpa using this

theorem poseCalToEigen_det_ne (p : Pose6) : (poseCalToEigen p).R.det ≠ 0 := by
  by_cases h : p.rot.normSq > dblEps
  · rw [(show (poseCalToEigen p).R.IsRot from poseCalToEigen_rigid h).2]; norm_num
  · rw [poseCalToEigen_small_det h]
    have := V3.normSq_nonneg p.rot
    linarith

/-- For every pair of cameras and every transform `D`: the reported poses are related by `D` exactly when the guesses
are. Holds for every solver result, rigid or not. -/
theorem C37_relative (s : Ceres Pose6) (p : WoProblem) (res : WoResult) (h : wristOnly s p = .ok res) :
    res.baseToCamera.length = p.baseToCameraGuess.length ∧
    ∀ (i j : Nat) (gi gj ci cj : Iso), p.baseToCameraGuess[i]? = some gi → p.baseToCameraGuess[j]? = some gj →
      res.baseToCamera[i]? = some ci → res.baseToCamera[j]? = some cj → ∀ D : Iso, cj = ci * D ↔ gj = gi * D := by
  unfold wristOnly at h
  rw [Res.bind_ok_iff] at h
  obtain ⟨pb, -, h⟩ := h
  cases h
  refine ⟨by simp, ?_⟩
  intro i j gi gj ci cj hi hj hci hcj D
  rw [List.getElem?_map, hi] at hci
  rw [List.getElem?_map, hj] at hcj
  cases hci; cases hcj
  rw [Iso.mul_assoc]
  constructor
  · refine Iso.cancel_left ?_
    show ((poseCalToEigen _).R.tr).det ≠ 0
    rw [M3.det_tr]; exact poseCalToEigen_det_ne _
  · rintro rfl; rfl

/-- In the usual form, for rigid guesses and a rigid reported camera. -/
theorem C37_relative_inv (s : Ceres Pose6) (p : WoProblem) (res : WoResult) (h : wristOnly s p = .ok res)
    (i j : Nat) (gi gj ci cj : Iso) (hi : p.baseToCameraGuess[i]? = some gi) (hj : p.baseToCameraGuess[j]? = some gj)
    (hci : res.baseToCamera[i]? = some ci) (hcj : res.baseToCamera[j]? = some cj) (hgi : RigidMotion gi)
    (hr : RigidMotion ci) : ci.inv * cj = gi.inv * gj := by
  have hgi' := (rigid_iff _).2 hgi
  have hr' := (rigid_iff _).2 hr
  have := ((C37_relative s p res h).2 i j gi gj ci cj hi hj hci hcj (gi.inv * gj)).2
    (Iso.mul_inv_cancel_left hgi' _).symm
  rw [this, Iso.inv_mul_cancel_left hr']

example : ∃ res, wristOnly (idCeres Pose6) ⟨[⟨1, 1, 0, 0⟩, ⟨1, 1, 0, 0⟩], [1], [[[]], [[⟨⟨0, 0⟩, ⟨0, 0, 1⟩⟩]]], 1,
    [1, exRotX 1]⟩ = .ok res := by
  simp only [wristOnly, woBuild, Res.bind_ok_iff]
  exact ⟨_, _, rfl, rfl⟩

/-! ## C38 Wrist-only residual matches the reported cameras -/

theorem woCost_eq (obs : V2) (intr : Intr) {w g : Iso} (hw : Representable w) (hg : Representable g) (pt : V3)
    (corr tgt : Pose6) (hc : (poseCalToEigen corr).IsRigid)
    (hz : staticDepth ((poseCalToEigen corr).inv * g) (w * poseCalToEigen tgt) ⟨obs, pt⟩ ≠ 0) :
    woCost obs intr w g pt corr tgt =
      staticError intr ((poseCalToEigen corr).inv * g) (w * poseCalToEigen tgt) ⟨obs, pt⟩ := by
  unfold staticDepth at hz
  unfold woCost staticError diff2
  simp only [transformPoint_eq, hw.act, hg.inv.act]
  rw [Iso.mul_inv_rev hc.inv, Iso.inv_inv hc] at hz ⊢
  simp only [Iso.apply_mul] at hz ⊢
  rw [C02_pinhole _ _ hz]

/-- The blocks of the problem, one per feature. -/
theorem woBuild_blocks {p : WoProblem} {pb : List (ResBlock Pose6)} (h : woBuild p = .ok pb) :
    List.Forall₂ (fun f b => ∃ intr w g, p.intr[f.cam]? = some intr ∧ p.wristPoses[f.img]? = some w ∧
      p.baseToCameraGuess[f.cam]? = some g ∧
      b = ⟨[woCorr, woTgt], eval2 (woCost f.corr.inImage intr w g f.corr.inTarget)⟩)
      (byCamera p.observations p.baseToCameraGuess.length fun _ => p.wristPoses.length) pb := by
  unfold woBuild at h
  refine Res.flatMapList_forall₂ (fun c _ b hb => ?_) h
  refine Res.flatMapList_forall₂ (fun i _ b hb => ?_) hb
  simp only [Res.bind_ok_iff, Res.idxList_ok_iff] at hb
  obtain ⟨oc, h1, oci, h2, hb⟩ := hb
  have : featuresOf p.observations c i = oci.map fun k => ⟨c, i, k⟩ := by
    simp [featuresOf, List.getD_eq_getElem?_getD, h1, h2]
  rw [this]
  refine Res.mapList_forall₂ (fun k _ b hb => ?_) hb
  simp only [Res.bind_ok_iff, Res.idxList_ok_iff] at hb
  obtain ⟨w, h3, g, h4, intr, h5, hb⟩ := hb
  cases hb
  exact ⟨intr, w, g, h5, h3, h4, rfl⟩

/-- Full statement: for all solver results. Proved for results whose reported camera is a rigid transform; see
`C38_negation` for the others. Each feature has one residual block, in the order cameras, images, features, whose value
at the final parameters is the reprojection error through the reported camera and target poses. -/
theorem C38_partial (s : Ceres Pose6) (p : WoProblem) (res : WoResult) (h : wristOnly s p = .ok res)
    (hw : ∀ w ∈ p.wristPoses, Representable w) (hg : ∀ g ∈ p.baseToCameraGuess, Representable g)
    (hr : ∀ c ∈ res.baseToCamera, RigidMotion c) :
    ∃ pb, woBuild p = .ok pb ∧
      List.Forall₂ (fun f b => ∃ intr w c, p.intr[f.cam]? = some intr ∧ p.wristPoses[f.img]? = some w ∧
        res.baseToCamera[f.cam]? = some c ∧
        (staticDepth c (w * res.wristToTarget) f.corr ≠ 0 →
          b.residual (s.solve pb (woInit p)) = staticError intr c (w * res.wristToTarget) f.corr))
        (byCamera p.observations p.baseToCameraGuess.length fun _ => p.wristPoses.length) pb := by
  unfold wristOnly at h
  rw [Res.bind_ok_iff] at h
  obtain ⟨pb, hb, h⟩ := h
  cases h
  refine ⟨pb, hb, ?_⟩
  refine (woBuild_blocks hb).imp ?_
  rintro f b ⟨intr, w, g, h1, h2, h3, rfl⟩
  have hw' := hw w (List.mem_of_getElem? h2)
  have hg' := hg g (List.mem_of_getElem? h3)
  refine ⟨intr, w, _, h1, h2, by rw [List.getElem?_map, h3]; rfl, fun hz => ?_⟩
  have hc := (rigid_iff _).2 (hr _ (List.mem_map_of_mem (List.mem_of_getElem? h3)))
  have hK : (poseCalToEigen (s.solve pb (woInit p) woCorr)).IsRigid := by
    apply Iso.IsRigid.of_inv
    have := hc.mul hg'.rigid.inv
    rwa [Iso.mul_assoc, Iso.mul_inv hg'.rigid, Iso.mul_one] at this
  exact woCost_eq f.corr.inImage intr hw' hg' f.corr.inTarget _ _ hK hz

/-- The final cost is determined by the reported poses. -/
theorem C38_partial_residuals (s : Ceres Pose6) (p : WoProblem) (res : WoResult) (h : wristOnly s p = .ok res)
    (hw : ∀ w ∈ p.wristPoses, Representable w) (hg : ∀ g ∈ p.baseToCameraGuess, Representable g)
    (hr : ∀ c ∈ res.baseToCamera, RigidMotion c)
    (hz : ∀ c ∈ res.baseToCamera, ∀ w ∈ p.wristPoses, ∀ f ∈ byCamera p.observations p.baseToCameraGuess.length
      (fun _ => p.wristPoses.length), staticDepth c (w * res.wristToTarget) f.corr ≠ 0) :
    ∃ pb, woBuild p = .ok pb ∧ residuals pb (s.solve pb (woInit p)) =
      (byCamera p.observations p.baseToCameraGuess.length fun _ => p.wristPoses.length).flatMap fun f =>
        staticError (p.intr.getD f.cam ⟨0, 0, 0, 0⟩) (res.baseToCamera.getD f.cam 1)
          (p.wristPoses.getD f.img 1 * res.wristToTarget) f.corr := by
  obtain ⟨pb, hb, hf⟩ := C38_partial s p res h hw hg hr
  refine ⟨pb, hb, residuals_forall₂ ?_⟩
  have hmem : ∀ f ∈ byCamera p.observations p.baseToCameraGuess.length (fun _ => p.wristPoses.length), ∀ b : ResBlock Pose6,
      (∃ intr w c, p.intr[f.cam]? = some intr ∧ p.wristPoses[f.img]? = some w ∧ res.baseToCamera[f.cam]? = some c ∧
        (staticDepth c (w * res.wristToTarget) f.corr ≠ 0 →
          b.residual (s.solve pb (woInit p)) = staticError intr c (w * res.wristToTarget) f.corr)) →
      b.residual (s.solve pb (woInit p)) = staticError (p.intr.getD f.cam ⟨0, 0, 0, 0⟩) (res.baseToCamera.getD f.cam 1)
          (p.wristPoses.getD f.img 1 * res.wristToTarget) f.corr := by
    rintro f hf b ⟨intr, w, c, h1, h2, h3, h4⟩
    rw [h4 (hz c (List.mem_of_getElem? h3) w (List.mem_of_getElem? h2) f hf)]
    simp [List.getD_eq_getElem?_getD, h1, h2, h3]
  exact Forall₂.imp_mem hf hmem

/-- A correction of 1e-9 rad about x is applied to first order by the cost; the reported camera uses the transpose of the
first order matrix: the residual is not the reprojection error of the reported camera. -/
theorem C38_negation : ∃ (intr : Intr) (w g : Iso) (k : Corr2) (corr tgt : Pose6), Representable w ∧ Representable g ∧
    staticDepth ((poseCalToEigen corr).inv * g) (w * poseCalToEigen tgt) k ≠ 0 ∧
    woCost k.inImage intr w g k.inTarget corr tgt ≠
      staticError intr ((poseCalToEigen corr).inv * g) (w * poseCalToEigen tgt) k := by
  have ht : poseCalToEigen ⟨0, 0, 0, 0, 0, 0⟩ = 1 := poseCalToEigen_zero (p := ⟨0, 0, 0, 0, 0, 0⟩) rfl
  refine ⟨⟨1, 1, 0, 0⟩, 1, 1, ⟨⟨0, 0⟩, ⟨0, 0, 1⟩⟩, ⟨1 / 10 ^ 9, 0, 0, 0, 1, 1⟩, ⟨0, 0, 0, 0, 0, 0⟩, .one, .one, ?_, ?_⟩
  · unfold staticDepth
    rw [ht, Iso.mul_one, Iso.mul_one, Iso.mul_one, poseCalToEigen_small (by
      simp only [Pose6.rot, V3.normSq, V3.dot, dblEps]; norm_num)]
    simp only [Iso.inv, Iso.apply, M3.mulVec, M3.tr, Pose6.rot, Pose6.trans]
    norm_num
  · unfold staticError woCost diff2
    simp only [transformPoint_eq, Iso.inv_one, Representable.one.act]
    rw [ht, Iso.mul_one, Iso.mul_one, Iso.mul_one, poseCalToEigen_small (by
      simp only [Pose6.rot, V3.normSq, V3.dot, dblEps]; norm_num)]
    simp only [Iso.inv, Iso.apply, M3.mulVec, M3.tr, Pose6.rot, Pose6.trans, projectPoint, pinhole]
    norm_num

example : staticDepth 1 (1 * ⟨1, ⟨0, 0, 2⟩⟩) ⟨⟨0, 0⟩, ⟨0, 0, 1⟩⟩ ≠ 0 := by
  simp [staticDepth, Iso.apply]; norm_num

/-! ## C39 Fixing the first camera really fixes it -/

theorem coBuild_blocks {p : CoProblem} {pb : List (ResBlock Pose6)} (h : coBuild p = .ok pb) :
    List.Forall₂ (fun f b => ∃ intr, p.intr[f.cam]? = some intr ∧
      ((p.fixFirst = true ∧ f.cam = 0 ∧ ∃ g, p.baseToCameraGuess[f.cam]? = some g ∧
          b = ⟨[coTgt f.img], eval1 (coFixedCost f.corr.inImage intr g f.corr.inTarget)⟩) ∨
        (¬ (p.fixFirst = true ∧ f.cam = 0) ∧
          b = ⟨[coCam f.cam, coTgt f.img], eval2 (coFreeCost f.corr.inImage intr f.corr.inTarget)⟩)))
      (byImage p.observations p.baseToCameraGuess.length p.baseToTargetGuess.length) pb := by
  unfold coBuild at h
  refine Res.flatMapList_forall₂ (fun i _ b hb => ?_) h
  refine Res.flatMapList_forall₂ (fun c _ b hb => ?_) hb
  simp only [Res.bind_ok_iff, Res.idxList_ok_iff] at hb
  obtain ⟨oc, h1, oci, h2, hb⟩ := hb
  have : featuresOf p.observations c i = oci.map fun k => ⟨c, i, k⟩ := by
    simp [featuresOf, List.getD_eq_getElem?_getD, h1, h2]
  rw [this]
  refine Res.mapList_forall₂ (fun k _ b hb => ?_) hb
  simp only [Res.bind_ok_iff, Res.idxList_ok_iff] at hb
  obtain ⟨intr, h5, hb⟩ := hb
  refine ⟨intr, h5, ?_⟩
  split at hb
  · rename_i hf
    simp only [Res.bind_ok_iff, Res.idxList_ok_iff] at hb
    obtain ⟨g, h4, hb⟩ := hb
    cases hb
    exact Or.inl ⟨hf.1, hf.2, g, h4, rfl⟩
  · rename_i hf
    cases hb
    exact Or.inr ⟨hf, rfl⟩

/-- With the first camera fixed: its observations are attached to the target poses only, and no residual block at all is
attached to its pose. -/
theorem C39_constrains (p : CoProblem) (pb : List (ResBlock Pose6)) (h : coBuild p = .ok pb) (hf : p.fixFirst = true) :
    List.Forall₂ (fun f b => f.cam = 0 → b.blocks = [coTgt f.img])
      (byImage p.observations p.baseToCameraGuess.length p.baseToTargetGuess.length) pb ∧
    ∀ b ∈ pb, coCam 0 ∉ b.blocks := by
  have hb := coBuild_blocks h
  refine ⟨hb.imp ?_, fun b hmem => ?_⟩
  · rintro f b ⟨intr, -, ⟨-, -, g, -, rfl⟩ | ⟨hn, rfl⟩⟩ h0
    · rfl
    · exact absurd ⟨hf, h0⟩ hn
  · obtain ⟨f, -, intr, -, ⟨-, -, g, -, rfl⟩ | ⟨hn, rfl⟩⟩ := Forall₂.mem_right hb hmem
    · simp [coCam, coTgt]; omega
    · simp only [List.mem_cons, List.not_mem_nil, or_false, coCam, coTgt, not_or]
      constructor
      · intro he; exact hn ⟨hf, by omega⟩
      · omega

/-- The reported first camera is the guess. Full statement: for all problems and all rigid guesses; missing: problems
without images (`C39_negation`) and guesses with a rotation below 1.5e-8 rad (`C39_negation_tiny`). -/
theorem C39_partial (s : Ceres Pose6) (hs : s.WF) (p : CoProblem) (res : CoResult) (h : cameraOnly s p = .ok res)
    (hf : p.fixFirst = true) (hi : p.baseToTargetGuess ≠ []) (g : Iso) (h0 : p.baseToCameraGuess[0]? = some g)
    (hg : Representable g) : res.baseToCamera[0]? = some g := by
  unfold cameraOnly at h
  rw [Res.bind_ok_iff] at h
  obtain ⟨pb, hb, h⟩ := h
  cases h
  have hn : coCam 0 ∉ usedBlocks pb := by
    rw [mem_usedBlocks]
    rintro ⟨b, hb', hc⟩
    exact (C39_constrains p pb hb hf).2 b hb' hc
  have hpos : 0 < p.baseToCameraGuess.length := (List.getElem?_eq_some_iff.1 h0).1
  simp only
  rw [List.getElem?_map, List.getElem?_range hpos, Option.map_some, hs.frame _ _ _ hn]
  have : coInit p (coCam 0) = poseEigenToCal g.inv := by
    simp [coInit, coCam, h0, hi]
  rw [this, hg.inv.roundtrip, Iso.inv_inv hg.rigid]

/-- Without images the first camera is reported at the identity, whatever its guess. -/
theorem C39_negation (s : Ceres Pose6) (hs : s.WF) (intr : Intr) (g : Iso) (hg : g ≠ 1) :
    ∃ res, cameraOnly s ⟨true, [intr], [], [[]], [g]⟩ = .ok res ∧ res.baseToCamera = [1] ∧ res.baseToCamera[0]? ≠ some g := by
  refine ⟨_, rfl, ?_⟩
  have h1 : ∀ pb st, usedBlocks pb = [] → s.solve pb st = st := by
    intro pb st h; funext a; exact hs.frame pb st a (by rw [h]; simp)
  have h2 : (poseCalToEigen (s.solve [] (coInit ⟨true, [intr], [], [[]], [g]⟩) (coCam 0))).inv = 1 := by
    rw [h1 _ _ usedBlocks_nil]
    have : coInit ⟨true, [intr], [], [[]], [g]⟩ (coCam 0) = ⟨0, 0, 0, 0, 0, 0⟩ := by simp [coInit, coCam]
    rw [this, poseCalToEigen_zero (p := ⟨0, 0, 0, 0, 0, 0⟩) rfl]
    exact Iso.inv_one
  have h3 : (List.map (fun c => (poseCalToEigen (s.solve [] (coInit ⟨true, [intr], [], [[]], [g]⟩) (coCam c))).inv)
      (List.range [g].length)) = [1] := by
    rw [List.length_singleton, List.range_one, List.map_singleton, h2]
  refine ⟨h3, ?_⟩
  intro h
  have h' := h3 ▸ h
  simp at h'
  exact hg h'.symm

/-- A guess rotated by 1e-9 rad is not reported exactly. -/
theorem C39_negation_tiny : ∃ (p : CoProblem) (res : CoResult) (g : Iso), cameraOnly (idCeres Pose6) p = .ok res ∧
    p.fixFirst = true ∧ p.baseToTargetGuess ≠ [] ∧ RigidMotion g ∧ p.baseToCameraGuess[0]? = some g ∧
    res.baseToCamera[0]? ≠ some g := by
  refine ⟨⟨true, [⟨1, 1, 0, 0⟩], [1], [[[]]], [tinyRot]⟩, _, tinyRot, rfl, rfl, by simp, tinyRot_rigid, rfl, ?_⟩
  intro h
  have h' : (poseCalToEigen (poseEigenToCal tinyRot.inv)).inv = tinyRot := by
    simpa [idCeres, coInit, coCam] using h
  have hr : (poseCalToEigen (poseEigenToCal tinyRot.inv)).IsRigid := by
    apply Iso.IsRigid.of_inv; rw [h']; exact (rigid_iff _).2 tinyRot_rigid
  rw [poseCalToEigen_rigid_iff, tinyRot_inv_cal] at hr
  rcases hr with hr | hr
  · have := congrArg V3.x hr
    norm_num [Pose6.rot] at this
  · exact tiny_small _ (Or.inr rfl) hr

example : Representable (exRotX 1) ∧ ∃ res, cameraOnly (idCeres Pose6) ⟨true, [⟨1, 1, 0, 0⟩], [1], [[[⟨⟨0, 0⟩, ⟨0, 0, 1⟩⟩]]],
    [exRotX 1]⟩ = .ok res := by
  refine ⟨exRotX_representable 1 (by norm_num) (by norm_num), ?_⟩
  simp only [cameraOnly, coBuild, Res.bind_ok_iff]
  exact ⟨_, _, rfl, rfl⟩

/-! ## C40 Camera-only residuals: fixed and free camera costs agree -/

/-- `cam` is the six-value pose the calibration starts the camera from. -/
theorem C40_agree (obs : V2) (intr : Intr) (g : Iso) (pt : V3) (tgt : Pose6) :
    coFixedCost obs intr g pt tgt = coFreeCost obs intr pt (poseEigenToCal g.inv) tgt := by
  unfold coFixedCost coFreeCost
  simp only [transformPoint_eq, poseTransformPoint_eq]

/-- Both are the reprojection error through the guess. -/
theorem C40_reprojection (obs : V2) (intr : Intr) (g : Iso) (hg : Representable g) (pt : V3) (tgt : Pose6)
    (hz : staticDepth g (poseCalToEigen tgt) ⟨obs, pt⟩ ≠ 0) :
    coFixedCost obs intr g pt tgt = staticError intr g (poseCalToEigen tgt) ⟨obs, pt⟩ ∧
    ∀ cam, (poseCalToEigen cam).inv = g →
      coFreeCost obs intr pt cam tgt = staticError intr g (poseCalToEigen tgt) ⟨obs, pt⟩ := by
  unfold staticDepth at hz
  unfold coFixedCost coFreeCost staticError diff2
  simp only [transformPoint_eq, hg.inv.act]
  simp only [Iso.apply_mul] at hz ⊢
  refine ⟨by rw [C02_pinhole _ _ hz], ?_⟩
  rintro cam rfl
  have hr : (poseCalToEigen cam).IsRigid := Iso.IsRigid.of_inv hg.rigid
  rw [Iso.inv_inv hr] at hz ⊢
  rw [C02_pinhole _ _ hz]

/-- The blocks of the built problem evaluate to these errors, for every feature. -/
theorem C40_blocks (p : CoProblem) (pb : List (ResBlock Pose6)) (h : coBuild p = .ok pb) (st : Nat → Pose6) (C : Nat → Iso)
    (hC : ∀ c, Representable (C c)) (hst : ∀ c, (poseCalToEigen (st (coCam c))).inv = C c)
    (h0 : p.fixFirst = true → p.baseToCameraGuess[0]? = some (C 0)) :
    List.Forall₂ (fun f b => ∃ intr, p.intr[f.cam]? = some intr ∧
      (staticDepth (C f.cam) (poseCalToEigen (st (coTgt f.img))) f.corr ≠ 0 →
        b.residual st = staticError intr (C f.cam) (poseCalToEigen (st (coTgt f.img))) f.corr))
      (byImage p.observations p.baseToCameraGuess.length p.baseToTargetGuess.length) pb := by
  refine (coBuild_blocks h).imp ?_
  rintro f b ⟨intr, h1, hb⟩
  refine ⟨intr, h1, fun hz => ?_⟩
  have hr := C40_reprojection f.corr.inImage intr (C f.cam) (hC _) f.corr.inTarget (st (coTgt f.img)) hz
  rcases hb with ⟨hf, hc, g, hg, rfl⟩ | ⟨-, rfl⟩
  · have : g = C f.cam := by rw [hc] at hg ⊢; rw [h0 hf] at hg; exact (Option.some.inj hg).symm
    subst this
    exact hr.1
  · exact hr.2 _ (hst _)

example : Representable (exRotX 1) ∧ staticDepth 1 (poseCalToEigen ⟨0, 0, 0, 0, 0, 1⟩) ⟨⟨0, 0⟩, ⟨0, 0, 1⟩⟩ ≠ 0 := by
  refine ⟨exRotX_representable 1 (by norm_num) (by norm_num), ?_⟩
  rw [poseCalToEigen_zero (p := ⟨0, 0, 0, 0, 0, 1⟩) rfl]
  simp [staticDepth, Iso.apply, Pose6.trans]

/-! ## C41 Multi static camera residual ordering -/

theorem msBuild_blocks {p : MsProblem} {pb : List (ResBlock Pose6)} (h : msBuild p = .ok pb) :
    List.Forall₂ (fun f b => ∃ intr wp w, p.intr[f.cam]? = some intr ∧ p.wristPoses[f.cam]? = some wp ∧
      wp[f.img]? = some w ∧
      b = ⟨[msCam f.cam, msTgt], eval2 (msCost f.corr.inImage intr w f.corr.inTarget)⟩)
      (byCamera p.observations p.baseToCameraGuess.length fun c => (p.wristPoses.getD c []).length) pb := by
  unfold msBuild at h
  refine Res.flatMapList_forall₂ (fun c _ b hb => ?_) h
  simp only [Res.bind_ok_iff, Res.idxList_ok_iff] at hb
  obtain ⟨wp, h0, hb⟩ := hb
  simp only
  rw [show (p.wristPoses.getD c []) = wp by simp [List.getD_eq_getElem?_getD, h0]]
  refine Res.flatMapList_forall₂ (fun i _ b hb => ?_) hb
  simp only [Res.bind_ok_iff, Res.idxList_ok_iff] at hb
  obtain ⟨oc, h1, oci, h2, hb⟩ := hb
  have : featuresOf p.observations c i = oci.map fun k => ⟨c, i, k⟩ := by
    simp [featuresOf, List.getD_eq_getElem?_getD, h1, h2]
  rw [this]
  refine Res.mapList_forall₂ (fun k _ b hb => ?_) hb
  simp only [Res.bind_ok_iff, Res.idxList_ok_iff] at hb
  obtain ⟨w, h3, intr, h5, hb⟩ := hb
  cases hb
  exact ⟨intr, wp, w, h5, h0, h3, rfl⟩

theorem msCost_eq (obs : V2) (intr : Intr) {w : Iso} (hw : Representable w) (pt : V3) (cam tgt : Pose6)
    (hc : (poseCalToEigen cam).IsRigid)
    (hz : staticDepth (poseCalToEigen cam).inv (w * poseCalToEigen tgt) ⟨obs, pt⟩ ≠ 0) :
    msCost obs intr w pt cam tgt = staticError intr (poseCalToEigen cam).inv (w * poseCalToEigen tgt) ⟨obs, pt⟩ := by
  unfold staticDepth at hz
  unfold msCost staticError diff2
  simp only [transformPoint_eq, hw.act]
  rw [Iso.inv_inv hc] at hz ⊢
  simp only [Iso.apply_mul] at hz ⊢
  rw [C02_pinhole _ _ hz]

/-- One block per feature, in the order cameras, images, features, attached to the pose of its camera and to the target
pose. The residual is the reprojection error with the intrinsics of that camera, the wrist pose of that image and the
pixel of that feature (representable wrist poses, rigid camera poses, depth not zero). -/
theorem C41_order (p : MsProblem) (pb : List (ResBlock Pose6)) (h : msBuild p = .ok pb) :
    List.Forall₂ (fun f b => b.blocks = [msCam f.cam, msTgt] ∧
      ∃ intr wp w, p.intr[f.cam]? = some intr ∧ p.wristPoses[f.cam]? = some wp ∧ wp[f.img]? = some w ∧
      ∀ (st : Nat → Pose6) (C T : Iso), C = (poseCalToEigen (st (msCam f.cam))).inv → T = poseCalToEigen (st msTgt) →
        Representable w → RigidMotion C → staticDepth C (w * T) f.corr ≠ 0 →
        b.residual st = staticError intr C (w * T) f.corr)
      (byCamera p.observations p.baseToCameraGuess.length fun c => (p.wristPoses.getD c []).length) pb := by
  refine (msBuild_blocks h).imp ?_
  rintro f b ⟨intr, wp, w, h1, h2, h3, rfl⟩
  refine ⟨rfl, intr, wp, w, h1, h2, h3, ?_⟩
  rintro st C T rfl rfl hw hC hz
  exact msCost_eq _ _ hw _ _ _ (Iso.IsRigid.of_inv ((rigid_iff _).2 hC)) hz

/-- The number of blocks. -/
theorem C41_count (p : MsProblem) (pb : List (ResBlock Pose6)) (h : msBuild p = .ok pb) :
    pb.length = ((List.range p.baseToCameraGuess.length).map fun c =>
      ((List.range (p.wristPoses.getD c []).length).map fun i => ((p.observations.getD c []).getD i []).length).sum).sum := by
  rw [← (msBuild_blocks h).length_eq]
  simp [byCamera, featuresOf, List.length_flatMap]

/-- Different cameras have different pose blocks, and none of them is the target block. -/
theorem C41_distinct (c c' : Nat) : (msCam c = msCam c' ↔ c = c') ∧ msCam c ≠ msTgt := by
  unfold msCam msTgt; omega

/-- The problem is built whenever the sizes fit. -/
theorem C41_built (p : MsProblem) (h1 : p.wristPoses.length = p.baseToCameraGuess.length)
    (h2 : p.observations.length = p.baseToCameraGuess.length) (h3 : p.intr.length = p.baseToCameraGuess.length)
    (h4 : ∀ (c : Nat) oc wp, p.observations[c]? = some oc → p.wristPoses[c]? = some wp → oc.length = wp.length) :
    ∃ pb, msBuild p = .ok pb := by
  refine Res.flatMapList_returns fun c hc => ?_
  rw [List.mem_range] at hc
  obtain ⟨wp, hw⟩ : ∃ wp, p.wristPoses[c]? = some wp := ⟨_, List.getElem?_eq_getElem (by omega)⟩
  obtain ⟨oc, ho⟩ : ∃ oc, p.observations[c]? = some oc := ⟨_, List.getElem?_eq_getElem (by omega)⟩
  obtain ⟨intr, hi⟩ : ∃ intr, p.intr[c]? = some intr := ⟨_, List.getElem?_eq_getElem (by omega)⟩
  rw [Res.idxList_ok_iff.2 hw, Res.ok_bind]
  refine Res.flatMapList_returns fun i hi' => ?_
  rw [List.mem_range] at hi'
  have := h4 c oc wp ho hw
  obtain ⟨oci, hoci⟩ : ∃ oci, oc[i]? = some oci := ⟨_, List.getElem?_eq_getElem (by omega)⟩
  obtain ⟨w, hwi⟩ : ∃ w, wp[i]? = some w := ⟨_, List.getElem?_eq_getElem (by omega)⟩
  rw [Res.idxList_ok_iff.2 ho, Res.ok_bind, Res.idxList_ok_iff.2 hoci, Res.ok_bind]
  refine Res.mapList_returns fun k _ => ?_
  rw [Res.idxList_ok_iff.2 hwi, Res.ok_bind, Res.idxList_ok_iff.2 hi, Res.ok_bind]
  exact ⟨_, rfl⟩

example : ∃ pb, msBuild ⟨[⟨1, 1, 0, 0⟩, ⟨1, 1, 0, 0⟩], [[1], [1, exRotX 1]],
    [[[⟨⟨0, 0⟩, ⟨0, 0, 1⟩⟩]], [[], [⟨⟨0, 0⟩, ⟨0, 0, 1⟩⟩]]], 1, [1, exRotX 1], "t", "c"⟩ = .ok pb := by
  simp only [msBuild]
  exact ⟨_, rfl⟩

/-! ## C32 Covariance labels of calibrated poses name the right parameter (several static cameras)

Full statement: as for the hand-eye calibration; wrong in every run that returns. -/

/-- Label of the pose of a block. -/
def msLabel (p : MsProblem) (b : Nat) : String :=
  if b = msTgt then p.labelTarget else p.labelCamera ++ toString (b - 1)

theorem msNames_find (p : MsProblem) (b : Nat)
    (hb : b ∈ (List.range p.baseToCameraGuess.length).map msCam ++ [msTgt]) :
    (msNames p).find b = some (poseLabels labelsIsometry3d (msLabel p b)) := by
  unfold msNames
  rw [SMap.find_insert]
  simp only [List.mem_append, List.mem_map, List.mem_range, List.mem_singleton] at hb
  rcases hb with ⟨c, hc, rfl⟩ | rfl
  · rw [if_neg (C41_distinct c 0).2,
      find_foldl_insert (fun c => poseLabels labelsIsometry3d (p.labelCamera ++ toString c)) msCam
        (fun a b => (C41_distinct a b).1.1) _ [] c hc]
    simp [msLabel, msCam, msTgt]
  · rw [if_pos rfl]; simp [msLabel]

/-- Entry `k` of the report belongs to the `k`-th stored parameter of the pose blocks (cameras in order, then target); it
is labelled with the `i`-th of the labels x, y, z, rx, ry, rz although the stored order is rotation first. -/
theorem C32_partial_multi (s : Ceres Pose6) (p : MsProblem) (res : MsResult) (h : multiStatic s p = .ok res) :
    ∀ k b i : Nat,
      (elements (fun _ => 6) ((List.range p.baseToCameraGuess.length).map msCam ++ [msTgt]))[k]? = some (b, i) →
      ∃ lab, ["x", "y", "z", "rx", "ry", "rz"][i]? = some lab ∧ res.covariance.standard_deviations[k]? =
        some ⟨msLabel p b ++ "_" ++ lab, "", res.covariance.correlation_matrix.val k k⟩ := by
  unfold multiStatic at h
  simp only [Res.bind_ok_iff] at h
  obtain ⟨pb, -, cov, hcov, h⟩ := h
  cases h
  obtain ⟨blocks, hbl⟩ : ∃ b, b = (List.range p.baseToCameraGuess.length).map msCam ++ [msTgt] := ⟨_, rfl⟩
  have hn : ∀ b ∈ blocks, (msNames p).find b = some (poseLabels labelsIsometry3d (msLabel p b)) := by
    rw [hbl]; exact msNames_find p
  rw [← hbl] at hcov ⊢
  have hin := (C26_returns _ _ _ _ _ hcov).2.1
  have hsz : ∀ b ∈ blocks, (s.covSolver pb (s.solve pb (msInit p)) 6).blockSize b = some 6 := by
    intro b hb
    obtain ⟨size, l, h1, -⟩ := hin b hb
    rw [h1]
    simp only [Ceres.covSolver] at h1
    split at h1
    · exact h1.symm
    · cases h1
  have hbs : elements (fun b => ((s.covSolver pb (s.solve pb (msInit p)) 6).blockSize b).getD 0) blocks =
      elements (fun _ => 6) blocks := by
    unfold elements
    apply flatMap_congr'
    intro b hb
    simp only [hsz b hb]; rfl
  obtain ⟨full, -, -, -, h4⟩ := computeCovariance_unmasked (by
    intro b n hb
    simp only [Ceres.covSolver] at hb
    split at hb
    · cases hb; norm_num
    · cases hb) hcov
  rw [hbs] at h4
  intro k b i hk
  obtain ⟨-, lab, str, h6, h7, h8⟩ := h4 k b i hk
  have hb : b ∈ blocks := by
    have := List.mem_of_getElem? hk
    simp only [elements, List.mem_flatMap, List.mem_map] at this
    obtain ⟨b', hb', i', -, h⟩ := this
    cases h; exact hb'
  rw [hn b hb] at h6
  cases h6
  unfold poseLabels at h7
  rw [List.getElem?_map, Option.map_eq_some_iff] at h7
  obtain ⟨x, hx, rfl⟩ := h7
  exact ⟨x, hx, h8⟩

/-- In every run that returns, every label names a different component than the parameter it is attached to. -/
theorem C32_negation_multi (s : Ceres Pose6) (p : MsProblem) (res : MsResult) (h : multiStatic s p = .ok res) :
    ∀ k b i : Nat,
      (elements (fun _ => 6) ((List.range p.baseToCameraGuess.length).map msCam ++ [msTgt]))[k]? = some (b, i) →
      ∃ n name, componentNames[i]? = some n ∧ (res.covariance.standard_deviations[k]?).map NamedParam.first = some name ∧
        name ≠ msLabel p b ++ "_" ++ n := by
  intro k b i hk
  obtain ⟨lab, h4, h5⟩ := C32_partial_multi s p res h k b i hk
  have hi : i < 6 := by
    have := List.mem_of_getElem? hk
    simp only [elements, List.mem_flatMap, List.mem_map, List.mem_range, Prod.mk.injEq] at this
    obtain ⟨_, _, i', hi', _, rfl⟩ := this
    exact hi'
  obtain ⟨n, hn, hne⟩ : ∃ n, componentNames[i]? = some n ∧ lab ≠ n := by
    unfold componentNames
    rcases i with _ | _ | _ | _ | _ | _ | i <;> simp at h4 ⊢ <;> first | omega | (subst h4; decide)
  exact ⟨n, _, hn, by rw [h5]; rfl, append_label_ne hne⟩

/-- A run with one camera and one feature returns. -/
theorem msEx_returns : ∃ res, multiStatic (idCeres Pose6) ⟨[⟨1, 1, 0, 0⟩], [[1]], [[[⟨⟨0, 0⟩, ⟨0, 0, 1⟩⟩]]], 1, [1], "t", "c"⟩
    = .ok res := by
  obtain ⟨p, hp⟩ : ∃ p : MsProblem, p = ⟨[⟨1, 1, 0, 0⟩], [[1]], [[[⟨⟨0, 0⟩, ⟨0, 0, 1⟩⟩]]], 1, [1], "t", "c"⟩ := ⟨_, rfl⟩
  have hb : msBuild p = .ok [⟨[msCam 0, msTgt], eval2 (msCost ⟨0, 0⟩ ⟨1, 1, 0, 0⟩ 1 ⟨0, 0, 1⟩)⟩] := by
    rw [hp]; rfl
  have hu : ∀ b ∈ [msCam 0, msTgt], b ∈ usedBlocks [(⟨[msCam 0, msTgt], eval2 (msCost ⟨0, 0⟩ ⟨1, 1, 0, 0⟩ 1 ⟨0, 0, 1⟩)⟩ :
      ResBlock Pose6)] := by
    intro b hb; rw [mem_usedBlocks]; exact ⟨_, List.mem_singleton.2 rfl, hb⟩
  rw [← hp]
  have hbl : (List.range p.baseToCameraGuess.length).map msCam ++ [msTgt] = [msCam 0, msTgt] := by rw [hp]; rfl
  have hn := msNames_find p
  have hns : (msNames p).size = 2 := by rw [hp]; rfl
  unfold multiStatic
  rw [hb, Res.ok_bind]
  simp only [hbl] at hn ⊢
  obtain ⟨cov, hc⟩ := computeCovariance_returns
    (cs := (idCeres Pose6).covSolver [(⟨[msCam 0, msTgt], eval2 (msCost ⟨0, 0⟩ ⟨1, 1, 0, 0⟩ 1 ⟨0, 0, 1⟩)⟩ : ResBlock Pose6)]
      ((idCeres Pose6).solve _ (msInit p)) 6) (blocks := [msCam 0, msTgt]) (names := msNames p) (masks := [])
    hns (fun b hb => ⟨_, hn b hb, by simp [Ceres.covSolver, hu b hb, poseLabels, labelsIsometry3d]⟩) rfl rfl
  exact ⟨_, (Res.bind_ok_iff _ _ _).2 ⟨cov, hc, rfl⟩⟩

example : ∃ res, multiStatic (idCeres Pose6) ⟨[⟨1, 1, 0, 0⟩], [[1]], [[[⟨⟨0, 0⟩, ⟨0, 0, 1⟩⟩]]], 1, [1], "t", "c"⟩
    = .ok res := msEx_returns

end RCT
