import Verif.Model.PnP
import Verif.Props.HandEye

/-!
# C33 – C36: PnP
-/

namespace RCT
open Spec

theorem pnpFinish_ok {κ : Type} {s : Ceres V3} {p : PnPProblem κ} {pb : List (ResBlock V3)} {res : PnPResult}
    (h : pnpFinish s p pb = .ok res) :
    computeCovariance (s.covSolver pb (s.solve pb (pnpInit p.guess)) 3) [pnpTrans, pnpRot]
      (SMap.insert (SMap.insert [] pnpTrans (pnpLabelsTranslation.map fun l => p.label ++ "_" ++ l)) pnpRot
        (pnpLabelsRotation.map fun l => p.label ++ "_" ++ l)) [] = .ok res.covariance ∧
    res.cameraToTarget = pnpTransform (s.solve pb (pnpInit p.guess) pnpRot) (s.solve pb (pnpInit p.guess) pnpTrans) ∧
    res.finalCost = costPerObs pb (s.solve pb (pnpInit p.guess)) := by
  unfold pnpFinish at h
  simp only [Res.bind_ok_iff] at h
  obtain ⟨cov, hc, h⟩ := h
  cases h
  exact ⟨hc, rfl, rfl⟩

/-! ## C33 PnP covariance labels name the right parameter -/

/-- Names of the parameters of the two blocks: x, y, z of the translation, rx, ry, rz of the rotation vector. -/
def pnpComponent (b i : Nat) : Option String :=
  (if b = pnpTrans then ["x", "y", "z"] else ["rx", "ry", "rz"])[i]?

theorem C33_labels_core {κ : Type} (s : Ceres V3) (p : PnPProblem κ) (pb : List (ResBlock V3)) (res : PnPResult)
    (h : pnpFinish s p pb = .ok res) :
    ∃ full : Nat → Nat → ℝ, s.covMatrix pb (s.solve pb (pnpInit p.guess)) [pnpTrans, pnpRot] = some full ∧
      res.covariance.standard_deviations.length = 6 ∧
      ∀ k b i : Nat, (elements (fun _ => 3) [pnpTrans, pnpRot])[k]? = some (b, i) →
        (∀ k' b' i' : Nat, (elements (fun _ => 3) [pnpTrans, pnpRot])[k']? = some (b', i') →
          res.covariance.covariance_matrix.val k k' = full k k') ∧
        ∃ n, pnpComponent b i = some n ∧ res.covariance.standard_deviations[k]? =
          some ⟨p.label ++ "_" ++ n, "", res.covariance.correlation_matrix.val k k⟩ := by
  obtain ⟨hcov, -, -⟩ := pnpFinish_ok h
  have hin := (C26_returns _ _ _ _ _ hcov).2.1
  have hsz : ∀ b ∈ [pnpTrans, pnpRot], (s.covSolver pb (s.solve pb (pnpInit p.guess)) 3).blockSize b = some 3 := by
    intro b hb
    obtain ⟨size, l, h1, -⟩ := hin b hb
    rw [h1]
    simp only [Ceres.covSolver] at h1
    split at h1
    · exact h1.symm
    · cases h1
  have hbs : elements (fun b => ((s.covSolver pb (s.solve pb (pnpInit p.guess)) 3).blockSize b).getD 0)
      [pnpTrans, pnpRot] = elements (fun _ => 3) [pnpTrans, pnpRot] := by
    unfold elements
    apply flatMap_congr'
    intro b hb
    simp only [hsz b hb]; rfl
  obtain ⟨full, h1, h2, -, h4⟩ := computeCovariance_unmasked (by
    intro b n hb
    simp only [Ceres.covSolver] at hb
    split at hb
    · cases hb; norm_num
    · cases hb) hcov
  rw [hbs] at h2 h4
  refine ⟨full, h1, by rw [h2]; rfl, ?_⟩
  intro k b i hk
  obtain ⟨h5, lab, str, h6, h7, h8⟩ := h4 k b i hk
  refine ⟨h5, ?_⟩
  have hb : b = pnpTrans ∨ b = pnpRot := by
    have := List.mem_of_getElem? hk
    simp only [elements, List.mem_flatMap, List.mem_map] at this
    obtain ⟨b', hb', i', -, h⟩ := this
    cases h
    simpa using hb'
  rw [SMap.find_insert, SMap.find_insert] at h6
  unfold pnpComponent
  rcases hb with rfl | rfl
  · rw [if_neg (by decide), if_pos rfl] at h6; cases h6
    rw [List.getElem?_map, Option.map_eq_some_iff] at h7
    obtain ⟨x, hx, rfl⟩ := h7
    exact ⟨x, by rw [if_pos rfl]; exact hx, h8⟩
  · rw [if_pos rfl] at h6; cases h6
    rw [List.getElem?_map, Option.map_eq_some_iff] at h7
    obtain ⟨x, hx, rfl⟩ := h7
    exact ⟨x, by rw [if_neg (by decide)]; exact hx, h8⟩

/-- Entry `k` of the report belongs to parameter `i` of block `b` and carries its name. -/
theorem C33_labels (s : Ceres V3) (p : PnPProblem Corr2) (res : PnPResult) (h : pnp2 s p = .ok res) :
    ∃ full : Nat → Nat → ℝ, s.covMatrix (pnpBuild2 p) (s.solve (pnpBuild2 p) (pnpInit p.guess)) [pnpTrans, pnpRot] = some full ∧
      res.covariance.standard_deviations.length = 6 ∧
      ∀ k b i : Nat, (elements (fun _ => 3) [pnpTrans, pnpRot])[k]? = some (b, i) →
        (∀ k' b' i' : Nat, (elements (fun _ => 3) [pnpTrans, pnpRot])[k']? = some (b', i') →
          res.covariance.covariance_matrix.val k k' = full k k') ∧
        ∃ n, pnpComponent b i = some n ∧ res.covariance.standard_deviations[k]? =
          some ⟨p.label ++ "_" ++ n, "", res.covariance.correlation_matrix.val k k⟩ :=
  C33_labels_core s p _ res h

theorem C33_labels_3d (s : Ceres V3) (p : PnPProblem Corr3) (res : PnPResult) (h : pnp3 s p = .ok res) :
    ∃ full : Nat → Nat → ℝ, s.covMatrix (pnpBuild3 p) (s.solve (pnpBuild3 p) (pnpInit p.guess)) [pnpTrans, pnpRot] = some full ∧
      res.covariance.standard_deviations.length = 6 ∧
      ∀ k b i : Nat, (elements (fun _ => 3) [pnpTrans, pnpRot])[k]? = some (b, i) →
        (∀ k' b' i' : Nat, (elements (fun _ => 3) [pnpTrans, pnpRot])[k']? = some (b', i') →
          res.covariance.covariance_matrix.val k k' = full k k') ∧
        ∃ n, pnpComponent b i = some n ∧ res.covariance.standard_deviations[k]? =
          some ⟨p.label ++ "_" ++ n, "", res.covariance.correlation_matrix.val k k⟩ :=
  C33_labels_core s p _ res h

/-- With at least one correspondence and a working covariance service there is a report. -/
theorem pnpFinish_returns {κ : Type} {α : Type} (s : Ceres V3) (p : PnPProblem κ) (l : List α) (hl : l ≠ [])
    (g : α → ResBlock V3) (hg : ∀ a ∈ l, (g a).blocks = [pnpRot, pnpTrans])
    (h3 : s.covCompute (l.map g) (s.solve (l.map g) (pnpInit p.guess)) [pnpTrans, pnpRot] = .ok true)
    (h4 : (s.covMatrix (l.map g) (s.solve (l.map g) (pnpInit p.guess)) [pnpTrans, pnpRot]).isSome) :
    ∃ res, pnpFinish s p (l.map g) = .ok res := by
  have hperm := usedBlocks_const l hl g [pnpRot, pnpTrans] (by decide) hg
  obtain ⟨cov, hc⟩ := computeCovariance_returns
    (cs := s.covSolver (l.map g) (s.solve (l.map g) (pnpInit p.guess)) 3) (blocks := [pnpTrans, pnpRot])
    (names := SMap.insert (SMap.insert [] pnpTrans (pnpLabelsTranslation.map fun l => p.label ++ "_" ++ l)) pnpRot
      (pnpLabelsRotation.map fun l => p.label ++ "_" ++ l)) (masks := []) rfl (by
      intro b hb
      have hu : b ∈ usedBlocks (l.map g) := by
        rw [hperm.mem_iff]; simp only [List.mem_cons, List.not_mem_nil, or_false] at hb ⊢; exact hb.symm
      simp only [List.mem_cons, List.not_mem_nil, or_false] at hb
      rcases hb with rfl | rfl
      · exact ⟨_, by rw [SMap.find_insert, if_neg (by decide), SMap.find_insert, if_pos rfl], by
          simp [Ceres.covSolver, hu, pnpLabelsTranslation]⟩
      · exact ⟨_, by rw [SMap.find_insert, if_pos rfl], by simp [Ceres.covSolver, hu, pnpLabelsRotation]⟩) h3 h4
  exact ⟨_, (Res.bind_ok_iff _ _ _).2 ⟨cov, hc, rfl⟩⟩

example : ∃ res, pnp2 (idCeres V3) ⟨⟨1, 1, 0, 0⟩, [⟨⟨0, 0⟩, ⟨0, 0, 1⟩⟩], exRotX 1, "camera_to_target"⟩ = .ok res :=
  pnpFinish_returns _ _ [(⟨⟨0, 0⟩, ⟨0, 0, 1⟩⟩ : Corr2)] (by simp)
    (fun c => ⟨[pnpRot, pnpTrans], evalV2 (pnpCost2 ⟨1, 1, 0, 0⟩ c.inTarget c.inImage)⟩) (fun _ _ => rfl) rfl rfl

/-! ## C35 PnP reports a rigid pose -/

theorem pnpTransform_rigid (aa t : V3) : (pnpTransform aa t).IsRigid := by
  by_cases h : aa = 0
  · have : aa.norm = 0 := V3.norm_eq_zero.2 h
    show (AngleAxis.toMat ⟨aa.norm, aa.normalized⟩).IsRot
    rw [this, AngleAxis.toMat_zero_angle]; exact M3.IsRot.one
  · exact AngleAxis.toMat_isRot (V3.normSq_normalized h)

theorem C35_rigid (s : Ceres V3) (p : PnPProblem Corr2) (res : PnPResult) (h : pnp2 s p = .ok res) :
    RigidMotion res.cameraToTarget := by
  obtain ⟨-, h2, -⟩ := pnpFinish_ok h
  rw [h2, ← rigid_iff]; exact pnpTransform_rigid _ _

theorem C35_rigid_3d (s : Ceres V3) (p : PnPProblem Corr3) (res : PnPResult) (h : pnp3 s p = .ok res) :
    RigidMotion res.cameraToTarget := by
  obtain ⟨-, h2, -⟩ := pnpFinish_ok h
  rw [h2, ← rigid_iff]; exact pnpTransform_rigid _ _

/-- The final residuals are the reprojection errors of the reported pose (features in front of the camera). -/
theorem C35_residuals (s : Ceres V3) (p : PnPProblem Corr2) (res : PnPResult) (h : pnp2 s p = .ok res)
    (hz : ∀ c ∈ p.correspondences, (res.cameraToTarget.apply c.inTarget).z > 1 / 10 ^ 10) :
    residuals (pnpBuild2 p) (s.solve (pnpBuild2 p) (pnpInit p.guess)) =
      p.correspondences.flatMap (fun c => diff2 (pinhole p.intr (res.cameraToTarget.apply c.inTarget)) c.inImage) := by
  obtain ⟨-, h2, -⟩ := pnpFinish_ok h
  rw [pnpBuild2, residuals_map]
  apply flatMap_congr'
  intro c hc
  have hz' := hz c hc
  rw [h2] at hz' ⊢
  rw [pnpBuild2] at hz' ⊢
  have hne : ((pnpTransform (s.solve (p.correspondences.map fun c => ⟨[pnpRot, pnpTrans],
      evalV2 (pnpCost2 p.intr c.inTarget c.inImage)⟩) (pnpInit p.guess) pnpRot) (s.solve (p.correspondences.map fun c =>
      ⟨[pnpRot, pnpTrans], evalV2 (pnpCost2 p.intr c.inTarget c.inImage)⟩) (pnpInit p.guess) pnpTrans)).apply c.inTarget).z ≠ 0 := by
    intro h0; rw [h0] at hz'; norm_num at hz'
  simp only [ResBlock.residual, List.map_cons, List.map_nil, evalV2, pnpCost2, diff2]
  rw [← (C01_partial p.intr _).2 (Or.inl hz'), C02_pinhole _ _ hne]

theorem C35_residuals_3d (s : Ceres V3) (p : PnPProblem Corr3) (res : PnPResult) (h : pnp3 s p = .ok res) :
    residuals (pnpBuild3 p) (s.solve (pnpBuild3 p) (pnpInit p.guess)) =
      p.correspondences.flatMap (fun c => diff3 (res.cameraToTarget.apply c.inTarget) c.inImage) := by
  obtain ⟨-, h2, -⟩ := pnpFinish_ok h
  rw [h2, pnpBuild3, residuals_map]
  rfl

/-- For any depth: the final residuals are determined by the reported pose, i.e. two runs that report the same pose for
the same correspondences end with the same residuals. -/
theorem C35_determined (s s' : Ceres V3) (p : PnPProblem Corr2) (res res' : PnPResult) (h : pnp2 s p = .ok res)
    (h' : pnp2 s' p = .ok res') (he : res.cameraToTarget = res'.cameraToTarget) :
    residuals (pnpBuild2 p) (s.solve (pnpBuild2 p) (pnpInit p.guess)) =
      residuals (pnpBuild2 p) (s'.solve (pnpBuild2 p) (pnpInit p.guess)) ∧ res.finalCost = res'.finalCost := by
  obtain ⟨-, h2, h3⟩ := pnpFinish_ok h
  obtain ⟨-, h2', h3'⟩ := pnpFinish_ok h'
  rw [h2, h2'] at he
  have : residuals (pnpBuild2 p) (s.solve (pnpBuild2 p) (pnpInit p.guess)) =
      residuals (pnpBuild2 p) (s'.solve (pnpBuild2 p) (pnpInit p.guess)) := by
    obtain ⟨st, hst⟩ : ∃ st, st = s.solve (pnpBuild2 p) (pnpInit p.guess) := ⟨_, rfl⟩
    obtain ⟨st', hst'⟩ : ∃ st, st = s'.solve (pnpBuild2 p) (pnpInit p.guess) := ⟨_, rfl⟩
    rw [← hst, ← hst'] at he ⊢
    rw [pnpBuild2, residuals_map, residuals_map]
    apply flatMap_congr'
    intro c _
    simp only [ResBlock.residual, List.map_cons, List.map_nil, evalV2, pnpCost2, he]
  refine ⟨this, ?_⟩
  rw [h3, h3']
  simp only [costPerObs, cost, this]

/-! ## C34 Guess is returned when the solver does not move (PnP) -/

theorem pnpInit_transform {g : Iso} (h : g.IsRigid) : pnpTransform (pnpInit g pnpRot) (pnpInit g pnpTrans) = g := by
  obtain ⟨h1, h2, h3⟩ := M3.IsRot.toAngleAxis h
  have e0 : pnpInit g pnpRot = V3.smul g.R.toAngleAxis.angle g.R.toAngleAxis.axis := by
    simp [pnpInit, pnpRot, pnpTrans]
  have e1 : pnpInit g pnpTrans = g.t := by simp [pnpInit]
  rw [e0, e1]
  have hsq : (V3.smul g.R.toAngleAxis.angle g.R.toAngleAxis.axis).normSq = g.R.toAngleAxis.angle * g.R.toAngleAxis.angle := by
    simp only [V3.normSq, V3.dot, V3.smul] at h1 ⊢
    linear_combination (g.R.toAngleAxis.angle * g.R.toAngleAxis.angle) * h1
  have hn : (V3.smul g.R.toAngleAxis.angle g.R.toAngleAxis.axis).norm = g.R.toAngleAxis.angle := by
    unfold V3.norm; rw [hsq, Real.sqrt_mul_self h2]
  unfold pnpTransform
  rw [hn]
  ext1
  · simp only
    by_cases h0 : g.R.toAngleAxis.angle = 0
    · rw [h0, AngleAxis.toMat_zero_angle]
      have : g.R.toAngleAxis = ⟨0, g.R.toAngleAxis.axis⟩ := by ext1 <;> simp [h0]
      rw [← h3, this, AngleAxis.toMat_zero_angle]
    · have hne : V3.smul g.R.toAngleAxis.angle g.R.toAngleAxis.axis ≠ 0 := by
        intro hz; rw [V3.normSq_eq_zero.2 hz] at hsq; exact h0 (mul_self_eq_zero.1 hsq.symm)
      rw [V3.normalized_of_ne hne, hn]
      have : V3.smul (1 / g.R.toAngleAxis.angle) (V3.smul g.R.toAngleAxis.angle g.R.toAngleAxis.axis)
          = g.R.toAngleAxis.axis := by
        ext <;> simp <;> field_simp
      rw [this]; exact h3
  · rfl

/-- For every rigid guess, whatever its rotation angle. -/
theorem C34_pnp (s : Ceres V3) (p : PnPProblem Corr2) (res : PnPResult) (hstay : ∀ pb st, s.solve pb st = st)
    (hg : RigidMotion p.guess) (h : pnp2 s p = .ok res) : res.cameraToTarget = p.guess := by
  obtain ⟨-, h2, -⟩ := pnpFinish_ok h
  rw [h2, hstay, pnpInit_transform ((rigid_iff _).2 hg)]

theorem C34_pnp_3d (s : Ceres V3) (p : PnPProblem Corr3) (res : PnPResult) (hstay : ∀ pb st, s.solve pb st = st)
    (hg : RigidMotion p.guess) (h : pnp3 s p = .ok res) : res.cameraToTarget = p.guess := by
  obtain ⟨-, h2, -⟩ := pnpFinish_ok h
  rw [h2, hstay, pnpInit_transform ((rigid_iff _).2 hg)]

example : (∀ pb st, (idCeres V3).solve pb st = st) ∧ RigidMotion (exRotX 1) := ⟨fun _ _ => rfl, exRotX_rigid 1⟩

/-! ## C36 Multi camera PnP with one camera at the base equals PnP

Full statement: the residuals agree for all poses, points, pixels and intrinsics. They use the two different projection
functions of C01, so they agree exactly where these do. -/

theorem Res.idxList_ok {α : Type} {l : List α} {i : Nat} {a : α} (h : l[i]? = some a) : Res.idxList l i = .ok a := by
  unfold Res.idxList; rw [h]

/-- The problem built for one camera at the base. -/
theorem mcPnpBuild_single (intr : Intr) (cs : List Corr2) (g : Iso) :
    mcPnpBuild ⟨[intr], [1], [cs], g⟩ = .ok (cs.map fun k => ⟨[0], eval1 (mcPnpCost k.inImage intr 1 k.inTarget)⟩) := by
  have h : Res.mapList (fun k : Corr2 => (Res.idxList [(1 : Iso)] 0).bind fun b2c => (Res.idxList [intr] 0).bind fun intr =>
      .ok (⟨[0], eval1 (mcPnpCost k.inImage intr b2c.inv k.inTarget)⟩ : ResBlock Pose6)) cs =
      .ok (cs.map fun k => ⟨[0], eval1 (mcPnpCost k.inImage intr 1 k.inTarget)⟩) := by
    apply Res.mapList_ok_of_forall
    intro k _
    simp [Res.idxList]
  unfold mcPnpBuild Res.flatMapList
  simp only [List.length_cons, List.length_nil, Nat.zero_add, List.range_one, Res.mapList]
  rw [Res.idxList_ok (l := [cs]) (i := 0) rfl, Res.ok_bind, h]
  simp

/-- The residual lists agree at one and the same pose when all features are in front of the camera. -/
theorem C36_partial (intr : Intr) (cs : List Corr2) (g : Iso) (pb : List (ResBlock Pose6))
    (hb : mcPnpBuild ⟨[intr], [1], [cs], g⟩ = .ok pb) (st : Nat → Pose6)
    (hz : ∀ k ∈ cs, ((poseCalToEigen (st 0)).apply k.inTarget).z > 1 / 10 ^ 10) (st' : Nat → V3)
    (hst : pnpTransform (st' pnpRot) (st' pnpTrans) = poseCalToEigen (st 0)) :
    residuals pb st = residuals (pnpBuild2 ⟨intr, cs, g, "camera_to_target"⟩) st' := by
  rw [mcPnpBuild_single] at hb; cases hb
  rw [pnpBuild2, residuals_map, residuals_map]
  apply flatMap_congr'
  intro k hk
  simp only [ResBlock.residual, List.map_cons, List.map_nil, evalV2, eval1, pnpCost2, mcPnpCost, transformPoint_eq,
    Representable.one.act, Iso.apply_one, hst]
  rw [(C01_partial intr _).2 (Or.inl (hz k hk))]

/-- A pose with the same rotation vector and translation is the same pose, if the rotation is zero or above the threshold. -/
theorem C36_same_pose (q : Pose6) (hp : q.rot = 0 ∨ q.rot.normSq > 1 / 2 ^ 52) :
    pnpTransform q.rot q.trans = poseCalToEigen q := by
  rcases hp with hp | hp
  · rw [poseCalToEigen_zero hp]
    unfold pnpTransform
    rw [V3.norm_eq_zero.2 hp, AngleAxis.toMat_zero_angle]
  · rw [poseCalToEigen_big hp]; rfl

/-- A feature behind the camera: the residuals differ. -/
theorem C36_negation : ∃ (intr : Intr) (cs : List Corr2) (g : Iso) (pb : List (ResBlock Pose6)) (st : Nat → Pose6)
    (st' : Nat → V3), mcPnpBuild ⟨[intr], [1], [cs], g⟩ = .ok pb ∧ RigidMotion (poseCalToEigen (st 0)) ∧
    pnpTransform (st' pnpRot) (st' pnpTrans) = poseCalToEigen (st 0) ∧
    residuals pb st ≠ residuals (pnpBuild2 ⟨intr, cs, g, "camera_to_target"⟩) st' := by
  have h0 : poseCalToEigen ⟨0, 0, 0, 0, 0, 0⟩ = 1 := poseCalToEigen_zero (p := ⟨0, 0, 0, 0, 0, 0⟩) rfl
  have h1 : pnpTransform (0 : V3) 0 = 1 := by
    rw [← h0]; exact C36_same_pose ⟨0, 0, 0, 0, 0, 0⟩ (Or.inl rfl)
  refine ⟨⟨1, 1, 0, 0⟩, [⟨⟨0, 0⟩, ⟨1, 0, -1⟩⟩], 1, _, fun _ => ⟨0, 0, 0, 0, 0, 0⟩, fun _ => 0, mcPnpBuild_single _ _ _, ?_,
    by rw [h0, h1], ?_⟩
  · rw [h0]; exact Representable.one.1
  · rw [pnpBuild2, residuals_map, residuals_map]
    simp only [List.flatMap_cons, List.flatMap_nil, ResBlock.residual, List.map_cons, List.map_nil, evalV2, eval1, pnpCost2,
      mcPnpCost, transformPoint_eq, Representable.one.act, Iso.apply_one, h0, h1, List.append_nil]
    intro h
    have := (List.cons.inj h).1
    simp only [projectPoint, projectPointE, M3.mulVec] at this
    norm_num at this

example : (⟨1, 0, 0, 0, 0, 0⟩ : Pose6).rot.normSq > 1 / 2 ^ 52 ∧
    ((poseCalToEigen ⟨0, 0, 0, 0, 0, 0⟩).apply ⟨0, 0, 1⟩).z > 1 / 10 ^ 10 := by
  refine ⟨by norm_num [Pose6.rot, V3.normSq, V3.dot], ?_⟩
  rw [poseCalToEigen_zero (p := ⟨0, 0, 0, 0, 0, 0⟩) rfl]
  norm_num [Iso.apply, Pose6.trans]

end RCT
