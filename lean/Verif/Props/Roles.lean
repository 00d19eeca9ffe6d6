import Verif.Spec.Roles
import Verif.Props.FrameChoice

/-!
# C231 Camera and target can exchange their roles
-/

namespace RCT

open Spec

/-- A run of the solver transferred to a problem with the same cost and as many residuals at other states. -/
theorem carry_cost {β : Type} {s : Ceres β} (hs : s.WF) {pb pb' : List (ResBlock β)} {init init' fin' : Nat → β}
    (hb : pb'.map (·.blocks) = pb.map (·.blocks)) (hframe : ∀ a, a ∉ usedBlocks pb → fin' a = init' a)
    (hI : cost pb' init' = cost pb init ∧ (residuals pb' init').length = (residuals pb init).length)
    (hF : cost pb' fin' = cost pb (s.solve pb init) ∧ (residuals pb' fin').length = (residuals pb (s.solve pb init)).length) :
    ∃ s' : Ceres β, s'.WF ∧ s'.solve pb' init' = fin' ∧ s'.converged pb' init' = s.converged pb init ∧ s'.order pb' = s.order pb ∧
      (∀ n, s'.covSolver pb' fin' n = s.covSolver pb (s.solve pb init) n) ∧
      costPerObs pb' init' = costPerObs pb init ∧ costPerObs pb' fin' = costPerObs pb (s.solve pb init) := by
  classical
  have hu : usedBlocks pb' = usedBlocks pb := by
    unfold usedBlocks
    have := congrArg (fun l : List (List Nat) => l.flatten.dedup) hb
    simpa only [List.flatMap_def] using this
  refine ⟨⟨fun q st => if q = pb' ∧ st = init' then fin' else st, fun _ _ => s.converged pb init,
    fun q => if q = pb' then s.order pb else usedBlocks q, fun _ _ => s.covCompute pb (s.solve pb init),
    fun _ _ => s.covMatrix pb (s.solve pb init)⟩, ⟨?_, ?_, ?_, ?_⟩, ?_, rfl, ?_, ?_, ?_, ?_⟩
  · intro q st a ha
    show (if q = pb' ∧ st = init' then fin' else st) a = st a
    split
    · rename_i h
      rw [h.1, hu] at ha
      rw [hframe a ha, h.2]
    · rfl
  · intro q st
    show cost q (if q = pb' ∧ st = init' then fin' else st) ≤ cost q st
    split
    · rename_i h
      rw [h.1, h.2, hI.1, hF.1]
      exact hs.descent pb init
    · exact le_refl _
  · intro q
    show (if q = pb' then s.order pb else usedBlocks q).Perm _
    split
    · rename_i h
      rw [h, hu]; exact hs.order_perm pb
    · exact .refl _
  · exact fun _ _ => hs.compute_no_throw _ _
  · exact if_pos ⟨rfl, rfl⟩
  · exact if_pos rfl
  · intro n
    unfold Ceres.covSolver
    simp only [hu]
  · unfold costPerObs
    rw [hI.1, hI.2]
  · unfold costPerObs
    rw [hF.1, hF.2]

/-- Blocks with residual vectors of the same lengths have the same cost. -/
theorem cost_map_lengths {ι β : Type} (l : List ι) (B B' : ι → ResBlock β) (st st' : Nat → β)
    (h : ∀ i ∈ l, (((B' i).residual st').map fun r => r * r).sum = (((B i).residual st).map fun r => r * r).sum ∧
      ((B' i).residual st').length = ((B i).residual st).length) :
    cost (l.map B') st' = cost (l.map B) st ∧ (residuals (l.map B') st').length = (residuals (l.map B) st).length := by
  have key : ((residuals (l.map B') st').map fun r => r * r).sum = ((residuals (l.map B) st).map fun r => r * r).sum ∧
      (residuals (l.map B') st').length = (residuals (l.map B) st).length := by
    rw [residuals_map, residuals_map]
    induction l with
    | nil => simp
    | cons a l ih =>
      obtain ⟨i1, i2⟩ := ih fun i hi => h i (List.mem_cons_of_mem _ hi)
      obtain ⟨j1, j2⟩ := h a List.mem_cons_self
      simp only [List.flatMap_cons, List.map_append, List.sum_append, List.length_append]
      exact ⟨by rw [i1, j1], by rw [i2, j2]⟩
  refine ⟨?_, key.2⟩
  unfold cost
  rw [key.1]

/-- The distance of a moved point from another one, seen from the other frame. -/
theorem dist_otherSide {T : Iso} (h : T.IsRigid) (a b : V3) :
    ((T.inv.apply b).x - a.x) * ((T.inv.apply b).x - a.x) + (((T.inv.apply b).y - a.y) * ((T.inv.apply b).y - a.y) +
      ((T.inv.apply b).z - a.z) * ((T.inv.apply b).z - a.z)) =
    ((T.apply a).x - b.x) * ((T.apply a).x - b.x) + (((T.apply a).y - b.y) * ((T.apply a).y - b.y) +
      ((T.apply a).z - b.z) * ((T.apply a).z - b.z)) := by
  obtain ⟨c, rfl⟩ : ∃ c, b = T.apply c := ⟨T.inv.apply b, (Iso.apply_inv_apply h b).symm⟩
  rw [Iso.inv_apply_apply h]
  have e := M3.IsRot.dot h (a - c) (a - c)
  simp only [V3.dot, V3.sub_x, V3.sub_y, V3.sub_z, M3.mulVec] at e
  simp only [Iso.apply, M3.mulVec, V3.add_x, V3.add_y, V3.add_z]
  linear_combination -e

/-! ## Hand-eye -/

theorem features_otherSide (obs : List (Obs Corr3)) :
    features (obs.map obsOtherSide) = (features obs).map fun x => (obsOtherSide x.1, otherSide x.2) := by
  unfold features
  rw [List.flatMap_map, List.map_flatMap]
  refine List.flatMap_congr fun o _ => ?_
  simp only [obsOtherSide, List.map_map]
  rfl

/-- The two blocks exchanged; both poses are inverted since one is kept as its inverse. -/
noncomputable def exchanged (o : Pose6) (st : Nat → Pose6) : Nat → Pose6 := fun a =>
  if a = heTgt then asPose (poseCalToEigen (st heCam)).inv else if a = heCam then asPose (poseCalToEigen (st heTgt)).inv else o

theorem exchanged_point {C T : Iso} (hC : Representable C) (hT : Representable T) (o : Pose6) (st : Nat → Pose6)
    (hc : RigidMotion (poseCalToEigen (st heCam))) (ht : RigidMotion (poseCalToEigen (st heTgt))) :
    ∃ X : Iso, X.IsRigid ∧ (∀ v, targetPointInCamera C.inv T v (st heCam) (st heTgt) = X.apply v) ∧
      ∀ v, targetPointInCamera T.inv C v (exchanged o st heCam) (exchanged o st heTgt) = X.inv.apply v := by
  have gc := (rigid_iff _).2 hc
  have gt := (rigid_iff _).2 ht
  have e1 : poseCalToEigen (exchanged o st heCam) = (poseCalToEigen (st heTgt)).inv := by
    unfold exchanged
    rw [if_neg (by decide), if_pos rfl]
    exact asPose_cal ((rigid_iff _).1 gt.inv)
  have e2 : poseCalToEigen (exchanged o st heTgt) = (poseCalToEigen (st heCam)).inv := by
    unfold exchanged
    rw [if_pos rfl]
    exact asPose_cal ((rigid_iff _).1 gc.inv)
  refine ⟨poseCalToEigen (st heCam) * (C.inv * (T * poseCalToEigen (st heTgt))), gc.mul (hC.rigid.inv.mul (hT.rigid.mul gt)), fun v => ?_, fun v => ?_⟩
  · rw [targetPointInCamera_eq hC.inv hT]
    simp only [Iso.apply_mul]
  · rw [targetPointInCamera_eq hT.inv hC, e1, e2, Iso.mul_inv_rev gc, Iso.mul_inv_rev hC.rigid.inv, Iso.mul_inv_rev hT.rigid, Iso.inv_inv hC.rigid]
    simp only [Iso.apply_mul]

/-- Hand-eye calibration from points: camera and target exchange their roles.

Full statement: when camera and target exchange their roles, with their mounts, guesses and points, the calibration reaches exactly the results
with exchanged poses and the same costs.
Missing from the full claim: poses that the six values do not represent (`C231_negation`), and results that are not rigid. Since exchanging the
roles twice gives back the problem (`C231_twice`), one direction is enough. -/
theorem C231_hand_eye_3d_partial (p : HandEyeProblem Corr3) (hm : MountsRepresentable p.observations) (hc : Representable p.cameraGuess)
    (ht : Representable p.targetGuess) (r : HandEyeResult) (h : Reaches (fun s => handEye3 s p) r) (h1 : RigidMotion r.cameraMountToCamera)
    (h2 : RigidMotion r.targetMountToTarget) : ∃ r', Reaches (fun s => handEye3 s (handEyeOtherSide p)) r' ∧ HandEyeMirrored r r' := by
  obtain ⟨s, hs, hr⟩ := h
  beta_reduce at hr
  unfold handEye3 at hr
  obtain ⟨-, e1, e2⟩ := heFinish_ok hr
  obtain ⟨pb, hpb⟩ : ∃ pb, pb = heBuild3 p := ⟨_, rfl⟩
  obtain ⟨pb', hpb'⟩ : ∃ pb', pb' = heBuild3 (handEyeOtherSide p) := ⟨_, rfl⟩
  have e : pb' = (features p.observations).map fun x => heBlock3 (obsOtherSide x.1, otherSide x.2) := by
    rw [hpb', heBuild3_eq]
    unfold handEyeOtherSide
    simp only [features_otherSide, List.map_map]
    rfl
  have e0 : pb = (features p.observations).map heBlock3 := by rw [hpb, heBuild3_eq]
  rw [← hpb] at hr e1 e2
  have hcam : RigidMotion (poseCalToEigen (s.solve pb (heInit p) heCam)) := by
    rw [e2] at h1
    exact (rigid_iff _).1 (Iso.IsRigid.of_inv ((rigid_iff _).2 h1))
  have htgt : RigidMotion (poseCalToEigen (s.solve pb (heInit p) heTgt)) := by rw [e1] at h2; exact h2
  have i1 : heInit p heCam = poseEigenToCal p.cameraGuess.inv := if_neg (by decide)
  have i2 : heInit p heTgt = poseEigenToCal p.targetGuess := if_pos rfl
  obtain ⟨o, ho⟩ : ∃ o, o = poseEigenToCal p.targetGuess.inv := ⟨_, rfl⟩
  have hinit : heInit (handEyeOtherSide p) = exchanged o (heInit p) := by
    funext a
    unfold exchanged
    rw [i1, i2, hc.inv.roundtrip, ht.roundtrip, Iso.inv_inv hc.rigid, asPose_rep hc, asPose_rep ht.inv, ho, ite_self]
    rfl
  have hres : ∀ st : Nat → Pose6, RigidMotion (poseCalToEigen (st heCam)) → RigidMotion (poseCalToEigen (st heTgt)) →
      cost pb' (exchanged o st) = cost pb st ∧ (residuals pb' (exchanged o st)).length = (residuals pb st).length := by
    intro st g1 g2
    rw [e, e0]
    refine cost_map_lengths _ _ _ _ _ fun x hx => ?_
    obtain ⟨hx1, hx2⟩ := hm x.1 (mem_features.1 hx).1
    obtain ⟨X, hX, x1, x2⟩ := exchanged_point hx1 hx2 o st g1 g2
    simp only [heBlock3, ResBlock.residual, List.map_cons, List.map_nil, eval2, handEyeCost3, obsOtherSide, otherSide, x1, x2, List.sum_cons,
      List.sum_nil, add_zero, List.length_cons, List.length_nil, and_true]
    exact dist_otherSide hX _ _
  have hf : ∀ a, a ∉ usedBlocks pb → exchanged o (s.solve pb (heInit p)) a = exchanged o (heInit p) a := by
    intro a ha
    unfold exchanged
    by_cases hne : features p.observations = []
    · have hu : ∀ b, b ∉ usedBlocks pb := fun b => by rw [e0, hne]; simp [usedBlocks]
      rw [hs.frame _ _ _ (hu heCam), hs.frame _ _ _ (hu heTgt)]
    · obtain ⟨x, hx⟩ := List.exists_mem_of_ne_nil _ hne
      have hu : ∀ b, b = heCam ∨ b = heTgt → b ∈ usedBlocks pb := fun b hb => by
        unfold usedBlocks
        rw [List.mem_dedup, List.mem_flatMap, e0]
        exact ⟨_, List.mem_map_of_mem hx, by rcases hb with rfl | rfl <;> simp [heBlock3]⟩
      rw [if_neg fun h => ha (hu a (.inr h)), if_neg fun h => ha (hu a (.inl h)), if_neg fun h => ha (hu a (.inr h)),
        if_neg fun h => ha (hu a (.inl h))]
  obtain ⟨s', hs', k1, k2, k3, k4, k5, k6⟩ := carry_cost hs (init := heInit p) (init' := heInit (handEyeOtherSide p))
    (fin' := exchanged o (s.solve pb (heInit p))) (by rw [e, e0, List.map_map, List.map_map]; rfl)
    (fun a ha => by rw [hinit]; exact hf a ha)
    (by
      rw [hinit]
      refine hres _ ?_ ?_
      · rw [i1, hc.inv.roundtrip]; exact hc.inv.1
      · rw [i2, ht.roundtrip]; exact ht.1)
    (hres _ hcam htgt)
  have f1 : poseCalToEigen (exchanged o (s.solve pb (heInit p)) heCam) = (poseCalToEigen (s.solve pb (heInit p) heTgt)).inv := by
    unfold exchanged
    rw [if_neg (by decide), if_pos rfl]
    exact asPose_cal ((rigid_iff _).1 ((rigid_iff _).2 htgt).inv)
  have f2 : poseCalToEigen (exchanged o (s.solve pb (heInit p)) heTgt) = (poseCalToEigen (s.solve pb (heInit p) heCam)).inv := by
    unfold exchanged
    rw [if_pos rfl]
    exact asPose_cal ((rigid_iff _).1 ((rigid_iff _).2 hcam).inv)
  unfold heFinish at hr
  simp only [Res.bind_ok_iff] at hr
  obtain ⟨cov, hcov, hr⟩ := hr
  cases hr
  refine ⟨⟨s.converged pb (heInit p), costPerObs pb (heInit p), costPerObs pb (s.solve pb (heInit p)),
    poseCalToEigen (exchanged o (s.solve pb (heInit p)) heTgt), (poseCalToEigen (exchanged o (s.solve pb (heInit p)) heCam)).inv, cov⟩,
    ⟨s', hs', ?_⟩, rfl, rfl, rfl, ?_, f2⟩
  · beta_reduce
    unfold handEye3
    rw [← hpb']
    simp only [heFinish, k1, k2, k3, k4, k5, k6]
    rw [show (handEyeOtherSide p).labels = p.labels from rfl, show (handEyeOtherSide p).labelCamera = p.labelCamera from rfl,
      show (handEyeOtherSide p).labelTarget = p.labelTarget from rfl, hcov, Res.ok_bind]
  · show (poseCalToEigen (exchanged o _ heCam)).inv = poseCalToEigen _
    rw [f1, Iso.inv_inv ((rigid_iff _).2 htgt)]

/-- Exchanging the roles twice gives back the problem. -/
theorem C231_twice (p : HandEyeProblem Corr3) (q : PnPProblem Corr3) (hq : RigidMotion q.guess) :
    handEyeOtherSide (handEyeOtherSide p) = p ∧ pnpOtherSide (pnpOtherSide q) = q := by
  have h1 : (otherSide ∘ otherSide) = id := rfl
  have h2 : (obsOtherSide ∘ obsOtherSide) = id := by
    funext o
    simp only [Function.comp, obsOtherSide, List.map_map, h1, List.map_id, id]
  constructor
  · simp only [handEyeOtherSide, List.map_map, h2, List.map_id]
  · simp only [pnpOtherSide, List.map_map, h1, List.map_id, Iso.inv_inv ((rigid_iff _).2 hq)]

/-- A target mount rotated by 1e-9 rad: no result has the same initial cost. -/
theorem C231_negation : ∃ (p : HandEyeProblem Corr3) (r : HandEyeResult), (∀ o ∈ p.observations, RigidMotion o.toCameraMount ∧ RigidMotion o.toTargetMount) ∧
    Representable p.cameraGuess ∧ Representable p.targetGuess ∧ Reaches (fun s => handEye3 s p) r ∧ RigidMotion r.cameraMountToCamera ∧
    RigidMotion r.targetMountToTarget ∧ ∀ r', Reaches (fun s => handEye3 s (handEyeOtherSide p)) r' → r'.initialCost ≠ r.initialCost := by
  have hone : ∀ v, poseTransformPoint (poseEigenToCal 1) v = v := fun v => by rw [Representable.one.act, Iso.apply_one]
  have ht : ∀ (P : Pose6) v, transformPoint P.rot P.trans v = poseTransformPoint P v := fun P v => by
    rw [transformPoint_eq, poseTransformPoint_eq]
  have h1 := Representable.one.1
  obtain ⟨p, hp⟩ : ∃ p : HandEyeProblem Corr3, p = ⟨[⟨[⟨⟨0, 0, 0⟩, ⟨0, 1, 0⟩⟩], 1, tinyRot⟩], ⟨1, 1, 0, 0⟩, 1, 1, "c", "t", labelsIsometry3d⟩ := ⟨_, rfl⟩
  have hb : heBuild3 p = [heBlock3 (⟨[⟨⟨0, 0, 0⟩, ⟨0, 1, 0⟩⟩], 1, tinyRot⟩, ⟨⟨0, 0, 0⟩, ⟨0, 1, 0⟩⟩)] := by rw [heBuild3_eq, hp]; rfl
  have hb' : heBuild3 (handEyeOtherSide p) = [heBlock3 (⟨[⟨⟨0, 1, 0⟩, ⟨0, 0, 0⟩⟩], tinyRot, 1⟩, ⟨⟨0, 1, 0⟩, ⟨0, 0, 0⟩⟩)] := by
    rw [heBuild3_eq, hp]; rfl
  have hi : ∀ a, heInit p a = poseEigenToCal 1 := fun a => by rw [hp]; simp [heInit, Iso.inv_one]
  have hi' : ∀ a, heInit (handEyeOtherSide p) a = poseEigenToCal 1 := fun a => by rw [hp]; simp [heInit, handEyeOtherSide, Iso.inv_one]
  obtain ⟨r, h⟩ : ∃ res, handEye3 (idCeres Pose6) p = .ok res := by
    unfold handEye3
    rw [heBuild3_eq]
    refine heFinish_id_returns p (by rw [hp]; rfl) _ ?_ _ (fun _ _ => rfl)
    rw [hp]; simp [features]
  obtain ⟨c1, c2⟩ := C34_hand_eye_3d (idCeres Pose6) p r (fun _ _ => rfl) (by rw [hp]; exact .one) (by rw [hp]; exact .one) h
  refine ⟨p, r, ?_, by rw [hp]; exact .one, by rw [hp]; exact .one, ⟨_, idCeres_wf Pose6, h⟩, by rw [c1, hp]; exact h1, by rw [c2, hp]; exact h1, ?_⟩
  · rw [hp]; intro o ho; rw [List.mem_singleton.1 ho]; exact ⟨h1, tinyRot_rigid⟩
  · rintro r' ⟨s', -, h'⟩ heq
    beta_reduce at h'
    unfold handEye3 heFinish at h h'
    simp only [Res.bind_ok_iff] at h h'
    obtain ⟨_, -, h⟩ := h
    obtain ⟨_, -, h'⟩ := h'
    cases h
    cases h'
    rw [hb, hb'] at heq
    simp only [hi, hi', costPerObs, cost, residuals, ResBlock.residual, List.flatMap_cons, List.flatMap_nil, List.append_nil, List.map_cons,
      List.map_nil, heBlock3, eval2, handEyeCost3, targetPointInCamera, ht, hone, tinyRot_act, tinyRot_inv_act, Iso.inv_one] at heq
    norm_num at heq

/-! ## PnP -/

/-- PnP from points: the pose of the camera in the target. -/
theorem C231_pnp_3d (p : PnPProblem Corr3) (hg : RigidMotion p.guess) (r : PnPResult) (h : Reaches (fun s => pnp3 s p) r) :
    ∃ r', Reaches (fun s => pnp3 s (pnpOtherSide p)) r' ∧ PnPMirrored r r' := by
  obtain ⟨s, hs, hr⟩ := h
  beta_reduce at hr
  unfold pnp3 at hr
  obtain ⟨B, hB⟩ : ∃ B : Corr3 → ResBlock V3, B = fun k => ⟨[pnpRot, pnpTrans], evalV2 (pnpCost3 k.inTarget k.inImage)⟩ := ⟨_, rfl⟩
  obtain ⟨pb, hpb⟩ : ∃ pb, pb = p.correspondences.map B := ⟨_, rfl⟩
  obtain ⟨pb', hpb'⟩ : ∃ pb', pb' = p.correspondences.map fun k => B (otherSide k) := ⟨_, rfl⟩
  have hr : pnpFinish s p pb = .ok r := by rw [hpb, hB]; exact hr
  have hbuild : ∀ s', pnp3 s' (pnpOtherSide p) = pnpFinish s' (pnpOtherSide p) pb' := fun s' => by
    unfold pnp3 pnpBuild3
    rw [hpb', hB]
    simp only [pnpOtherSide, List.map_map]
    rfl
  have gg := (rigid_iff _).2 hg
  obtain ⟨st, hst⟩ : ∃ st, st = s.solve pb (pnpInit p.guess) := ⟨_, rfl⟩
  obtain ⟨T, hT⟩ : ∃ T, T = pnpTransform (st pnpRot) (st pnpTrans) := ⟨_, rfl⟩
  have hTr : T.IsRigid := by rw [hT]; exact pnpTransform_rigid _ _
  have hgi : (pnpOtherSide p).guess = p.guess.inv := rfl
  have hres : ∀ (st st' : Nat → V3), pnpTransform (st' pnpRot) (st' pnpTrans) = (pnpTransform (st pnpRot) (st pnpTrans)).inv →
      cost pb' st' = cost pb st ∧ (residuals pb' st').length = (residuals pb st).length := by
    intro st st' h
    rw [hpb, hpb', hB]
    refine cost_map_lengths _ _ _ _ _ fun k _ => ?_
    simp only [ResBlock.residual, List.map_cons, List.map_nil, evalV2, pnpCost3, h, otherSide, List.sum_cons, List.sum_nil, add_zero,
      List.length_cons, List.length_nil, and_true]
    exact dist_otherSide (pnpTransform_rigid _ _) _ _
  obtain ⟨s', hs', k1, k2, -, k4, k5, k6⟩ := carry_cost hs (pb := pb) (pb' := pb') (init := pnpInit p.guess)
    (init' := pnpInit (pnpOtherSide p).guess) (fin' := fun a => if a = pnpRot ∨ a = pnpTrans then pnpInit T.inv a else pnpInit (pnpOtherSide p).guess a)
    (by rw [hpb, hpb', hB, List.map_map, List.map_map]; rfl)
    (fun a ha => by
      split
      · rename_i hab
        have hnil : p.correspondences = [] := by
          by_contra hne
          obtain ⟨k, hk⟩ := List.exists_mem_of_ne_nil _ hne
          refine ha ?_
          unfold usedBlocks
          rw [List.mem_dedup, List.mem_flatMap, hpb]
          exact ⟨_, List.mem_map_of_mem hk, by rw [hB]; rcases hab with rfl | rfl <;> simp⟩
        have : T = p.guess := by
          have hu : ∀ b, st b = pnpInit p.guess b := fun b => by
            rw [hst]
            refine hs.frame _ _ _ ?_
            rw [hpb, hnil]
            simp [usedBlocks]
          rw [hT, hu, hu, pnpInit_transform gg]
        rw [this, hgi]
      · rfl)
    (hres _ _ (by rw [hgi, pnpInit_transform gg.inv, pnpInit_transform gg]))
    (by
      rw [← hst]
      refine hres _ _ ?_
      simp only [true_or, or_true, if_true]
      rw [pnpInit_transform hTr.inv, hT])
  unfold pnpFinish at hr
  simp only [Res.bind_ok_iff] at hr
  obtain ⟨cov, hcov, hr⟩ := hr
  cases hr
  refine ⟨⟨s.converged pb (pnpInit p.guess), costPerObs pb (pnpInit p.guess), costPerObs pb (s.solve pb (pnpInit p.guess)), T.inv, cov⟩,
    ⟨s', hs', ?_⟩, rfl, rfl, rfl, ?_⟩
  · beta_reduce
    rw [hbuild]
    simp only [pnpFinish, k1, k2, k4, k5, k6]
    rw [show (pnpOtherSide p).label = p.label from rfl, hcov, Res.ok_bind]
    simp only [true_or, or_true, if_true]
    rw [pnpInit_transform hTr.inv]
  · show T.inv = _
    rw [hT, hst]

/-! ## Circle fit -/

noncomputable def circleCarried (m : PlaneMotion) (st : Nat → Mem) : Nat → Mem := fun a => if a = 0 then fun o => match o with
    | 0 => (m.apply ⟨st 0 0, st 0 1⟩).x | 1 => (m.apply ⟨st 0 0, st 0 1⟩).y | o => st 0 o
  else st a

/-- Circle fit: the circle moves with the points. -/
theorem C231_circle (m : PlaneMotion) (hm : m.Rigid) (p : CircleFitProblem) (r : CircleFitResult) (h : Reaches (fun s => circleFit s p) r) :
    ∃ r', Reaches (fun s => circleFit s (circleElsewhere m p)) r' ∧ CircleMoved m r r' := by
  obtain ⟨s, hs, h⟩ := h
  obtain ⟨m1, m2, m3⟩ := hm
  have e : circleBuild (circleElsewhere m p) = p.observations.map fun o => ⟨[0], evalMem1 (circleCost (m.apply o))⟩ := by
    unfold circleBuild circleElsewhere
    rw [List.map_map]
    rfl
  have key : ∀ st : Nat → Mem, residuals (circleBuild (circleElsewhere m p)) (circleCarried m st) = residuals (circleBuild p) st := by
    intro st
    rw [e]
    unfold circleBuild
    rw [residuals_map, residuals_map]
    refine flatMap_congr' fun o _ => ?_
    simp only [ResBlock.residual, List.map_cons, List.map_nil, evalMem1, circleCost, circleCarried, if_true, PlaneMotion.apply, List.cons.injEq, and_true]
    linear_combination -(o.x - st 0 0) ^ 2 * m1 - (o.y - st 0 1) ^ 2 * m2 - 2 * (o.x - st 0 0) * (o.y - st 0 1) * m3
  have hinit : circleInit (circleElsewhere m p) = circleCarried m (circleInit p) := by
    funext a o
    unfold circleCarried
    split
    · rename_i ha
      subst ha
      match o with
      | 0 => rfl
      | 1 => rfl
      | 2 => rfl
      | n + 3 => rfl
    · rename_i ha
      simp only [circleInit, if_neg ha]
  obtain ⟨s', hs', h1, h2, h3, h4, h5, h6⟩ := carry_same hs (by rw [e]; unfold circleBuild; rw [List.map_map, List.map_map]; rfl)
    (fun a ha => by
      show circleCarried m (s.solve (circleBuild p) (circleInit p)) a = circleCarried m (circleInit p) a
      unfold circleCarried
      split
      · rename_i h0; subst h0; rw [hs.frame _ _ _ ha]
      · rw [hs.frame _ _ _ ha]) (key (circleInit p)) (key _)
  beta_reduce at h
  unfold circleFit at h
  simp only [Res.bind_ok_iff] at h
  obtain ⟨cov, hcov, h⟩ := h
  cases h
  refine ⟨⟨s.converged (circleBuild p) (circleInit p), costPerObs (circleBuild p) (circleInit p),
    costPerObs (circleBuild p) (s.solve (circleBuild p) (circleInit p)), cov,
    circleCarried m (s.solve (circleBuild p) (circleInit p)) 0 0, circleCarried m (s.solve (circleBuild p) (circleInit p)) 0 1,
    circleCarried m (s.solve (circleBuild p) (circleInit p)) 0 2 ^ 2⟩, ⟨s', hs', ?_⟩, rfl, rfl, rfl, rfl, rfl⟩
  beta_reduce
  unfold circleFit
  simp only [hinit, h1, h2, h3, h4, h5, h6]
  rw [hcov, Res.ok_bind]

/-- A quarter turn with a shift. A run on one point, which the camera sees two metres away, and a run on three points of a circle. -/
example : (∃ (p : HandEyeProblem Corr3) (r : HandEyeResult), MountsRepresentable p.observations ∧ Representable p.cameraGuess ∧
      Representable p.targetGuess ∧ features p.observations ≠ [] ∧ Reaches (fun s => handEye3 s p) r ∧ RigidMotion r.cameraMountToCamera ∧
      RigidMotion r.targetMountToTarget) ∧
    (∃ (p : PnPProblem Corr3) (r : PnPResult), RigidMotion p.guess ∧ p.correspondences ≠ [] ∧ Reaches (fun s => pnp3 s p) r) ∧
    ∃ (m : PlaneMotion) (p : CircleFitProblem) (r : CircleFitResult), m.Rigid ∧ m.m00 ≠ 1 ∧ p.observations.length = 3 ∧
      Reaches (fun s => circleFit s p) r := by
  refine ⟨?_, ?_, ?_⟩
  · obtain ⟨p, hp⟩ : ∃ p : HandEyeProblem Corr3, p = ⟨[⟨[⟨⟨0, 0, 2⟩, ⟨0, 1, 0⟩⟩], 1, 1⟩], ⟨1, 1, 0, 0⟩, 1, 1, "c", "t", labelsIsometry3d⟩ := ⟨_, rfl⟩
    have hne : features p.observations ≠ [] := by rw [hp]; simp [features]
    obtain ⟨r, h⟩ : ∃ res, handEye3 (idCeres Pose6) p = .ok res := by
      unfold handEye3
      rw [heBuild3_eq]
      exact heFinish_id_returns p (by rw [hp]; rfl) _ hne _ (fun _ _ => rfl)
    obtain ⟨c1, c2⟩ := C34_hand_eye_3d (idCeres Pose6) p r (fun _ _ => rfl) (by rw [hp]; exact .one) (by rw [hp]; exact .one) h
    refine ⟨p, r, ?_, by rw [hp]; exact .one, by rw [hp]; exact .one, hne, ⟨_, idCeres_wf Pose6, h⟩, by rw [c1, hp]; exact Representable.one.1,
      by rw [c2, hp]; exact Representable.one.1⟩
    rw [hp]; intro o ho; rw [List.mem_singleton.1 ho]; exact ⟨.one, .one⟩
  · obtain ⟨p, hp⟩ : ∃ p : PnPProblem Corr3, p = ⟨⟨1, 1, 0, 0⟩, [⟨⟨0, 0, 2⟩, ⟨0, 1, 0⟩⟩], 1, "l"⟩ := ⟨_, rfl⟩
    have hne : p.correspondences ≠ [] := by rw [hp]; simp
    obtain ⟨r, h⟩ := pnp3_id_returns p hne
    exact ⟨p, r, by rw [hp]; exact Representable.one.1, hne, ⟨_, idCeres_wf V3, h⟩⟩
  · obtain ⟨p, hp⟩ : ∃ p : CircleFitProblem, p = ⟨[⟨1, 0⟩, ⟨0, 1⟩, ⟨-1, 0⟩], 0, 0, 1⟩ := ⟨_, rfl⟩
    obtain ⟨r, h⟩ := circle_id_returns p (by rw [hp]; simp)
    exact ⟨⟨0, -1, 1, 0, 3, 4⟩, p, r, by norm_num [PlaneMotion.Rigid], by norm_num, by rw [hp]; rfl, ⟨_, idCeres_wf Mem, h⟩⟩

end RCT
