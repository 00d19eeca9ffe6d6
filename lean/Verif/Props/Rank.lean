import Verif.Lemmas.RankPair
import Verif.Lemmas.RankWitness
import Verif.Props.IdentifyStatic
import Verif.Props.Mains

/-!
# C194, C195 Data that do not determine a calibration are reported as an error
-/

namespace RCT

open Spec Filter Topology

/-! ## C194 Hand-eye calibration -/

theorem heBlock3_pair (p : HandEyeProblem Corr3) (hm : MountsRepresentable p.observations) :
    PairBlocks3 (features p.observations) heBlock3 (fun _ => heCam) (fun _ => heTgt)
      (fun f => f.1.toCameraMount.inv * f.1.toTargetMount) (fun f => f.2.inTarget) (fun f => f.2.inImage) where
  blocks := fun _ _ => rfl
  differ := fun _ _ => by decide
  point := fun f hf st => by
    have h := hm f.1 (mem_features.1 hf).1
    simp only [heBlock3, ResBlock.residual, List.map_cons, List.map_nil, eval2, handEyeCost3, chainPoint,
      targetPointInCamera_eq h.1.inv h.2, Iso.apply_mul]

theorem heBlock2_pair (p : HandEyeProblem Corr2) (hm : MountsRepresentable p.observations) :
    PairBlocks2 (features p.observations) (heBlock2 p.intr) (fun _ => heCam) (fun _ => heTgt)
      (fun f => f.1.toCameraMount.inv * f.1.toTargetMount) (fun f => f.2.inTarget) (fun _ => p.intr) (fun f => f.2.inImage) where
  blocks := fun _ _ => rfl
  differ := fun _ _ => by decide
  point := fun f hf st => by
    have h := hm f.1 (mem_features.1 hf).1
    simp only [heBlock2, ResBlock.residual, List.map_cons, List.map_nil, eval2, handEyeCost2, chainPoint,
      targetPointInCamera_eq h.1.inv h.2, Iso.apply_mul]

theorem heFinish_throws {κ α : Type} {s : Ceres Pose6} (hs : s.WF) (p : HandEyeProblem κ) (hlen : p.labels.length = 6) (l : List α)
    (hl : l ≠ []) (g : α → ResBlock Pose6) (hg : ∀ a ∈ l, (g a).blocks = [heCam, heTgt])
    (h : ∀ b, b.Perm (usedBlocks (l.map g)) → s.covCompute (l.map g) (s.solve (l.map g) (heInit p)) b = .ok false) :
    heFinish s p (l.map g) = .throw .covariance := by
  have hperm := usedBlocks_const l hl g [heCam, heTgt] (by decide) hg
  obtain ⟨pb, hpb⟩ : ∃ pb, pb = l.map g := ⟨_, rfl⟩
  rw [← hpb] at hperm h ⊢
  have ho := hs.order_perm pb
  unfold heFinish
  simp only
  rw [computeCovariance_throws (by rw [(ho.trans hperm).length_eq]; rfl) (by
      intro b hb
      have hu : b ∈ usedBlocks pb := ho.subset hb
      refine ⟨poseLabels p.labels (if b = heCam then p.labelCamera else p.labelTarget), ?_, ?_⟩
      · have := hperm.subset hu
        simp only [List.mem_cons, List.not_mem_nil, or_false] at this
        rw [SMap.find_insert, SMap.find_insert]
        rcases this with rfl | rfl
        · rw [if_neg (by decide), if_pos rfl, if_pos rfl]
        · rw [if_pos rfl, if_neg (by decide)]
      · simp [Ceres.covSolver, hu, poseLabels, hlen]) (h _ ho)]
  rfl

theorem heInit_plain {κ : Type} {p : HandEyeProblem κ} (hc : Representable p.cameraGuess) (ht : Representable p.targetGuess) (a : Nat) :
    PlainPose (heInit p a) := by
  unfold heInit
  split
  · exact ht.plain
  · exact hc.inv.plain

/-- Straight motions of both poses of a hand-eye calibration. -/
def heSpeeds (dc dt : Nat → ℝ) (b : Nat) : Nat → ℝ := if b = heTgt then dt else dc

theorem heUsed {κ : Type} {l : List (Obs κ × κ)} (hl : l ≠ []) {g : Obs κ × κ → ResBlock Pose6}
    (hg : ∀ a ∈ l, (g a).blocks = [heCam, heTgt]) : heTgt ∈ usedBlocks (l.map g) ∧ (usedBlocks (l.map g)).length = 2 := by
  have hperm := usedBlocks_const l hl g [heCam, heTgt] (by decide) hg
  exact ⟨hperm.symm.subset (by simp), hperm.length_eq⟩

/-- The target turns about a line on which all features lie. -/
theorem line_still {p : Pose6} (hp : Plain p) (q₀ b : V3) :
    ∃ d : Nat → ℝ, (∃ k < 6, d k ≠ 0) ∧ ∀ x : ℝ,
      (poseTurn p.rot (dRot d)).cross ((poseCalToEigen p).R.mulVec (q₀ + V3.smul x b)) + dTrans d = 0 := by
  by_cases hb : b = 0
  · subst hb
    have h1 : ∀ x : ℝ, q₀ + V3.smul x 0 = q₀ := fun x => by ext <;> simp [V3.smul]
    simp only [h1]
    obtain ⟨d, c, hd, hv⟩ := twist_exists hp ⟨1, 0, 0⟩ (-(V3.cross ⟨1, 0, 0⟩ ((poseCalToEigen p).apply q₀)))
      (Or.inl fun h => by simpa using congrArg V3.x h)
    refine ⟨d, hd, fun _ => ?_⟩
    have := (pose_speed d hp (SpeedV3.const q₀)).unique (hv _ _ (SpeedV3.const q₀))
    rw [show (poseCalToEigen p).R.mulVec 0 = 0 by ext <;> simp [M3.mulVec], V3.add_zero, V3.add_zero] at this
    rw [this]
    ext <;> simp [V3.smul]
  · have hrot := ((poseCalToEigen_rigid_iff p).2 hp)
    obtain ⟨w, hw⟩ : ∃ w, w = (poseCalToEigen p).R.mulVec b := ⟨_, rfl⟩
    have hw0 : w ≠ 0 := by
      rw [hw]
      intro h
      apply hb
      have := congrArg (fun v => (poseCalToEigen p).R.tr.mulVec v) h
      rw [← M3.mulVec_mul, hrot.1, M3.one_mulVec] at this
      rw [this]
      ext <;> simp [M3.mulVec]
    obtain ⟨d, c, hd, hv⟩ := twist_exists hp w (-(w.cross ((poseCalToEigen p).apply q₀))) (Or.inl hw0)
    refine ⟨d, hd, fun x => ?_⟩
    have := (pose_speed d hp (SpeedV3.const (q₀ + V3.smul x b))).unique (hv _ _ (SpeedV3.const (q₀ + V3.smul x b)))
    rw [show (poseCalToEigen p).R.mulVec 0 = 0 by ext <;> simp [M3.mulVec], V3.add_zero, V3.add_zero] at this
    rw [this]
    have e : (poseCalToEigen p).apply (q₀ + V3.smul x b) = (poseCalToEigen p).apply q₀ + V3.smul x w := by
      rw [hw]
      ext <;> simp [Iso.apply, M3.mulVec, V3.smul] <;> ring
    rw [e]
    generalize (poseCalToEigen p).apply q₀ = y
    ext <;> simp only [V3.smul, V3.cross, V3.add_x, V3.add_y, V3.add_z, V3.neg_x, V3.neg_y, V3.neg_z, V3.zero_x, V3.zero_y, V3.zero_z] <;> ring

/-- Directions in which the poses of a hand-eye calibration can move without moving a feature in a camera image. -/
inductive HeBlind {κ : Type} (pt : κ → V3) (obs : List (Obs κ)) : Prop
  | axis (a : V3) (ha : a ≠ 0) (hfix : ∀ o ∈ obs, ∀ o' ∈ obs, (mountMotion o o').R.mulVec a = a)
  | line (q₀ b : V3) (hline : ∀ f ∈ features obs, ∃ x : ℝ, pt f.2 = q₀ + V3.smul x b)

theorem HeBlind.still {κ : Type} {pt : κ → V3} {obs : List (Obs κ)} (h : HeBlind pt obs) (hne : features obs ≠ [])
    (hm : MountsRepresentable obs) {tgt : Pose6} (ht : Plain tgt) :
    ∃ dt : Nat → ℝ, (∃ k < 6, dt k ≠ 0) ∧ ∀ cam : Pose6, ∃ dc : Nat → ℝ, ∀ f ∈ features obs,
      chainVel dc dt (f.1.toCameraMount.inv * f.1.toTargetMount) (pt f.2) cam tgt = 0 := by
  have z : ∀ R : M3, R.mulVec 0 = 0 := fun R => by ext <;> simp [M3.mulVec]
  cases h with
  | axis a ha hfix =>
    obtain ⟨f₀, hf₀⟩ := List.exists_mem_of_ne_nil _ hne
    have ho := (mem_features.1 hf₀).1
    obtain ⟨C₀, hC₀⟩ : ∃ C, C = f₀.1.toCameraMount.inv * f₀.1.toTargetMount := ⟨_, rfl⟩
    have r₀ : C₀.IsRigid := hC₀ ▸ (hm _ ho).1.rigid.inv.mul (hm _ ho).2.rigid
    obtain ⟨b, hb⟩ : ∃ b, b = C₀.R.tr.mulVec a := ⟨_, rfl⟩
    have hab : ∀ f ∈ features obs, (f.1.toCameraMount.inv * f.1.toTargetMount).R.mulVec b = a := by
      intro f hf
      have := hfix f.1 (mem_features.1 hf).1 f₀.1 ho
      unfold mountMotion at this
      rw [← hC₀] at this
      rw [hb, ← M3.mulVec_mul]
      exact this
    have hb0 : b ≠ 0 := by
      intro h
      have := hab f₀ hf₀
      rw [h, z] at this
      exact ha this.symm
    refine ⟨fun k => match k with | 3 => b.x | 4 => b.y | 5 => b.z | _ => 0, ?_, fun cam => ?_⟩
    · by_contra hall
      push Not at hall
      have a3 := hall 3 (by norm_num)
      have a4 := hall 4 (by norm_num)
      have a5 := hall 5 (by norm_num)
      exact hb0 (V3.ext a3 a4 a5)
    · obtain ⟨v, hv⟩ : ∃ v, v = -((poseCalToEigen cam).R.mulVec a) := ⟨_, rfl⟩
      refine ⟨fun k => match k with | 3 => v.x | 4 => v.y | 5 => v.z | _ => 0, fun f hf => ?_⟩
      unfold chainVel
      have e1 : dRot (fun k => match k with | 3 => v.x | 4 => v.y | 5 => v.z | _ => 0) = 0 := rfl
      have e2 : dRot (fun k => match k with | 3 => b.x | 4 => b.y | 5 => b.z | _ => 0) = 0 := rfl
      have e3 : dTrans (fun k => match k with | 3 => v.x | 4 => v.y | 5 => v.z | _ => 0) = v := rfl
      have e4 : dTrans (fun k => match k with | 3 => b.x | 4 => b.y | 5 => b.z | _ => 0) = b := rfl
      rw [e1, e2, e3, e4, poseTurn_zero, poseTurn_zero]
      have c0 : ∀ x : V3, (0 : V3).cross x = 0 := fun x => by ext <;> simp [V3.cross]
      rw [c0, c0, V3.zero_add, V3.zero_add, hab f hf, hv]
      ext <;> simp
  | line q₀ b hline =>
    obtain ⟨d, hd, hv⟩ := line_still ht q₀ b
    refine ⟨d, hd, fun cam => ⟨fun _ => 0, fun f hf => ?_⟩⟩
    obtain ⟨x, hx⟩ := hline f hf
    unfold chainVel
    have e2 : dRot (fun _ => (0 : ℝ)) = 0 := rfl
    have e4 : dTrans (fun _ => (0 : ℝ)) = 0 := rfl
    rw [e2, e4, poseTurn_zero, hx, hv x, z, z]
    ext <;> simp [V3.cross]

theorem handEye3_blind (s : Ceres Pose6) (hs : s.WF) (hk : KeepsPlain s)
    (hr : RejectsSingular s Pose6.mem (fun _ => 6) fun st => ∀ a, PlainPose (st a)) (p : HandEyeProblem Corr3)
    (hm : MountsRepresentable p.observations) (hc : Representable p.cameraGuess) (ht : Representable p.targetGuess)
    (hl : p.labels.length = 6) (hn : 4 ≤ (features p.observations).length) (hb : HeBlind Corr3.inTarget p.observations) :
    handEye3 s p = .throw .covariance := by
  have hne : features p.observations ≠ [] := by intro h; rw [h] at hn; simp at hn
  unfold handEye3
  rw [heBuild3_eq]
  have hplain := hk ((features p.observations).map heBlock3) _ fun a => heInit_plain hc ht a
  refine heFinish_throws hs p hl _ hne _ (fun _ _ => rfl) fun l hperm => hr _ _ _ hperm hplain ?_
  obtain ⟨dt, hd, hv⟩ := hb.still hne hm (hplain heTgt)
  obtain ⟨dc, hv⟩ := hv (s.solve ((features p.observations).map heBlock3) (heInit p) heCam)
  obtain ⟨hu, hlen⟩ := heUsed hne (g := heBlock3) fun _ _ => rfl
  exact (heBlock3_pair p hm).singular (fun b _ => hplain b) hne (by rw [hlen]; omega) (d := heSpeeds dc dt)
    ⟨heTgt, hu, hd⟩ hv

theorem handEye2_blind (s : Ceres Pose6) (hs : s.WF) (hk : KeepsPlain s)
    (hr : RejectsSingular s Pose6.mem (fun _ => 6) fun st => ∀ a, PlainPose (st a)) (p : HandEyeProblem Corr2)
    (hm : MountsRepresentable p.observations) (hc : Representable p.cameraGuess) (ht : Representable p.targetGuess)
    (hf : p.intr.fx ≠ 0) (hn : 6 ≤ (features p.observations).length) (hb : HeBlind Corr2.inTarget p.observations)
    (res : HandEyeResult) (h : handEye2 s p = .ok res) :
    ∃ f ∈ features p.observations, (inCamera2 res.cameraMountToCamera res.targetMountToTarget f).z = 0 := by
  have hne : features p.observations ≠ [] := by intro h; rw [h] at hn; simp at hn
  unfold handEye2 at h
  rcases heBuild2_cases p with ⟨-, hb'⟩ | ⟨-, hb'⟩
  swap
  · rw [hb'] at h; cases h
  rw [hb', Res.ok_bind] at h
  by_contra hz
  push Not at hz
  have hplain := hk ((features p.observations).map (heBlock2 p.intr)) _ fun a => heInit_plain hc ht a
  obtain ⟨h1, h2, h3⟩ := heFinish_ok h
  obtain ⟨dt, hd, hv⟩ := hb.still hne hm (hplain heTgt)
  obtain ⟨dc, hv⟩ := hv (s.solve ((features p.observations).map (heBlock2 p.intr)) (heInit p) heCam)
  obtain ⟨hu, hlen⟩ := heUsed hne (g := heBlock2 p.intr) fun _ _ => rfl
  refine computeCovariance_rejected (hr _ _ _ (hs.order_perm _) hplain ?_) _ h1
  refine (heBlock2_pair p hm).singular (fun b _ => hplain b) (fun f hf => ?_) hne (fun _ _ => hf) (by rw [hlen]; omega)
    (d := heSpeeds dc dt) ⟨heTgt, hu, hd⟩ fun f hf => ?_
  · have := hz f hf
    rw [h2, h3] at this
    unfold inCamera2 Spec.targetInCamera at this
    rw [Iso.inv_inv (PlainPose.rigid (hplain heCam))] at this
    simpa only [chainPoint, Iso.apply_mul] using this
  · have : chainVel (heSpeeds dc dt heCam) (heSpeeds dc dt heTgt) (f.1.toCameraMount.inv * f.1.toTargetMount) f.2.inTarget
      (s.solve ((features p.observations).map (heBlock2 p.intr)) (heInit p) heCam)
      (s.solve ((features p.observations).map (heBlock2 p.intr)) (heInit p) heTgt) = 0 := hv f hf
    rw [this]
    exact pixelSpeed_zero _ _

/-- Hand-eye calibration from points: if all motions of the robot leave a direction unchanged, there is an exception instead of a
result. -/
theorem C194_axis_3d (s : Ceres Pose6) (hs : s.WF) (hk : KeepsPlain s)
    (hr : RejectsSingular s Pose6.mem (fun _ => 6) fun st => ∀ a, PlainPose (st a)) (p : HandEyeProblem Corr3)
    (hm : MountsRepresentable p.observations) (hc : Representable p.cameraGuess) (ht : Representable p.targetGuess)
    (hl : p.labels.length = 6) (hn : 4 ≤ (features p.observations).length) (a : V3) (ha : a ≠ 0)
    (hfix : ∀ o ∈ p.observations, ∀ o' ∈ p.observations, (mountMotion o o').R.mulVec a = a) :
    handEye3 s p = .throw .covariance :=
  handEye3_blind s hs hk hr p hm hc ht hl hn (.axis a ha hfix)

/-- The same if all features are on one line of the target. -/
theorem C194_line_3d (s : Ceres Pose6) (hs : s.WF) (hk : KeepsPlain s)
    (hr : RejectsSingular s Pose6.mem (fun _ => 6) fun st => ∀ a, PlainPose (st a)) (p : HandEyeProblem Corr3)
    (hm : MountsRepresentable p.observations) (hc : Representable p.cameraGuess) (ht : Representable p.targetGuess)
    (hl : p.labels.length = 6) (hn : 4 ≤ (features p.observations).length) (q₀ b : V3)
    (hline : ∀ f ∈ features p.observations, ∃ x : ℝ, f.2.inTarget = q₀ + V3.smul x b) :
    handEye3 s p = .throw .covariance :=
  handEye3_blind s hs hk hr p hm hc ht hl hn (.line q₀ b hline)

/-- Hand-eye calibration from pixels: a result means that some feature is in the plane of the camera centre or that no direction
is unchanged by all motions of the robot. -/
theorem C194_axis (s : Ceres Pose6) (hs : s.WF) (hk : KeepsPlain s)
    (hr : RejectsSingular s Pose6.mem (fun _ => 6) fun st => ∀ a, PlainPose (st a)) (p : HandEyeProblem Corr2)
    (hm : MountsRepresentable p.observations) (hc : Representable p.cameraGuess) (ht : Representable p.targetGuess)
    (hf : p.intr.fx ≠ 0) (hn : 6 ≤ (features p.observations).length) (a : V3) (ha : a ≠ 0)
    (hfix : ∀ o ∈ p.observations, ∀ o' ∈ p.observations, (mountMotion o o').R.mulVec a = a)
    (res : HandEyeResult) (h : handEye2 s p = .ok res) :
    ∃ f ∈ features p.observations, (inCamera2 res.cameraMountToCamera res.targetMountToTarget f).z = 0 :=
  handEye2_blind s hs hk hr p hm hc ht hf hn (.axis a ha hfix) res h

/-- The same if all features are on one line of the target. -/
theorem C194_line (s : Ceres Pose6) (hs : s.WF) (hk : KeepsPlain s)
    (hr : RejectsSingular s Pose6.mem (fun _ => 6) fun st => ∀ a, PlainPose (st a)) (p : HandEyeProblem Corr2)
    (hm : MountsRepresentable p.observations) (hc : Representable p.cameraGuess) (ht : Representable p.targetGuess)
    (hf : p.intr.fx ≠ 0) (hn : 6 ≤ (features p.observations).length) (q₀ b : V3)
    (hline : ∀ f ∈ features p.observations, ∃ x : ℝ, f.2.inTarget = q₀ + V3.smul x b)
    (res : HandEyeResult) (h : handEye2 s p = .ok res) :
    ∃ f ∈ features p.observations, (inCamera2 res.cameraMountToCamera res.targetMountToTarget f).z = 0 :=
  handEye2_blind s hs hk hr p hm hc ht hf hn (.line q₀ b hline) res h

/-! ## C195 Calibration of several static cameras -/

/-- The residual block of one feature. -/
noncomputable def msBlock (p : MsProblem) (f : Feature) : ResBlock Pose6 :=
  ⟨[msCam f.cam, msTgt], eval2 (msCost f.corr.inImage (p.intr.getD f.cam ⟨0, 0, 0, 0⟩) ((p.wristPoses.getD f.cam []).getD f.img 1)
    f.corr.inTarget)⟩

/-- All features of a problem. -/
def msFeatures (p : MsProblem) : List Feature :=
  byCamera p.observations p.baseToCameraGuess.length fun c => (p.wristPoses.getD c []).length

theorem msBuild_eq {p : MsProblem} {pb : List (ResBlock Pose6)} (h : msBuild p = .ok pb) : pb = (msFeatures p).map (msBlock p) := by
  have hf := msBuild_blocks h
  unfold msFeatures
  clear h
  generalize (byCamera p.observations p.baseToCameraGuess.length fun c => (p.wristPoses.getD c []).length) = l at hf
  induction hf with
  | nil => rfl
  | cons hb _ ih =>
    obtain ⟨intr, wp, w, h1, h2, h3, rfl⟩ := hb
    rw [List.map_cons, ← ih]
    unfold msBlock
    rw [getD_of_some h1, getD_of_some h2, getD_of_some h3]

theorem msFeatures_wrist {p : MsProblem} {f : Feature} (hf : f ∈ msFeatures p) :
    ∃ wp ∈ p.wristPoses, (p.wristPoses.getD f.cam []).getD f.img 1 ∈ wp := by
  obtain ⟨-, h2, -⟩ := mem_byCamera hf
  cases hw : p.wristPoses[f.cam]? with
  | none => rw [List.getD_eq_getElem?_getD, hw] at h2; simp at h2
  | some wp =>
    rw [getD_of_some hw] at h2 ⊢
    exact ⟨wp, List.mem_of_getElem? hw, by rw [getD_of_some (List.getElem?_eq_getElem h2)]; exact List.getElem_mem h2⟩

theorem msBlock_pair (p : MsProblem) (hw : ∀ wp ∈ p.wristPoses, ∀ w ∈ wp, Representable w) :
    PairBlocks2 (msFeatures p) (msBlock p) (fun f => msCam f.cam) (fun _ => msTgt)
      (fun f => (p.wristPoses.getD f.cam []).getD f.img 1) (fun f => f.corr.inTarget) (fun f => p.intr.getD f.cam ⟨0, 0, 0, 0⟩)
      (fun f => f.corr.inImage) where
  blocks := fun _ _ => rfl
  differ := fun f _ => by simp [msCam, msTgt]
  point := fun f hf st => by
    obtain ⟨wp, h1, h2⟩ := msFeatures_wrist hf
    have h := hw wp h1 _ h2
    simp only [msBlock, ResBlock.residual, List.map_cons, List.map_nil, eval2, msCost, chainPoint, transformPoint_eq,
      poseTransformPoint_eq, h.roundtrip]

theorem msInit_plain {p : MsProblem} (hc : ∀ c ∈ p.baseToCameraGuess, Representable c) (ht : Representable p.wristToTargetGuess)
    (a : Nat) : PlainPose (msInit p a) := by
  unfold msInit
  split
  · exact ht.plain
  · split
    · rename_i g hg
      exact (hc g (List.mem_of_getElem? hg)).inv.plain
    · exact .inl rfl

/-- The observations of a calibration of several cameras as observations of a hand-eye calibration, one for each feature. -/
def msObs (p : MsProblem) : List (Obs Corr2) := (msFeatures p).map fun f => ⟨[f.corr], 1, (p.wristPoses.getD f.cam []).getD f.img 1⟩

theorem msObs_mem {p : MsProblem} {f : Feature} (hf : f ∈ msFeatures p) :
    ((⟨[f.corr], 1, (p.wristPoses.getD f.cam []).getD f.img 1⟩, f.corr) : Obs Corr2 × Corr2) ∈ features (msObs p) :=
  mem_features.2 ⟨List.mem_map.2 ⟨f, hf, rfl⟩, by simp⟩

/-- The poses can move without moving a feature in a camera image. -/
def MsBlind (p : MsProblem) : Prop :=
  ∀ st : Nat → Pose6, (∀ a, PlainPose (st a)) → ∃ dt : Nat → ℝ, (∃ k < 6, dt k ≠ 0) ∧ ∃ dc : Nat → Nat → ℝ, ∀ f ∈ msFeatures p,
    chainVel (dc (msCam f.cam)) dt ((p.wristPoses.getD f.cam []).getD f.img 1) f.corr.inTarget (st (msCam f.cam)) (st msTgt) = 0

theorem HeBlind.ms {p : MsProblem} (hw : ∀ wp ∈ p.wristPoses, ∀ w ∈ wp, Representable w) (hne : msFeatures p ≠ [])
    (hb : HeBlind Corr2.inTarget (msObs p)) : MsBlind p := by
  intro st hplain
  have hmr : MountsRepresentable (msObs p) := by
    intro o ho
    obtain ⟨f, hf, rfl⟩ := List.mem_map.1 ho
    obtain ⟨wp, h1, h2⟩ := msFeatures_wrist hf
    exact ⟨Representable.one, hw wp h1 _ h2⟩
  have hne' : features (msObs p) ≠ [] := by
    obtain ⟨f, hf⟩ := List.exists_mem_of_ne_nil _ hne
    exact List.ne_nil_of_mem (msObs_mem hf)
  obtain ⟨dt, hd, hv⟩ := hb.still hne' hmr (hplain msTgt)
  choose dc hv using hv
  refine ⟨dt, hd, fun b => dc (st b), fun f hf => ?_⟩
  have := hv (st (msCam f.cam)) _ (msObs_mem hf)
  simpa only [Iso.inv_one, Iso.one_mul] using this

theorem same_direction {w w' : Iso} (r : w'.IsRigid) {b : V3} (e : (w'.inv * w).R.mulVec b = b) : w.R.mulVec b = w'.R.mulVec b := by
  conv_rhs => rw [← e]
  rw [← M3.mulVec_mul]
  show _ = (w'.R * (w'.R.tr * w.R)).mulVec b
  rw [← M3.mul_assoc, M3.IsRot.mul_tr r, M3.one_mul]

/-- A direction of the wrist that is the same in all images of each camera. -/
theorem MsBlind.camera {p : MsProblem} {b : V3} (hb : b ≠ 0)
    (hfix : ∀ f ∈ msFeatures p, ∀ f' ∈ msFeatures p, f.cam = f'.cam →
      ((p.wristPoses.getD f.cam []).getD f.img 1).R.mulVec b = ((p.wristPoses.getD f'.cam []).getD f'.img 1).R.mulVec b) : MsBlind p := by
  intro st _
  -- the direction as seen from camera `c`
  have hdir : ∀ c : Nat, ∃ a : V3, ∀ f ∈ msFeatures p, f.cam = c → ((p.wristPoses.getD f.cam []).getD f.img 1).R.mulVec b = a := by
    intro c
    by_cases hc : ∃ f ∈ msFeatures p, f.cam = c
    · obtain ⟨f₀, hf₀, hc₀⟩ := hc
      exact ⟨_, fun f hf hc => hfix f hf f₀ hf₀ (hc.trans hc₀.symm)⟩
    · exact ⟨0, fun f hf h => absurd ⟨f, hf, h⟩ hc⟩
  choose a ha using hdir
  refine ⟨fun k => match k with | 3 => b.x | 4 => b.y | 5 => b.z | _ => 0, ?_, ?_⟩
  · by_contra hall
    push Not at hall
    exact hb (V3.ext (hall 3 (by norm_num)) (hall 4 (by norm_num)) (hall 5 (by norm_num)))
  · obtain ⟨v, hv⟩ : ∃ v : Nat → V3, ∀ c, v (msCam c) = -((poseCalToEigen (st (msCam c))).R.mulVec (a c)) :=
      ⟨fun n => -((poseCalToEigen (st n)).R.mulVec (a (n - 1))), fun c => by simp [msCam]⟩
    refine ⟨fun n k => match k with | 3 => (v n).x | 4 => (v n).y | 5 => (v n).z | _ => 0, fun f hf => ?_⟩
    unfold chainVel
    have e1 : dRot (fun k => match k with | 3 => (v (msCam f.cam)).x | 4 => (v (msCam f.cam)).y | 5 => (v (msCam f.cam)).z | _ => 0) = 0 := rfl
    have e2 : dRot (fun k => match k with | 3 => b.x | 4 => b.y | 5 => b.z | _ => 0) = 0 := rfl
    have e3 : dTrans (fun k => match k with | 3 => (v (msCam f.cam)).x | 4 => (v (msCam f.cam)).y | 5 => (v (msCam f.cam)).z | _ => 0) =
      v (msCam f.cam) := rfl
    have e4 : dTrans (fun k => match k with | 3 => b.x | 4 => b.y | 5 => b.z | _ => 0) = b := rfl
    rw [e1, e2, e3, e4, poseTurn_zero, poseTurn_zero]
    have c0 : ∀ x : V3, (0 : V3).cross x = 0 := fun x => by ext <;> simp [V3.cross]
    rw [c0, c0, V3.zero_add, V3.zero_add, ha f.cam f hf rfl, hv]
    ext <;> simp

theorem msBlind_throws (s : Ceres Pose6) (hk : KeepsPlain s)
    (hr : RejectsSingular s Pose6.mem (fun _ => 6) fun st => ∀ a, PlainPose (st a)) (p : MsProblem)
    (hw : ∀ wp ∈ p.wristPoses, ∀ w ∈ wp, Representable w) (hc : ∀ c ∈ p.baseToCameraGuess, Representable c)
    (ht : Representable p.wristToTargetGuess) (hf : ∀ i ∈ p.intr, i.fx ≠ 0)
    (hn : 3 * (p.baseToCameraGuess.length + 1) ≤ (msFeatures p).length) (hb : MsBlind p)
    (res : MsResult) (h : multiStatic s p = .ok res) :
    ¬ NoZeroDepth res.baseToCamera (fun c i => (p.wristPoses.getD c []).getD i 1 * res.wristToTarget) (msFeatures p) := by
  intro hz
  have hne : msFeatures p ≠ [] := by intro h; rw [h] at hn; simp at hn
  unfold multiStatic at h
  rw [Res.bind_ok_iff] at h
  obtain ⟨pb, hb', h⟩ := h
  rw [Res.bind_ok_iff] at h
  obtain ⟨cov, hcov, h⟩ := h
  have hpb := msBuild_eq hb'
  have hblocks : ∀ f ∈ msFeatures p, ∃ intr ∈ p.intr, p.intr.getD f.cam ⟨0, 0, 0, 0⟩ = intr := by
    intro f hf
    obtain ⟨b, -, intr, -, -, h1, -⟩ := Forall₂.mem_left (msBuild_blocks hb') hf
    exact ⟨intr, List.mem_of_getElem? h1, getD_of_some h1⟩
  have hused : ∀ b ∈ (List.range p.baseToCameraGuess.length).map msCam ++ [msTgt], b ∈ usedBlocks pb := fun b hb =>
    covSolver_isSome (computeCovariance_unknown hcov hb)
  cases h
  simp only at hz
  obtain ⟨st, hst⟩ : ∃ st, st = s.solve pb (msInit p) := ⟨_, rfl⟩
  rw [← hst] at hcov hz
  have hplain : ∀ a, PlainPose (st a) := hst ▸ hk pb _ fun a => msInit_plain hc ht a
  have hperm : ((List.range p.baseToCameraGuess.length).map msCam ++ [msTgt]).Perm (usedBlocks pb) := by
    refine (List.perm_ext_iff_of_nodup ?_ (List.nodup_dedup _)).2 fun x => ⟨hused x, fun hx => ?_⟩
    · refine List.Nodup.append (List.Nodup.map (fun a b h => by simpa [msCam] using h) List.nodup_range) (by simp) ?_
      intro a ha hb
      obtain ⟨c, -, rfl⟩ := List.mem_map.1 ha
      simp [msCam, msTgt] at hb
    · obtain ⟨b, hb, hx⟩ := mem_usedBlocks.1 hx
      rw [hpb] at hb
      obtain ⟨f, hf, rfl⟩ := List.mem_map.1 hb
      have hc := (mem_byCamera hf).1
      simp only [msBlock, List.mem_cons, List.not_mem_nil, or_false] at hx
      rcases hx with rfl | rfl
      · exact List.mem_append_left _ (List.mem_map.2 ⟨f.cam, List.mem_range.2 hc, rfl⟩)
      · simp
  have hlen : (usedBlocks pb).length = p.baseToCameraGuess.length + 1 := by rw [← hperm.length_eq]; simp
  refine computeCovariance_rejected (hr _ _ _ hperm hplain ?_) _ hcov
  obtain ⟨dt, hd, dc, hv⟩ := hb st hplain
  rw [hpb] at hlen hused ⊢
  refine (msBlock_pair p hw).singular (fun b _ => hplain b) (fun f hf => ?_) hne (fun f hf' => ?_) (by rw [hlen]; omega)
    (d := fun b => if b = msTgt then dt else dc b) ⟨msTgt, hused _ (by simp), by simpa using hd⟩ fun f hf => ?_
  · have := hz f hf
    unfold staticDepth at this
    have hcam := (mem_byCamera hf).1
    have e : ((List.range p.baseToCameraGuess.length).map fun c => (poseCalToEigen (st (msCam c))).inv).getD f.cam 1 =
        (poseCalToEigen (st (msCam f.cam))).inv := by simp [List.getD_eq_getElem?_getD, hcam]
    rw [e, Iso.inv_inv (PlainPose.rigid (hplain _))] at this
    simpa only [chainPoint, Iso.apply_mul] using this
  · obtain ⟨intr, h1, h2⟩ := hblocks f hf'
    rw [h2]; exact hf intr h1
  · have := hv f hf
    have e1 : (if msCam f.cam = msTgt then dt else dc (msCam f.cam)) = dc (msCam f.cam) :=
      if_neg (by simp [msCam, msTgt])
    simp only [if_true]
    rw [e1, this]
    exact pixelSpeed_zero _ _

/-- Calibration of several cameras and the target mount: a result means that some feature is in the plane of the centre of its
camera or that no direction is unchanged by all motions of the wrist. -/
theorem C195_axis (s : Ceres Pose6) (hk : KeepsPlain s)
    (hr : RejectsSingular s Pose6.mem (fun _ => 6) fun st => ∀ a, PlainPose (st a)) (p : MsProblem)
    (hw : ∀ wp ∈ p.wristPoses, ∀ w ∈ wp, Representable w) (hc : ∀ c ∈ p.baseToCameraGuess, Representable c)
    (ht : Representable p.wristToTargetGuess) (hf : ∀ i ∈ p.intr, i.fx ≠ 0)
    (hn : 3 * (p.baseToCameraGuess.length + 1) ≤
      (byCamera p.observations p.baseToCameraGuess.length fun c => (p.wristPoses.getD c []).length).length) (a : V3) (ha : a ≠ 0)
    (hfix : ∀ wp ∈ p.wristPoses, ∀ w ∈ wp, ∀ wp' ∈ p.wristPoses, ∀ w' ∈ wp', (wristMotion w w').R.mulVec a = a)
    (res : MsResult) (h : multiStatic s p = .ok res) :
    ¬ NoZeroDepth res.baseToCamera (fun c i => (p.wristPoses.getD c []).getD i 1 * res.wristToTarget)
      (byCamera p.observations p.baseToCameraGuess.length fun c => (p.wristPoses.getD c []).length) := by
  refine msBlind_throws s hk hr p hw hc ht hf hn (HeBlind.ms hw (by intro h; unfold msFeatures at h; rw [h] at hn; simp at hn) (.axis a ha fun o ho o' ho' => ?_)) res h
  obtain ⟨f, hf, rfl⟩ := List.mem_map.1 ho
  obtain ⟨f', hf', rfl⟩ := List.mem_map.1 ho'
  obtain ⟨wp, h1, h2⟩ := msFeatures_wrist hf
  obtain ⟨wp', h1', h2'⟩ := msFeatures_wrist hf'
  simpa only [mountMotion, wristMotion, Iso.inv_one, Iso.one_mul] using hfix wp h1 _ h2 wp' h1' _ h2'

/-- The same for a direction of the wrist that is unchanged by the motions between images of the same camera. -/
theorem C195_camera (s : Ceres Pose6) (hk : KeepsPlain s)
    (hr : RejectsSingular s Pose6.mem (fun _ => 6) fun st => ∀ a, PlainPose (st a)) (p : MsProblem)
    (hw : ∀ wp ∈ p.wristPoses, ∀ w ∈ wp, Representable w) (hc : ∀ c ∈ p.baseToCameraGuess, Representable c)
    (ht : Representable p.wristToTargetGuess) (hf : ∀ i ∈ p.intr, i.fx ≠ 0)
    (hn : 3 * (p.baseToCameraGuess.length + 1) ≤
      (byCamera p.observations p.baseToCameraGuess.length fun c => (p.wristPoses.getD c []).length).length) (b : V3) (hb : b ≠ 0)
    (hfix : ∀ wp ∈ p.wristPoses, ∀ w ∈ wp, ∀ w' ∈ wp, (w'.inv * w).R.mulVec b = b)
    (res : MsResult) (h : multiStatic s p = .ok res) :
    ¬ NoZeroDepth res.baseToCamera (fun c i => (p.wristPoses.getD c []).getD i 1 * res.wristToTarget)
      (byCamera p.observations p.baseToCameraGuess.length fun c => (p.wristPoses.getD c []).length) :=
  msBlind_throws s hk hr p hw hc ht hf hn (MsBlind.camera hb fun f hf f₀ hf₀ hc => by
    obtain ⟨wp, h1, h2, h3⟩ : ∃ wp ∈ p.wristPoses, (p.wristPoses.getD f.cam []).getD f.img 1 ∈ wp ∧
        (p.wristPoses.getD f₀.cam []).getD f₀.img 1 ∈ wp := by
      obtain ⟨-, g2, -⟩ := mem_byCamera hf
      obtain ⟨-, g2', -⟩ := mem_byCamera hf₀
      rw [hc] at g2 ⊢
      cases hw : p.wristPoses[f₀.cam]? with
      | none => rw [List.getD_eq_getElem?_getD, hw] at g2; simp at g2
      | some wp =>
        rw [getD_of_some hw] at g2 g2' ⊢
        refine ⟨wp, List.mem_of_getElem? hw, ?_, ?_⟩
        · rw [getD_of_some (List.getElem?_eq_getElem g2)]; exact List.getElem_mem g2
        · rw [getD_of_some (List.getElem?_eq_getElem g2')]; exact List.getElem_mem g2'
    exact same_direction (hw wp h1 _ h3).rigid (hfix wp h1 _ h2 _ h3)) res h

/-- The same if all features are on one line of the target. -/
theorem C195_line (s : Ceres Pose6) (hk : KeepsPlain s)
    (hr : RejectsSingular s Pose6.mem (fun _ => 6) fun st => ∀ a, PlainPose (st a)) (p : MsProblem)
    (hw : ∀ wp ∈ p.wristPoses, ∀ w ∈ wp, Representable w) (hc : ∀ c ∈ p.baseToCameraGuess, Representable c)
    (ht : Representable p.wristToTargetGuess) (hf : ∀ i ∈ p.intr, i.fx ≠ 0)
    (hn : 3 * (p.baseToCameraGuess.length + 1) ≤
      (byCamera p.observations p.baseToCameraGuess.length fun c => (p.wristPoses.getD c []).length).length) (q₀ b : V3)
    (hline : ∀ f ∈ byCamera p.observations p.baseToCameraGuess.length fun c => (p.wristPoses.getD c []).length,
      ∃ x : ℝ, f.corr.inTarget = q₀ + V3.smul x b)
    (res : MsResult) (h : multiStatic s p = .ok res) :
    ¬ NoZeroDepth res.baseToCamera (fun c i => (p.wristPoses.getD c []).getD i 1 * res.wristToTarget)
      (byCamera p.observations p.baseToCameraGuess.length fun c => (p.wristPoses.getD c []).length) := by
  refine msBlind_throws s hk hr p hw hc ht hf hn (HeBlind.ms hw (by intro h; unfold msFeatures at h; rw [h] at hn; simp at hn) (.line q₀ b fun g hg => ?_)) res h
  obtain ⟨ho, hc⟩ := mem_features.1 hg
  obtain ⟨f, hf, ho⟩ := List.mem_map.1 ho
  rw [← ho] at hc
  simp only [List.mem_cons, List.not_mem_nil, or_false] at hc
  rw [hc]
  exact hline f hf

/-! ## Concrete cases -/

/-- A solver for poses that reports singular Jacobians. -/
noncomputable def poseRank : Ceres Pose6 := rankCeres Pose6.mem (fun _ => 6) fun st => ∀ a, PlainPose (st a)

theorem poseRank_wf : poseRank.WF := rankCeres_wf _ _ _
theorem poseRank_plain : KeepsPlain poseRank := fun _ _ h => h
theorem poseRank_rejects : RejectsSingular poseRank Pose6.mem (fun _ => 6) fun st => ∀ a, PlainPose (st a) := rankCeres_rejects _ _ _

/-- `C194_axis_3d`: a robot that turns about the vertical axis only. -/
example : ∃ p : HandEyeProblem Corr3, handEye3 poseRank p = .throw .covariance ∧ 8 ≤ (features p.observations).length ∧
    ∃ o ∈ p.observations, ∃ o' ∈ p.observations, (mountMotion o o').R ≠ 1 := by
  refine ⟨⟨[squareObs3 1 1 1, squareObs3 1 1 quarterZ], ⟨1, 1, 0, 0⟩, 1, 1, "t", "c", ["x", "y", "z", "rx", "ry", "rz"]⟩, ?_, by decide,
    squareObs3 1 1 1, by simp, squareObs3 1 1 quarterZ, by simp, ?_⟩
  · refine C194_axis_3d poseRank poseRank_wf poseRank_plain poseRank_rejects _ (fun o ho => ?_) Representable.one Representable.one rfl
      (by decide) ⟨0, 0, 1⟩ (fun h => by simpa using congrArg V3.z h) fun o ho o' ho' => ?_
    · simp only [List.mem_cons, List.not_mem_nil, or_false] at ho
      rcases ho with rfl | rfl
      · exact ⟨Representable.one, Representable.one⟩
      · exact ⟨quarterZ_rep, Representable.one⟩
    · simp only [List.mem_cons, List.not_mem_nil, or_false] at ho ho'
      rcases ho with rfl | rfl <;> rcases ho' with rfl | rfl <;>
        (ext <;> simp [squareObs3, mountMotion, Iso.inv, M3.mulVec, M3.tr, quarterZ, M3.mul_def, Iso.mul_def])
  · intro h
    have := congrArg M3.m00 h
    simp [squareObs3, mountMotion, Iso.inv, M3.tr, quarterZ, M3.mul_def, Iso.mul_def] at this

/-- Points on a line. -/
noncomputable def rowPoints : List V3 := [⟨0, 0, 0⟩, ⟨1, 0, 0⟩, ⟨2, 0, 0⟩, ⟨3, 0, 0⟩, ⟨4, 0, 0⟩, ⟨5, 0, 0⟩]

theorem rowPoints_line {q : V3} (h : q ∈ rowPoints) : ∃ x : ℝ, q = (⟨0, 0, 0⟩ : V3) + V3.smul x ⟨1, 0, 0⟩ := by
  refine ⟨q.x, ?_⟩
  simp only [rowPoints, List.mem_cons, List.not_mem_nil, or_false] at h
  rcases h with rfl | rfl | rfl | rfl | rfl | rfl <;> ext <;> simp [V3.smul]

noncomputable def rowObs3 (A : Iso) : Obs Corr3 := ⟨rowPoints.map fun q => ⟨q, q⟩, A, 1⟩
noncomputable def rowObs2 (A : Iso) : Obs Corr2 := ⟨rowPoints.map fun q => ⟨⟨q.x, q.y⟩, q⟩, A, A⟩

/-- `C194_line_3d`: a target with one row of features, seen from mounts turned about two axes. -/
example : ∃ p : HandEyeProblem Corr3, handEye3 poseRank p = .throw .covariance ∧ 18 ≤ (features p.observations).length := by
  refine ⟨⟨[rowObs3 1, rowObs3 quarterX, rowObs3 quarterZ], ⟨1, 1, 0, 0⟩, 1, 1, "t", "c", labelsIsometry3d⟩, ?_, by decide⟩
  refine C194_line_3d poseRank poseRank_wf poseRank_plain poseRank_rejects _ (fun o ho => ?_) Representable.one Representable.one rfl
    (by decide) ⟨0, 0, 0⟩ ⟨1, 0, 0⟩ fun f hf => ?_
  · simp only [List.mem_cons, List.not_mem_nil, or_false] at ho
    rcases ho with rfl | rfl | rfl
    · exact ⟨Representable.one, Representable.one⟩
    · exact ⟨quarterX_rep, Representable.one⟩
    · exact ⟨quarterZ_rep, Representable.one⟩
  · obtain ⟨ho, hc⟩ := mem_features.1 hf
    simp only [List.mem_cons, List.not_mem_nil, or_false] at ho
    have : ∃ A, f.1 = rowObs3 A := by rcases ho with h | h | h <;> exact ⟨_, h⟩
    obtain ⟨A, hA⟩ := this
    rw [hA] at hc
    obtain ⟨q, hq, hqf⟩ := List.mem_map.1 hc
    rw [← hqf]
    exact rowPoints_line hq

/-- The result of a solver that keeps the initial values. -/
theorem poseRank_result {p : HandEyeProblem Corr2} (hc : Representable p.cameraGuess) (ht : Representable p.targetGuess)
    {res : HandEyeResult} (h : handEye2 poseRank p = .ok res) :
    res.cameraMountToCamera = p.cameraGuess ∧ res.targetMountToTarget = p.targetGuess := by
  unfold handEye2 at h
  rcases heBuild2_cases p with ⟨-, hb'⟩ | ⟨-, hb'⟩
  swap
  · rw [hb'] at h; cases h
  rw [hb', Res.ok_bind] at h
  obtain ⟨-, h2, h3⟩ := heFinish_ok h
  have e1 : poseRank.solve ((features p.observations).map (heBlock2 p.intr)) (heInit p) heCam = poseEigenToCal p.cameraGuess.inv := rfl
  have e2 : poseRank.solve ((features p.observations).map (heBlock2 p.intr)) (heInit p) heTgt = poseEigenToCal p.targetGuess := rfl
  rw [e2, ht.roundtrip] at h2
  rw [e1, hc.inv.roundtrip, Iso.inv_inv hc.rigid] at h3
  exact ⟨h3, h2⟩

/-- `C194_axis`: two images of a square from the same place, or after turns about the vertical axis. -/
example : ∃ p : HandEyeProblem Corr2, (∀ res, handEye2 poseRank p ≠ .ok res) ∧ p.observations.length = 2 ∧
    (∀ f ∈ features p.observations, (inCamera2 p.cameraGuess p.targetGuess f).z = 10) := by
  obtain ⟨p, hp⟩ : ∃ p : HandEyeProblem Corr2, p = ⟨[squareView 1 1, squareView quarterZ quarterZ], ⟨1, 1, 0, 0⟩, shiftBy 10 10 10, 1,
    "c", "t", labelsIsometry3d⟩ := ⟨_, rfl⟩
  have hz : ∀ f ∈ features p.observations, (inCamera2 p.cameraGuess p.targetGuess f).z = 10 := by
    intro f hf
    rw [hp] at hf ⊢
    obtain ⟨ho, hc⟩ := mem_features.1 hf
    have key : f.1.toCameraMount.inv.apply (f.1.toTargetMount.apply ((shiftBy 10 10 10).apply f.2.inTarget)) =
        (shiftBy 10 10 10).apply f.2.inTarget ∧ f.2.inTarget ∈ squarePoints := by
      simp only [List.mem_cons, List.not_mem_nil, or_false] at ho
      rcases ho with h | h
      · rw [h] at hc ⊢
        obtain ⟨q, hq, hqf⟩ := List.mem_map.1 hc
        rw [← hqf]
        exact ⟨by simp [squareView], hq⟩
      · rw [h] at hc ⊢
        obtain ⟨q, hq, hqf⟩ := List.mem_map.1 hc
        rw [← hqf]
        exact ⟨by simp only [squareView]; rw [← Iso.apply_mul, Iso.inv_mul quarterZ_rep.rigid, Iso.apply_one], hq⟩
    unfold inCamera2 Spec.targetInCamera
    simp only [Iso.apply_mul, Iso.inv_one, Iso.apply_one]
    rw [key.1, shiftBy_apply]
    have := key.2
    simp only [squarePoints, List.mem_cons, List.not_mem_nil, or_false] at this
    rcases this with h | h | h | h <;> rw [h] <;> norm_num
  refine ⟨p, fun res h => ?_, by rw [hp]; rfl, hz⟩
  have hc : Representable p.cameraGuess := by rw [hp]; exact Representable.one
  have ht : Representable p.targetGuess := by rw [hp]; exact shiftBy_rep _ _ _
  obtain ⟨f, hf, h0⟩ := C194_axis poseRank poseRank_wf poseRank_plain poseRank_rejects p (by
      rw [hp]
      intro o ho
      simp only [List.mem_cons, List.not_mem_nil, or_false] at ho
      rcases ho with rfl | rfl
      · exact ⟨Representable.one, Representable.one⟩
      · exact ⟨quarterZ_rep, quarterZ_rep⟩) hc ht (by rw [hp]; norm_num) (by rw [hp]; decide) ⟨0, 0, 1⟩
      (fun h => by simpa using congrArg V3.z h) (by
      rw [hp]
      intro o ho o' ho'
      simp only [List.mem_cons, List.not_mem_nil, or_false] at ho ho'
      rcases ho with rfl | rfl <;> rcases ho' with rfl | rfl <;>
        (ext <;> simp [squareView, mountMotion, Iso.inv, M3.mulVec, M3.tr, quarterZ, M3.mul_def, Iso.mul_def])) res h
  rw [(poseRank_result hc ht h).1, (poseRank_result hc ht h).2, hz f hf] at h0
  norm_num at h0

/-- `C194_line`: one row of features in two images. -/
example : ∃ p : HandEyeProblem Corr2, (∀ res, handEye2 poseRank p ≠ .ok res) ∧ p.observations.length = 2 := by
  obtain ⟨p, hp⟩ : ∃ p : HandEyeProblem Corr2, p = ⟨[rowObs2 1, rowObs2 quarterX], ⟨1, 1, 0, 0⟩, shiftBy 0 0 1, 1, "c", "t",
    labelsIsometry3d⟩ := ⟨_, rfl⟩
  have hrow : ∀ f ∈ features p.observations, ∃ A, (A = 1 ∨ A = quarterX) ∧ f.1 = rowObs2 A ∧ f.2.inTarget ∈ rowPoints := by
    intro f hf
    rw [hp] at hf
    obtain ⟨ho, hc⟩ := mem_features.1 hf
    simp only [List.mem_cons, List.not_mem_nil, or_false] at ho
    have : ∃ A, (A = 1 ∨ A = quarterX) ∧ f.1 = rowObs2 A := by
      rcases ho with h | h
      · exact ⟨1, Or.inl rfl, h⟩
      · exact ⟨quarterX, Or.inr rfl, h⟩
    obtain ⟨A, h1, hA⟩ := this
    rw [hA] at hc
    obtain ⟨q, hq, hqf⟩ := List.mem_map.1 hc
    exact ⟨A, h1, hA, by rw [← hqf]; exact hq⟩
  refine ⟨p, fun res h => ?_, by rw [hp]; rfl⟩
  have hc : Representable p.cameraGuess := by rw [hp]; exact Representable.one
  have ht : Representable p.targetGuess := by rw [hp]; exact shiftBy_rep _ _ _
  obtain ⟨f, hf, h0⟩ := C194_line poseRank poseRank_wf poseRank_plain poseRank_rejects p (by
      rw [hp]
      intro o ho
      simp only [List.mem_cons, List.not_mem_nil, or_false] at ho
      rcases ho with rfl | rfl
      · exact ⟨Representable.one, Representable.one⟩
      · exact ⟨quarterX_rep, quarterX_rep⟩) hc ht (by rw [hp]; norm_num) (by rw [hp]; decide) ⟨0, 0, 0⟩ ⟨1, 0, 0⟩
      (fun f hf => by obtain ⟨_, _, _, h⟩ := hrow f hf; exact rowPoints_line h) res h
  rw [(poseRank_result hc ht h).1, (poseRank_result hc ht h).2] at h0
  obtain ⟨A, hA, hfA, hq⟩ := hrow f hf
  have e : f.1.toCameraMount.inv.apply (f.1.toTargetMount.apply (p.targetGuess.apply f.2.inTarget)) = p.targetGuess.apply f.2.inTarget := by
    rw [hfA]
    have hr : A.IsRigid := by
      rcases hA with rfl | rfl
      · exact Representable.one.rigid
      · exact quarterX_rep.rigid
    simp only [rowObs2]
    rw [← Iso.apply_mul, Iso.inv_mul hr, Iso.apply_one]
  unfold inCamera2 Spec.targetInCamera at h0
  simp only [Iso.apply_mul] at h0
  rw [e, hp] at h0
  simp only [Iso.inv_one, Iso.apply_one, shiftBy_apply] at h0
  simp only [rowPoints, List.mem_cons, List.not_mem_nil, or_false] at hq
  rcases hq with h | h | h | h | h | h <;> rw [h] at h0 <;> norm_num at h0

/-- `C195_axis`: two cameras and a wrist that turns about the vertical axis only. -/
example : ∀ res, multiStatic poseRank (stProblem [1, quarterZ]) ≠ .ok res := by
  intro res h
  have hW : ∀ w ∈ [1, quarterZ], w ∈ [1, quarterX, quarterZ] := fun w hw => by
    simp only [List.mem_cons, List.not_mem_nil, or_false] at hw ⊢
    tauto
  have hwp : ∀ wp ∈ (stProblem [1, quarterZ]).wristPoses, wp = [1, quarterZ] := fun wp h => by simpa [stProblem] using h
  obtain ⟨r1, r2⟩ := C34_multi_static poseRank (stProblem [1, quarterZ]) res (fun _ _ => rfl) (shiftBy_rep _ _ _) stCams_rep h
  refine C195_axis poseRank poseRank_plain poseRank_rejects (stProblem [1, quarterZ])
    (fun wp h1 w h2 => stWrist_rep (hW w (hwp wp h1 ▸ h2))) stCams_rep (shiftBy_rep _ _ _) (fun i hi => ?_) ?_ ⟨0, 0, 1⟩
    (fun h => by simpa using congrArg V3.z h) (fun wp h1 w h2 wp' h1' w' h2' => ?_) res h (fun f hf => ?_)
  · have : i = ⟨1, 1, 0, 0⟩ := by simpa [stProblem] using hi
    rw [this]; norm_num
  · rw [stByCamera]
    show 3 * 3 ≤ _
    decide
  · have e := hwp wp h1
    have e' := hwp wp' h1'
    subst e e'
    simp only [List.mem_cons, List.not_mem_nil, or_false] at h2 h2'
    rcases h2 with rfl | rfl <;> rcases h2' with rfl | rfl <;>
      (ext <;> simp [wristMotion, Iso.inv, M3.mulVec, M3.tr, quarterZ, M3.mul_def, Iso.mul_def])
  · rw [stByCamera] at hf
    have h1 := (stObs_feature hf).1
    rw [r1, r2]
    show staticDepth ([stCam 0, stCam 1].getD f.cam 1) (((stProblem [1, quarterZ]).wristPoses.getD f.cam []).getD f.img 1 *
      shiftBy 10 10 10) f.corr ≠ 0
    rw [stCams_get h1, show ((stProblem [1, quarterZ]).wristPoses.getD f.cam []) = [1, quarterZ] from stWrists_get _ h1]
    have := stDepth hW le_rfl hf
    rw [zero_add] at this
    exact this.ne'

/-- `C195_line`: a target with one row of features. -/
example : ∃ p : MsProblem, (∀ res, multiStatic poseRank p ≠ .ok res) ∧ p.wristPoses = [[1, quarterX, quarterZ]] ∧
    p.observations = [[(rowObs2 1).corrs, (rowObs2 1).corrs, (rowObs2 1).corrs]] := by
  obtain ⟨p, hp⟩ : ∃ p : MsProblem, p = ⟨[⟨1, 1, 0, 0⟩], [[1, quarterX, quarterZ]], [[(rowObs2 1).corrs, (rowObs2 1).corrs, (rowObs2 1).corrs]],
    shiftBy 0 0 1, [1], "t", "c"⟩ := ⟨_, rfl⟩
  have hg : p.baseToCameraGuess = [1] := by rw [hp]
  have htg : p.wristToTargetGuess = shiftBy 0 0 1 := by rw [hp]
  have hwp : p.wristPoses = [[1, quarterX, quarterZ]] := by rw [hp]
  have hobs : p.observations = [[(rowObs2 1).corrs, (rowObs2 1).corrs, (rowObs2 1).corrs]] := by rw [hp]
  refine ⟨p, fun res h => ?_, hwp, hobs⟩
  have hc : ∀ c ∈ p.baseToCameraGuess, Representable c := fun c hc => by
    rw [hg, List.mem_singleton] at hc
    rw [hc]; exact Representable.one
  have ht : Representable p.wristToTargetGuess := by rw [htg]; exact shiftBy_rep _ _ _
  have hfeat : ∀ f ∈ byCamera p.observations p.baseToCameraGuess.length fun c => (p.wristPoses.getD c []).length,
      f.cam = 0 ∧ f.corr.inTarget ∈ rowPoints := by
    intro f hf
    obtain ⟨h1, h2, h3⟩ := mem_byCamera hf
    rw [hg] at h1
    have h0 : f.cam = 0 := by simpa using h1
    rw [h0, hobs] at h3
    have : f.corr ∈ (rowObs2 1).corrs := by
      rw [h0, hwp] at h2
      have : f.img = 0 ∨ f.img = 1 ∨ f.img = 2 := by simp at h2; omega
      rcases this with e | e | e <;> rw [e] at h3 <;> simpa using h3
    obtain ⟨q, hq, hqf⟩ := List.mem_map.1 this
    exact ⟨h0, by rw [← hqf]; exact hq⟩
  obtain ⟨r1, r2⟩ := C34_multi_static poseRank p res (fun _ _ => rfl) ht hc h
  refine C195_line poseRank poseRank_plain poseRank_rejects p (fun wp h1 w h2 => ?_) hc ht (fun i hi => ?_) ?_ ⟨0, 0, 0⟩ ⟨1, 0, 0⟩
    (fun f hf => rowPoints_line (hfeat f hf).2) res h (fun f hf => ?_)
  · rw [hwp, List.mem_singleton] at h1
    exact stWrist_rep (h1 ▸ h2)
  · rw [hp] at hi
    have : i = ⟨1, 1, 0, 0⟩ := by simpa using hi
    rw [this]; norm_num
  · rw [hp]; decide
  · obtain ⟨h0, hq⟩ := hfeat f hf
    obtain ⟨-, h2, -⟩ := mem_byCamera hf
    rw [r1, r2, hg, htg, h0, hwp]
    rw [h0, hwp] at h2
    have : f.img = 0 ∨ f.img = 1 ∨ f.img = 2 := by simp at h2; omega
    simp only [rowPoints, List.mem_cons, List.not_mem_nil, or_false] at hq
    unfold staticDepth
    rcases this with e | e | e <;> rw [e] <;> rcases hq with e | e | e | e | e | e <;> rw [e] <;>
      simp only [List.getD_cons_zero, List.getD_cons_succ, Iso.inv_one, Iso.one_mul, Iso.apply_mul, shiftBy_apply] <;>
      norm_num [Iso.apply, quarterX, quarterZ, M3.mulVec]

end RCT
