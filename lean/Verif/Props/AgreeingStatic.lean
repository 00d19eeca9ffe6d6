import Verif.Props.Restart
import Verif.Props.Relax

/-! # C243 for static cameras: further correspondences in the images -/

namespace RCT

open Spec

/-- `obs'` has in each image the correspondences of `obs` and then those of `ext`. -/
def Spec.Joined (obs ext obs' : List (List (List Corr2))) (cams : Nat) (images : Nat → Nat) : Prop :=
  ∀ c < cams, ∀ i < images c, (obs'.getD c []).getD i [] = (obs.getD c []).getD i [] ++ (ext.getD c []).getD i []

theorem byCamera_joined {obs ext obs' : List (List (List Corr2))} {n : Nat} {m : Nat → Nat} (h : Joined obs ext obs' n m) :
    (byCamera obs' n m).Perm (byCamera obs n m ++ byCamera ext n m) := by
  unfold byCamera
  refine List.Perm.trans ?_ (List.flatMap_append_perm _ _ _).symm
  refine List.Perm.flatMap_left _ fun c hc => ?_
  refine List.Perm.trans ?_ (List.flatMap_append_perm _ _ _).symm
  refine List.Perm.flatMap_left _ fun i hi => ?_
  unfold featuresOf
  rw [h c (List.mem_range.1 hc) i (List.mem_range.1 hi), List.map_append]

theorem byImage_joined {obs ext obs' : List (List (List Corr2))} {n m : Nat} (h : Joined obs ext obs' n fun _ => m) :
    (byImage obs' n m).Perm (byImage obs n m ++ byImage ext n m) :=
  (byCamera_perm_byImage obs' n m).symm.trans ((byCamera_joined h).trans ((byCamera_perm_byImage obs n m).append (byCamera_perm_byImage ext n m)))

/-- As `extend_core`, with the further data anywhere among the others. -/
theorem extend_perm {α β : Type} {s : Ceres β} (hs : s.WF) {l e l' : List α} (hp : l'.Perm (l ++ e)) (hl : l ≠ []) (g : α → ResBlock β) {d : Nat}
    (d0 : d ≠ 0) (hd : ∀ st a, ((g a).residual st).length = d) (init : Nat → β) (conv : Bool)
    (hz : ∀ x ∈ residuals (e.map g) (s.solve (l.map g) init), x = 0) :
    (Ceres.jump (l'.map g) init (s.solve (l.map g) init) conv).WF ∧
      ∃ v, costPerObs (l.map g) (s.solve (l.map g) init) = some v ∧
        costPerObs (l'.map g) (s.solve (l.map g) init) = some (v * l.length / (l.length + e.length)) := by
  obtain ⟨wf, v, h1, h2⟩ := extend_core hs l e hl g d0 hd init conv (fun a ha x hx => hz x (by
    rw [residuals_map]; exact List.mem_flatMap.2 ⟨a, ha, hx⟩))
  have hp' := hp.map g
  refine ⟨Ceres.jump_wf _ (fun a ha => ?_) ?_, v, h1, by rw [costPerObs_perm hp', h2]⟩
  · have h := wf.frame ((l ++ e).map g) init a (fun hm => ha ?_)
    · rwa [Ceres.jump_solve] at h
    · rw [mem_usedBlocks] at hm ⊢
      obtain ⟨b, hb, hab⟩ := hm
      exact ⟨b, hp'.mem_iff.2 hb, hab⟩
  · have h := wf.descent ((l ++ e).map g) init
    rw [Ceres.jump_solve] at h
    rwa [cost_perm hp', cost_perm hp']

theorem coBlock_length (p : CoProblem) (st : Nat → Pose6) (f : Feature) : ((coBlock p f).residual st).length = 2 := by
  unfold coBlock
  split <;> rfl

/-- Common correction of all cameras: further correspondences that the result explains perfectly leave it possible. -/
theorem C243_wrist_only (p : WoProblem) (ext obs' : List (List (List Corr2))) (he : WoSizes { p with observations := ext })
    (ho : WoSizes { p with observations := obs' }) (hj : Joined p.observations ext obs' p.baseToCameraGuess.length fun _ => p.wristPoses.length)
    (hw : ∀ w ∈ p.wristPoses, Representable w) (hg : ∀ g ∈ p.baseToCameraGuess, Representable g)
    (hne : byCamera p.observations p.baseToCameraGuess.length (fun _ => p.wristPoses.length) ≠ [])
    (r : WoResult) (hr : Reaches (fun s => wristOnly s p) r) (hc : ∀ c ∈ r.baseToCamera, RigidMotion c)
    (hz : NoZeroDepth r.baseToCamera (fun _ i => p.wristPoses.getD i 1 * r.wristToTarget)
      (byCamera ext p.baseToCameraGuess.length fun _ => p.wristPoses.length))
    (hx : ∀ x ∈ staticErrors p.intr r.baseToCamera (fun _ i => p.wristPoses.getD i 1 * r.wristToTarget)
      (byCamera ext p.baseToCameraGuess.length fun _ => p.wristPoses.length), x = 0) :
    ∃ r', Reaches (fun s => wristOnly s { p with observations := obs' }) r' ∧ r'.converged = r.converged ∧
      r'.wristToTarget = r.wristToTarget ∧ r'.baseToCamera = r.baseToCamera ∧
      ∃ v, r.finalCost = some v ∧ r'.finalCost = some
        (v * (byCamera p.observations p.baseToCameraGuess.length fun _ => p.wristPoses.length).length /
          ((byCamera p.observations p.baseToCameraGuess.length fun _ => p.wristPoses.length).length +
            (byCamera ext p.baseToCameraGuess.length fun _ => p.wristPoses.length).length)) := by
  obtain ⟨s, hs, hr⟩ := hr
  beta_reduce at hr
  obtain ⟨pbe, hbe⟩ := he.built
  obtain ⟨pb', hb'⟩ := ho.built
  unfold wristOnly at hr
  obtain ⟨pb, hb, hr⟩ := (Res.bind_ok_iff _ _ _).1 hr
  have epb := woBuild_eq hb
  have epbe : pbe = (byCamera ext p.baseToCameraGuess.length fun _ => p.wristPoses.length).map (woBlock p) := woBuild_eq hbe
  have epb' : pb' = (byCamera obs' p.baseToCameraGuess.length fun _ => p.wristPoses.length).map (woBlock p) := woBuild_eq hb'
  cases hr
  simp only at hc hz hx ⊢
  have hres : ∀ x ∈ residuals pbe (s.solve pb (woInit p)), x = 0 := by
    rw [woBuild_residuals hbe hw hg _ _ _ rfl rfl hc hz]
    exact hx
  rw [epbe, epb] at hres
  obtain ⟨wf, v, v1, v2⟩ := extend_perm hs (byCamera_joined hj) hne (woBlock p) (d := 2) (by decide) (fun _ _ => rfl) (woInit p)
    (s.converged pb (woInit p)) hres
  rw [← epb'] at wf v2
  rw [← epb] at wf v1 v2
  refine ⟨⟨s.converged pb (woInit p), costPerObs pb' (woInit p), costPerObs pb' (s.solve pb (woInit p)),
    poseCalToEigen (s.solve pb (woInit p) woTgt),
    p.baseToCameraGuess.map fun g => (poseCalToEigen (s.solve pb (woInit p) woCorr)).inv * g⟩, ⟨_, wf, ?_⟩, rfl, rfl, rfl, v, v1, v2⟩
  show wristOnly _ _ = _
  unfold wristOnly
  rw [hb', Res.ok_bind]
  have hi : woInit { p with observations := obs' } = woInit p := rfl
  simp only [hi, Ceres.jump_solve]
  rfl

/-- Static cameras without wrist poses, with or without a fixed first camera. -/
theorem C243_camera_only (p : CoProblem) (ext obs' : List (List (List Corr2))) (he : CoSizes { p with observations := ext })
    (ho : CoSizes { p with observations := obs' }) (hj : Joined p.observations ext obs' p.baseToCameraGuess.length fun _ => p.baseToTargetGuess.length)
    (hg : p.fixFirst = true → ∀ g, p.baseToCameraGuess[0]? = some g → Representable g) (h0 : p.baseToTargetGuess ≠ [])
    (hne : byImage p.observations p.baseToCameraGuess.length p.baseToTargetGuess.length ≠ [])
    (r : CoResult) (hr : Reaches (fun s => cameraOnly s p) r) (hc : ∀ c ∈ r.baseToCamera, RigidMotion c)
    (hz : NoZeroDepth r.baseToCamera (fun _ i => r.baseToTarget.getD i 1)
      (byImage ext p.baseToCameraGuess.length p.baseToTargetGuess.length))
    (hx : ∀ x ∈ staticErrors p.intr r.baseToCamera (fun _ i => r.baseToTarget.getD i 1)
      (byImage ext p.baseToCameraGuess.length p.baseToTargetGuess.length), x = 0) :
    ∃ r', Reaches (fun s => cameraOnly s { p with observations := obs' }) r' ∧ r'.converged = r.converged ∧
      r'.baseToTarget = r.baseToTarget ∧ r'.baseToCamera = r.baseToCamera ∧
      ∃ v, r.finalCost = some v ∧ r'.finalCost = some
        (v * (byImage p.observations p.baseToCameraGuess.length p.baseToTargetGuess.length).length /
          ((byImage p.observations p.baseToCameraGuess.length p.baseToTargetGuess.length).length +
            (byImage ext p.baseToCameraGuess.length p.baseToTargetGuess.length).length)) := by
  obtain ⟨s, hs, hr⟩ := hr
  beta_reduce at hr
  have hfix : p.fixFirst = true → ∀ g, p.baseToCameraGuess[0]? = some g → Representable g ∧ r.baseToCamera[0]? = some g :=
    fun hf g hx => ⟨hg hf g hx, C39_partial s hs p r hr hf h0 g hx (hg hf g hx)⟩
  obtain ⟨pbe, hbe⟩ := he.built
  obtain ⟨pb', hb'⟩ := ho.built
  unfold cameraOnly at hr
  obtain ⟨pb, hb, hr⟩ := (Res.bind_ok_iff _ _ _).1 hr
  have epb := coBuild_eq hb
  have epbe : pbe = (byImage ext p.baseToCameraGuess.length p.baseToTargetGuess.length).map (coBlock p) := coBuild_eq hbe
  have epb' : pb' = (byImage obs' p.baseToCameraGuess.length p.baseToTargetGuess.length).map (coBlock p) := coBuild_eq hb'
  cases hr
  simp only at hc hz hx hfix ⊢
  have hres : ∀ x ∈ residuals pbe (s.solve pb (coInit p)), x = 0 := by
    rw [coBuild_residuals hbe (s.solve pb (coInit p)) _ _ hc
      (fun c h => by rw [List.getElem?_map, List.getElem?_range h]; rfl)
      (fun i h => by rw [List.getElem?_map, List.getElem?_range h]; rfl) hfix hz]
    exact hx
  rw [epbe, epb] at hres
  obtain ⟨wf, v, v1, v2⟩ := extend_perm hs (byImage_joined hj) hne (coBlock p) (d := 2) (by decide) (coBlock_length p) (coInit p)
    (s.converged pb (coInit p)) hres
  rw [← epb'] at wf v2
  rw [← epb] at wf v1 v2
  refine ⟨⟨s.converged pb (coInit p), costPerObs pb' (coInit p), costPerObs pb' (s.solve pb (coInit p)),
    (List.range p.baseToTargetGuess.length).map (fun i => poseCalToEigen (s.solve pb (coInit p) (coTgt i))),
    (List.range p.baseToCameraGuess.length).map (fun c => (poseCalToEigen (s.solve pb (coInit p) (coCam c))).inv)⟩,
    ⟨_, wf, ?_⟩, rfl, rfl, rfl, v, v1, v2⟩
  show cameraOnly _ _ = _
  unfold cameraOnly
  rw [hb', Res.ok_bind]
  have hi : coInit { p with observations := obs' } = coInit p := rfl
  simp only [hi, Ceres.jump_solve]
  rfl

/-- Static cameras with wrist poses, each of which sees something. -/
theorem C243_multi_static (p : MsProblem) (ext obs' : List (List (List Corr2))) (he : MsSizes { p with observations := ext })
    (ho : MsSizes { p with observations := obs' })
    (hj : Joined p.observations ext obs' p.baseToCameraGuess.length fun c => (p.wristPoses.getD c []).length)
    (hw : ∀ wp ∈ p.wristPoses, ∀ w ∈ wp, Representable w) (hn : p.baseToCameraGuess ≠ [])
    (hsee : ∀ c, c < p.baseToCameraGuess.length → ∃ oc, ∃ l ∈ oc, obs'[c]? = some oc ∧ l ≠ [])
    (hne : byCamera p.observations p.baseToCameraGuess.length (fun c => (p.wristPoses.getD c []).length) ≠ [])
    (r : MsResult) (hr : Reaches (fun s => multiStatic s p) r) (hc : ∀ c ∈ r.baseToCamera, RigidMotion c)
    (hz : NoZeroDepth r.baseToCamera (fun c i => (p.wristPoses.getD c []).getD i 1 * r.wristToTarget)
      (byCamera ext p.baseToCameraGuess.length fun c => (p.wristPoses.getD c []).length))
    (hx : ∀ x ∈ staticErrors p.intr r.baseToCamera (fun c i => (p.wristPoses.getD c []).getD i 1 * r.wristToTarget)
      (byCamera ext p.baseToCameraGuess.length fun c => (p.wristPoses.getD c []).length), x = 0) :
    ∃ r', Reaches (fun s => multiStatic s { p with observations := obs' }) r' ∧ r'.converged = r.converged ∧
      r'.wristToTarget = r.wristToTarget ∧ r'.baseToCamera = r.baseToCamera ∧
      ∃ v, r.finalCost = some v ∧ r'.finalCost = some
        (v * (byCamera p.observations p.baseToCameraGuess.length fun c => (p.wristPoses.getD c []).length).length /
          ((byCamera p.observations p.baseToCameraGuess.length fun c => (p.wristPoses.getD c []).length).length +
            (byCamera ext p.baseToCameraGuess.length fun c => (p.wristPoses.getD c []).length).length)) := by
  obtain ⟨s, hs, hr⟩ := hr
  beta_reduce at hr
  obtain ⟨pbe, hbe⟩ := C41_built _ he.wrist he.obs he.intr he.images
  obtain ⟨pb', hb'⟩ := C41_built _ ho.wrist ho.obs ho.intr ho.images
  unfold multiStatic at hr
  simp only [Res.bind_ok_iff] at hr
  obtain ⟨pb, hb, cov, -, hr⟩ := hr
  have epb : pb = (byCamera p.observations p.baseToCameraGuess.length fun c => (p.wristPoses.getD c []).length).map (msBlock p) := msBuild_eq hb
  have epbe : pbe = (byCamera ext p.baseToCameraGuess.length fun c => (p.wristPoses.getD c []).length).map (msBlock p) := msBuild_eq hbe
  have epb' : pb' = (byCamera obs' p.baseToCameraGuess.length fun c => (p.wristPoses.getD c []).length).map (msBlock p) := msBuild_eq hb'
  cases hr
  simp only at hc hz hx ⊢
  have hres : ∀ x ∈ residuals pbe (s.solve pb (msInit p)), x = 0 := by
    rw [msBuild_residuals hbe hw (s.solve pb (msInit p)) _ _
      (fun c h => by rw [List.getElem?_map, List.getElem?_range h]; rfl) rfl hc hz]
    exact hx
  rw [epbe, epb] at hres
  obtain ⟨wf, v, v1, v2⟩ := extend_perm hs (byCamera_joined hj) hne (msBlock p) (d := 2) (by decide) (fun _ _ => rfl) (msInit p)
    (s.converged pb (msInit p)) hres
  rw [← epb'] at wf v2
  rw [← epb] at wf v1 v2
  obtain ⟨q, hq⟩ : ∃ q : MsProblem, q = { p with observations := obs' } := ⟨_, rfl⟩
  have hqn : p.baseToCameraGuess = q.baseToCameraGuess := by rw [hq]
  have hqi : msInit p = msInit q := by rw [hq]; rfl
  have hqo : obs' = q.observations := by rw [hq]
  rw [← hq] at ho hb' ⊢
  rw [hqn] at hn hsee
  rw [hqo] at hsee
  rw [hqn]
  rw [hqi] at wf v1 v2 ⊢
  have hu := ms_all_used ho hn hsee hb'
  obtain ⟨J, hJ⟩ : ∃ J, J = Ceres.jump pb' (msInit q) (s.solve pb (msInit q)) (s.converged pb (msInit q)) := ⟨_, rfl⟩
  have hJs : J.solve pb' (msInit q) = s.solve pb (msInit q) := by rw [hJ, Ceres.jump_solve]
  have hJc : J.converged pb' (msInit q) = s.converged pb (msInit q) := by rw [hJ]; rfl
  obtain ⟨cov', hc'⟩ := computeCovariance_returns
    (cs := J.covSolver pb' (J.solve pb' (msInit q)) 6)
    (blocks := (List.range q.baseToCameraGuess.length).map msCam ++ [msTgt]) (names := msNames q) (masks := [])
    (by rw [msNames_size]; simp) (fun b hb => ⟨_, msNames_find q b hb, by simp [Ceres.covSolver, hu b hb, poseLabels, labelsIsometry3d]⟩)
    (by rw [hJ]; rfl) (by rw [hJ]; rfl)
  rw [← hJ] at wf
  refine ⟨⟨s.converged pb (msInit q), costPerObs pb' (msInit q), costPerObs pb' (s.solve pb (msInit q)),
    poseCalToEigen (s.solve pb (msInit q) msTgt),
    (List.range q.baseToCameraGuess.length).map (fun c => (poseCalToEigen (s.solve pb (msInit q) (msCam c))).inv), cov'⟩,
    ⟨J, wf, ?_⟩, rfl, rfl, rfl, v, v1, by rw [← hqn]; exact v2⟩
  show multiStatic J q = _
  unfold multiStatic
  rw [hb', Res.ok_bind]
  simp only
  rw [hc', Res.ok_bind, hJs, hJc]

/-! ## Cases that meet the hypotheses: one correspondence with an error of five pixels, and a further one without error -/

theorem exExact (T : Iso) (hT : T = 1) : staticError ⟨1, 1, 0, 0⟩ 1 T ⟨⟨0, 0⟩, ⟨0, 0, 1⟩⟩ = [0, 0] ∧
    staticDepth 1 T ⟨⟨0, 0⟩, ⟨0, 0, 1⟩⟩ ≠ 0 := by
  subst hT
  have e : ((1 : Iso).inv * 1).apply ⟨0, 0, 1⟩ = ⟨0, 0, 1⟩ := by
    rw [Iso.mul_one, Iso.inv_one, Iso.apply_one]
  constructor
  · unfold staticError
    simp only [e]
    simp [pinhole, diff2]
  · unfold staticDepth
    simp only [e]
    norm_num

example : ∃ (p : WoProblem) (ext obs' : List (List (List Corr2))) (r : WoResult), WoSizes { p with observations := ext } ∧
    WoSizes { p with observations := obs' } ∧ Joined p.observations ext obs' p.baseToCameraGuess.length (fun _ => p.wristPoses.length) ∧
    (∀ w ∈ p.wristPoses, Representable w) ∧ (∀ g ∈ p.baseToCameraGuess, Representable g) ∧
    byCamera p.observations p.baseToCameraGuess.length (fun _ => p.wristPoses.length) ≠ [] ∧ Reaches (fun s => wristOnly s p) r ∧
    (∀ c ∈ r.baseToCamera, RigidMotion c) ∧
    NoZeroDepth r.baseToCamera (fun _ i => p.wristPoses.getD i 1 * r.wristToTarget)
      (byCamera ext p.baseToCameraGuess.length fun _ => p.wristPoses.length) ∧
    ∀ x ∈ staticErrors p.intr r.baseToCamera (fun _ i => p.wristPoses.getD i 1 * r.wristToTarget)
      (byCamera ext p.baseToCameraGuess.length fun _ => p.wristPoses.length), x = 0 := by
  obtain ⟨p, hp⟩ : ∃ p : WoProblem, p = ⟨[⟨1, 1, 0, 0⟩], [1], [[[⟨⟨5, 0⟩, ⟨0, 0, 1⟩⟩]]], 1, [1]⟩ := ⟨_, rfl⟩
  obtain ⟨r, h⟩ : ∃ r, wristOnly (idCeres Pose6) p = .ok r := by rw [hp]; exact ⟨_, rfl⟩
  obtain ⟨h1, h2⟩ := C34_wrist_only (idCeres Pose6) p r (fun _ _ => rfl) (by rw [hp]; exact .one) h
  have hT : (1 : Iso) * 1 = 1 := Iso.mul_one _
  obtain ⟨x1, x2⟩ := exExact (1 * 1) hT
  have hfe : byCamera [[[(⟨⟨0, 0⟩, ⟨0, 0, 1⟩⟩ : Corr2)]]] 1 (fun _ => 1) = [⟨0, 0, ⟨⟨0, 0⟩, ⟨0, 0, 1⟩⟩⟩] := rfl
  refine ⟨p, [[[⟨⟨0, 0⟩, ⟨0, 0, 1⟩⟩]]], [[[⟨⟨5, 0⟩, ⟨0, 0, 1⟩⟩, ⟨⟨0, 0⟩, ⟨0, 0, 1⟩⟩]]], r, ?_, ?_, ?_, ?_, ?_, ?_, ⟨_, idCeres_wf Pose6, h⟩, ?_, ?_, ?_⟩
  · rw [hp]
    refine ⟨rfl, fun c hc => ?_⟩
    obtain rfl : c = 0 := by simpa using hc
    exact ⟨_, rfl, rfl⟩
  · rw [hp]
    refine ⟨rfl, fun c hc => ?_⟩
    obtain rfl : c = 0 := by simpa using hc
    exact ⟨_, rfl, rfl⟩
  · rw [hp]
    intro c hc i hi
    obtain rfl : c = 0 := by simpa using hc
    obtain rfl : i = 0 := by simpa using hi
    rfl
  · rw [hp]; intro w hw; rw [List.mem_singleton.1 hw]; exact .one
  · rw [hp]; intro w hw; rw [List.mem_singleton.1 hw]; exact .one
  · rw [hp]; simp [byCamera, featuresOf]
  · rw [h2, hp]; intro w hw; rw [List.mem_singleton.1 hw]; exact Representable.one.1
  · rw [h1, h2, hp]
    intro f hf
    obtain rfl := List.mem_singleton.1 (hfe ▸ hf)
    exact x2
  · rw [h1, h2, hp]
    intro x hx
    have : x ∈ staticError ⟨1, 1, 0, 0⟩ 1 ((1 : Iso) * 1) ⟨⟨0, 0⟩, ⟨0, 0, 1⟩⟩ := by
      obtain ⟨f, hf, hx⟩ := List.mem_flatMap.1 hx
      obtain rfl := List.mem_singleton.1 (hfe ▸ hf)
      exact hx
    rw [x1] at this
    simpa using this

example : ∃ (p : CoProblem) (ext obs' : List (List (List Corr2))) (r : CoResult), CoSizes { p with observations := ext } ∧
    CoSizes { p with observations := obs' } ∧ Joined p.observations ext obs' p.baseToCameraGuess.length (fun _ => p.baseToTargetGuess.length) ∧
    p.fixFirst = true ∧ (∀ g, p.baseToCameraGuess[0]? = some g → Representable g) ∧ p.baseToTargetGuess ≠ [] ∧
    byImage p.observations p.baseToCameraGuess.length p.baseToTargetGuess.length ≠ [] ∧ Reaches (fun s => cameraOnly s p) r ∧
    (∀ c ∈ r.baseToCamera, RigidMotion c) ∧
    NoZeroDepth r.baseToCamera (fun _ i => r.baseToTarget.getD i 1)
      (byImage ext p.baseToCameraGuess.length p.baseToTargetGuess.length) ∧
    ∀ x ∈ staticErrors p.intr r.baseToCamera (fun _ i => r.baseToTarget.getD i 1)
      (byImage ext p.baseToCameraGuess.length p.baseToTargetGuess.length), x = 0 := by
  obtain ⟨p, hp⟩ : ∃ p : CoProblem, p = ⟨true, [⟨1, 1, 0, 0⟩], [1], [[[⟨⟨5, 0⟩, ⟨0, 0, 1⟩⟩]]], [1]⟩ := ⟨_, rfl⟩
  obtain ⟨r, h⟩ : ∃ r, cameraOnly (idCeres Pose6) p = .ok r := by rw [hp]; exact ⟨_, rfl⟩
  obtain ⟨h1, h2⟩ := C34_camera_only (idCeres Pose6) p r (fun _ _ => rfl) (by rw [hp]; simp)
    (by rw [hp]; intro g hg; rw [List.mem_singleton.1 hg]; exact .one) (by rw [hp]; intro g hg; rw [List.mem_singleton.1 hg]; exact .one) h
  obtain ⟨x1, x2⟩ := exExact 1 rfl
  have hfe : byImage [[[(⟨⟨0, 0⟩, ⟨0, 0, 1⟩⟩ : Corr2)]]] 1 1 = [⟨0, 0, ⟨⟨0, 0⟩, ⟨0, 0, 1⟩⟩⟩] := rfl
  refine ⟨p, [[[⟨⟨0, 0⟩, ⟨0, 0, 1⟩⟩]]], [[[⟨⟨5, 0⟩, ⟨0, 0, 1⟩⟩, ⟨⟨0, 0⟩, ⟨0, 0, 1⟩⟩]]], r, ?_, ?_, ?_, ?_, ?_, ?_, ?_, ⟨_, idCeres_wf Pose6, h⟩, ?_, ?_, ?_⟩
  · rw [hp]
    refine ⟨rfl, fun c hc => ?_⟩
    obtain rfl : c = 0 := by simpa using hc
    exact ⟨_, rfl, rfl⟩
  · rw [hp]
    refine ⟨rfl, fun c hc => ?_⟩
    obtain rfl : c = 0 := by simpa using hc
    exact ⟨_, rfl, rfl⟩
  · rw [hp]
    intro c hc i hi
    obtain rfl : c = 0 := by simpa using hc
    obtain rfl : i = 0 := by simpa using hi
    rfl
  · rw [hp]
  · rw [hp]; intro g hg; obtain rfl : 1 = g := by simpa using hg
    exact .one
  · rw [hp]; simp
  · rw [hp]; simp [byImage, featuresOf]
  · rw [h2, hp]; intro w hw; rw [List.mem_singleton.1 hw]; exact Representable.one.1
  · rw [h1, h2, hp]
    intro f hf
    obtain rfl := List.mem_singleton.1 (hfe ▸ hf)
    exact x2
  · rw [h1, h2, hp]
    intro x hx
    have : x ∈ staticError ⟨1, 1, 0, 0⟩ 1 1 ⟨⟨0, 0⟩, ⟨0, 0, 1⟩⟩ := by
      obtain ⟨f, hf, hx⟩ := List.mem_flatMap.1 hx
      obtain rfl := List.mem_singleton.1 (hfe ▸ hf)
      exact hx
    rw [x1] at this
    simpa using this

example : ∃ (p : MsProblem) (ext obs' : List (List (List Corr2))) (r : MsResult), MsSizes { p with observations := ext } ∧
    MsSizes { p with observations := obs' } ∧ Joined p.observations ext obs' p.baseToCameraGuess.length (fun c => (p.wristPoses.getD c []).length) ∧
    (∀ wp ∈ p.wristPoses, ∀ w ∈ wp, Representable w) ∧ p.baseToCameraGuess ≠ [] ∧
    (∀ c, c < p.baseToCameraGuess.length → ∃ oc, ∃ l ∈ oc, obs'[c]? = some oc ∧ l ≠ []) ∧
    byCamera p.observations p.baseToCameraGuess.length (fun c => (p.wristPoses.getD c []).length) ≠ [] ∧ Reaches (fun s => multiStatic s p) r ∧
    (∀ c ∈ r.baseToCamera, RigidMotion c) ∧
    NoZeroDepth r.baseToCamera (fun c i => (p.wristPoses.getD c []).getD i 1 * r.wristToTarget)
      (byCamera ext p.baseToCameraGuess.length fun c => (p.wristPoses.getD c []).length) ∧
    ∀ x ∈ staticErrors p.intr r.baseToCamera (fun c i => (p.wristPoses.getD c []).getD i 1 * r.wristToTarget)
      (byCamera ext p.baseToCameraGuess.length fun c => (p.wristPoses.getD c []).length), x = 0 := by
  obtain ⟨p, hp⟩ : ∃ p : MsProblem, p = ⟨[⟨1, 1, 0, 0⟩], [[1]], [[[⟨⟨5, 0⟩, ⟨0, 0, 1⟩⟩]]], 1, [1], "t", "c"⟩ := ⟨_, rfl⟩
  obtain ⟨r, h⟩ : ∃ r, multiStatic (idCeres Pose6) p = .ok r := by
    refine multiStatic_id_runs ⟨by rw [hp]; rfl, by rw [hp]; rfl, by rw [hp]; rfl, ?_⟩ (by rw [hp]; simp) ?_
    · rw [hp]; intro c oc wp h1 h2
      have hc : c = 0 := by
        have := (List.getElem?_eq_some_iff.1 h1).1
        simpa using this
      subst hc
      cases h1; cases h2; rfl
    · rw [hp]; intro c hc
      obtain rfl : c = 0 := by simpa using hc
      exact ⟨_, _, List.mem_singleton.2 rfl, rfl, by simp⟩
  obtain ⟨h1, h2⟩ := C34_multi_static (idCeres Pose6) p r (fun _ _ => rfl) (by rw [hp]; exact .one)
    (by rw [hp]; intro g hg; rw [List.mem_singleton.1 hg]; exact .one) h
  have hT : (1 : Iso) * 1 = 1 := Iso.mul_one _
  obtain ⟨x1, x2⟩ := exExact (1 * 1) hT
  have hfe : byCamera [[[(⟨⟨0, 0⟩, ⟨0, 0, 1⟩⟩ : Corr2)]]] 1 (fun _ => 1) = [⟨0, 0, ⟨⟨0, 0⟩, ⟨0, 0, 1⟩⟩⟩] := rfl
  refine ⟨p, [[[⟨⟨0, 0⟩, ⟨0, 0, 1⟩⟩]]], [[[⟨⟨5, 0⟩, ⟨0, 0, 1⟩⟩, ⟨⟨0, 0⟩, ⟨0, 0, 1⟩⟩]]], r, ?_, ?_, ?_, ?_, ?_, ?_, ?_, ⟨_, idCeres_wf Pose6, h⟩, ?_, ?_, ?_⟩
  · rw [hp]
    refine ⟨rfl, rfl, rfl, fun c oc wp h1 h2 => ?_⟩
    have hc : c = 0 := by
      have := (List.getElem?_eq_some_iff.1 h1).1
      simpa using this
    subst hc
    cases h1; cases h2; rfl
  · rw [hp]
    refine ⟨rfl, rfl, rfl, fun c oc wp h1 h2 => ?_⟩
    have hc : c = 0 := by
      have := (List.getElem?_eq_some_iff.1 h1).1
      simpa using this
    subst hc
    cases h1; cases h2; rfl
  · rw [hp]
    intro c hc i hi
    obtain rfl : c = 0 := by simpa using hc
    obtain rfl : i = 0 := by simpa using hi
    rfl
  · rw [hp]; intro wp hwp w hw; rw [List.mem_singleton.1 hwp] at hw; rw [List.mem_singleton.1 hw]; exact .one
  · rw [hp]; simp
  · rw [hp]; intro c hc
    obtain rfl : c = 0 := by simpa using hc
    exact ⟨_, _, List.mem_singleton.2 rfl, rfl, by simp⟩
  · rw [hp]; simp [byCamera, featuresOf]
  · rw [h2, hp]; intro w hw; rw [List.mem_singleton.1 hw]; exact Representable.one.1
  · rw [h1, h2, hp]
    intro f hf
    obtain rfl := List.mem_singleton.1 (hfe ▸ hf)
    exact x2
  · rw [h1, h2, hp]
    intro x hx
    have : x ∈ staticError ⟨1, 1, 0, 0⟩ 1 ((1 : Iso) * 1) ⟨⟨0, 0⟩, ⟨0, 0, 1⟩⟩ := by
      obtain ⟨f, hf, hx⟩ := List.mem_flatMap.1 hx
      obtain rfl := List.mem_singleton.1 (hfe ▸ hf)
      exact hx
    rw [x1] at this
    simpa using this

end RCT
