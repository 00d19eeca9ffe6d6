import Verif.Spec.Order
import Verif.Props.MultiExit
import Verif.Props.Rank
import Verif.Props.Kinematic
import Verif.Props.CircleFit

/-!
# C224 The order of the data and their division into observations do not matter
-/

namespace RCT

open Spec

/-! ## Solvers for problems with residual blocks in another order -/

/-- The solver that works on `φ q` instead of `q`. -/
def Ceres.through {β : Type} (s : Ceres β) (φ : List (ResBlock β) → List (ResBlock β)) : Ceres β where
  solve := fun q => s.solve (φ q)
  converged := fun q => s.converged (φ q)
  order := fun q => s.order (φ q)
  covCompute := fun q => s.covCompute (φ q)
  covMatrix := fun q => s.covMatrix (φ q)

theorem residuals_perm {β : Type} {pb pb' : List (ResBlock β)} (h : pb.Perm pb') (st : Nat → β) :
    (residuals pb st).Perm (residuals pb' st) := h.flatMap_right _

theorem cost_perm {β : Type} {pb pb' : List (ResBlock β)} (h : pb.Perm pb') (st : Nat → β) : cost pb st = cost pb' st := by
  unfold cost
  rw [((residuals_perm h st).map _).sum_eq]

theorem costPerObs_perm {β : Type} {pb pb' : List (ResBlock β)} (h : pb.Perm pb') (st : Nat → β) :
    costPerObs pb st = costPerObs pb' st := by
  unfold costPerObs
  rw [cost_perm h, (residuals_perm h st).length_eq]

theorem usedBlocks_perm {β : Type} {pb pb' : List (ResBlock β)} (h : pb.Perm pb') : (usedBlocks pb).Perm (usedBlocks pb') :=
  (h.flatMap_right _).dedup

theorem Ceres.WF.through {β : Type} {s : Ceres β} (hs : s.WF) {φ : List (ResBlock β) → List (ResBlock β)} (h : ∀ q, (φ q).Perm q) :
    (s.through φ).WF where
  frame := fun q st a ha => hs.frame (φ q) st a fun hm => ha ((usedBlocks_perm (h q)).subset hm)
  descent := fun q st => by
    have := hs.descent (φ q) st
    rw [cost_perm (h q), cost_perm (h q)] at this
    exact this
  order_perm := fun q => (hs.order_perm (φ q)).trans (usedBlocks_perm (h q))
  compute_no_throw := fun q => hs.compute_no_throw (φ q)

open Classical in
/-- Solve `pb` instead of `pb'`. -/
noncomputable def instead {β : Type} (pb' pb : List (ResBlock β)) (q : List (ResBlock β)) : List (ResBlock β) := if q = pb' then pb else q

theorem instead_self {β : Type} (pb' pb : List (ResBlock β)) : instead pb' pb pb' = pb := if_pos rfl

theorem instead_perm {β : Type} {pb' pb : List (ResBlock β)} (h : pb.Perm pb') (q : List (ResBlock β)) : (instead pb' pb q).Perm q := by
  unfold instead
  split
  · rename_i e; rw [e]; exact h
  · exact .refl _

theorem covSolver_through {β : Type} (s : Ceres β) {pb' pb : List (ResBlock β)} {φ : List (ResBlock β) → List (ResBlock β)} (h : pb.Perm pb')
    (e : φ pb' = pb) (st : Nat → β) (n : Nat) : (s.through φ).covSolver pb' st n = s.covSolver pb st n := by
  have hm : ∀ a, a ∈ usedBlocks pb' ↔ a ∈ usedBlocks pb := fun a => (usedBlocks_perm h).symm.mem_iff
  unfold Ceres.covSolver Ceres.through
  simp only [e, hm]

theorem covSolverF_through {β : Type} (s : Ceres β) {pb' pb : List (ResBlock β)} {φ : List (ResBlock β) → List (ResBlock β)} (h : pb.Perm pb')
    (e : φ pb' = pb) (st : Nat → β) (n : Nat → Nat) : (s.through φ).covSolverF pb' st n = s.covSolverF pb st n := by
  have hm : ∀ a, a ∈ usedBlocks pb' ↔ a ∈ usedBlocks pb := fun a => (usedBlocks_perm h).symm.mem_iff
  unfold Ceres.covSolverF Ceres.through
  simp only [e, hm]

/-! ## PnP and circle fit -/

theorem pnpFinish_through {κ : Type} (s : Ceres V3) (p p' : PnPProblem κ) (hg : p.guess = p'.guess) (hl : p.label = p'.label)
    {pb' pb : List (ResBlock V3)} (h : pb.Perm pb') : pnpFinish (s.through (instead pb' pb)) p' pb' = pnpFinish s p pb := by
  have e := instead_self pb' pb
  unfold pnpFinish
  simp only [covSolver_through s h e, ← costPerObs_perm h, ← hg, ← hl]
  simp only [Ceres.through, e]

/-- PnP: correspondences in another order can give the same results. -/
theorem C224_pnp (p : PnPProblem Corr2) (cs : List Corr2) (h : p.correspondences.Perm cs) (r : PnPResult) :
    Reaches (fun s => pnp2 s p) r ↔ Reaches (fun s => pnp2 s { p with correspondences := cs }) r := by
  have hp : (pnpBuild2 p).Perm (pnpBuild2 { p with correspondences := cs }) := h.map _
  constructor
  · rintro ⟨s, hs, hr⟩
    exact ⟨_, hs.through (instead_perm hp), (pnpFinish_through s p { p with correspondences := cs } rfl rfl hp).trans hr⟩
  · rintro ⟨s, hs, hr⟩
    exact ⟨_, hs.through (instead_perm hp.symm), (pnpFinish_through s { p with correspondences := cs } p rfl rfl hp.symm).trans hr⟩

theorem C224_pnp_3d (p : PnPProblem Corr3) (cs : List Corr3) (h : p.correspondences.Perm cs) (r : PnPResult) :
    Reaches (fun s => pnp3 s p) r ↔ Reaches (fun s => pnp3 s { p with correspondences := cs }) r := by
  have hp : (pnpBuild3 p).Perm (pnpBuild3 { p with correspondences := cs }) := h.map _
  constructor
  · rintro ⟨s, hs, hr⟩
    exact ⟨_, hs.through (instead_perm hp), (pnpFinish_through s p { p with correspondences := cs } rfl rfl hp).trans hr⟩
  · rintro ⟨s, hs, hr⟩
    exact ⟨_, hs.through (instead_perm hp.symm), (pnpFinish_through s { p with correspondences := cs } p rfl rfl hp.symm).trans hr⟩

theorem circleFit_through (s : Ceres Mem) (p p' : CircleFitProblem) (hi : circleInit p = circleInit p')
    (h : (circleBuild p).Perm (circleBuild p')) : circleFit (s.through (instead (circleBuild p') (circleBuild p))) p' = circleFit s p := by
  have e := instead_self (circleBuild p') (circleBuild p)
  unfold circleFit
  simp only [covSolver_through s h e, ← costPerObs_perm h, ← hi]
  simp only [Ceres.through, e]

/-- Circle fit: points in another order. -/
theorem C224_circle (p : CircleFitProblem) (obs : List V2) (h : p.observations.Perm obs) (r : CircleFitResult) :
    Reaches (fun s => circleFit s p) r ↔ Reaches (fun s => circleFit s { p with observations := obs }) r := by
  have hp : (circleBuild p).Perm (circleBuild { p with observations := obs }) := h.map _
  constructor
  · rintro ⟨s, hs, hr⟩
    exact ⟨_, hs.through (instead_perm hp), (circleFit_through s p { p with observations := obs } rfl hp).trans hr⟩
  · rintro ⟨s, hs, hr⟩
    exact ⟨_, hs.through (instead_perm hp.symm), (circleFit_through s { p with observations := obs } p rfl hp.symm).trans hr⟩

/-! ## Hand-eye calibration -/

theorem features_samples {κ γ : Type} (g : Iso × Iso × κ → γ) (obs : List (Obs κ)) :
    (features obs).map (fun f => g (f.1.toCameraMount, f.1.toTargetMount, f.2)) = (samples obs).map g := by
  unfold features samples
  rw [List.map_flatMap, List.map_flatMap]
  simp only [List.map_map]
  rfl

theorem heFinish_through {κ : Type} (s : Ceres Pose6) (p p' : HandEyeProblem κ) (hi : heInit p = heInit p') (hc : p.labelCamera = p'.labelCamera)
    (ht : p.labelTarget = p'.labelTarget) (hl : p.labels = p'.labels) {pb' pb : List (ResBlock Pose6)} (h : pb.Perm pb') :
    heFinish (s.through (instead pb' pb)) p' pb' = heFinish s p pb := by
  have e := instead_self pb' pb
  unfold heFinish
  simp only [covSolver_through s h e, ← costPerObs_perm h, ← hi, ← hc, ← ht, ← hl]
  simp only [Ceres.through, e]

theorem handEye3_order {p : HandEyeProblem Corr3} {obs : List (Obs Corr3)} (h : (samples p.observations).Perm (samples obs))
    {r : HandEyeResult} (hr : Reaches (fun s => handEye3 s p) r) : Reaches (fun s => handEye3 s { p with observations := obs }) r := by
  obtain ⟨s, hs, hr⟩ := hr
  have hp : (heBuild3 p).Perm (heBuild3 { p with observations := obs }) := by
    rw [heBuild3_eq, heBuild3_eq]
    have e := fun l => features_samples (fun t : Iso × Iso × Corr3 =>
      (⟨[heCam, heTgt], eval2 (handEyeCost3 t.2.2.inImage t.1.inv t.2.1 t.2.2.inTarget)⟩ : ResBlock Pose6)) l
    exact (e p.observations ▸ e obs ▸ h.map _)
  exact ⟨_, hs.through (instead_perm hp), (heFinish_through s p { p with observations := obs } rfl rfl rfl rfl hp).trans hr⟩

/-- Hand-eye calibration from points: only the correspondences with their poses matter, not their order and not which of them are
listed as one observation. -/
theorem C224_hand_eye_3d (p : HandEyeProblem Corr3) (obs : List (Obs Corr3)) (h : (samples p.observations).Perm (samples obs))
    (r : HandEyeResult) : Reaches (fun s => handEye3 s p) r ↔ Reaches (fun s => handEye3 s { p with observations := obs }) r :=
  ⟨handEye3_order h, handEye3_order (p := { p with observations := obs }) h.symm⟩

theorem handEye2_order {p : HandEyeProblem Corr2} {obs : List (Obs Corr2)} (h : (samples p.observations).Perm (samples obs))
    {r : HandEyeResult} (hr : Reaches (fun s => handEye2 s p) r) : Reaches (fun s => handEye2 s { p with observations := obs }) r := by
  obtain ⟨s, hs, hr⟩ := hr
  simp only [handEye2] at hr
  rcases heBuild2_cases p with ⟨hv, hb⟩ | ⟨-, hb⟩
  swap
  · rw [hb] at hr; cases hr
  rw [hb, Res.ok_bind] at hr
  have hv' : ∀ f ∈ features obs, heVisible { p with observations := obs } f := by
    intro f hf
    have hf' : (f.1.toCameraMount, f.1.toTargetMount, f.2) ∈ samples obs := by
      have := features_samples (fun t : Iso × Iso × Corr2 => t) obs
      rw [List.map_id'] at this
      rw [← this]
      exact List.mem_map.2 ⟨f, hf, rfl⟩
    have hs' := h.symm.subset hf'
    have := features_samples (fun t : Iso × Iso × Corr2 => t) p.observations
    rw [List.map_id'] at this
    rw [← this] at hs'
    obtain ⟨f₀, hf₀, e⟩ := List.mem_map.1 hs'
    simp only [Prod.mk.injEq] at e
    have hv₀ := hv f₀ hf₀
    unfold heVisible at hv₀ ⊢
    rw [← e.1, ← e.2.1, ← e.2.2]
    exact hv₀
  have hb' : heBuild2 { p with observations := obs } = .ok ((features obs).map (heBlock2 p.intr)) := by
    rcases heBuild2_cases { p with observations := obs } with ⟨-, hb'⟩ | ⟨⟨f, hf, hn⟩, -⟩
    · exact hb'
    · exact absurd (hv' f hf) hn
  have hp : ((features p.observations).map (heBlock2 p.intr)).Perm ((features obs).map (heBlock2 p.intr)) := by
    have e := fun l => features_samples (fun t : Iso × Iso × Corr2 =>
      (⟨[heCam, heTgt], eval2 (handEyeCost2 t.2.2.inImage t.1.inv t.2.1 t.2.2.inTarget p.intr)⟩ : ResBlock Pose6)) l
    exact (e p.observations ▸ e obs ▸ h.map _)
  refine ⟨_, hs.through (instead_perm hp), ?_⟩
  simp only [handEye2]
  rw [hb', Res.ok_bind]
  exact (heFinish_through s p { p with observations := obs } rfl rfl rfl rfl hp).trans hr

/-- The same from pixels. -/
theorem C224_hand_eye (p : HandEyeProblem Corr2) (obs : List (Obs Corr2)) (h : (samples p.observations).Perm (samples obs))
    (r : HandEyeResult) : Reaches (fun s => handEye2 s p) r ↔ Reaches (fun s => handEye2 s { p with observations := obs }) r :=
  ⟨handEye2_order h, handEye2_order (p := { p with observations := obs }) h.symm⟩

/-! ## Several static cameras -/

theorem zip_eq_range {α β : Type} (l : List α) (m : List β) (h : m.length = l.length) (d : α) (e : β) :
    List.zip l m = (List.range l.length).map fun i => (l.getD i d, m.getD i e) := by
  refine List.ext_getElem (by simp [h]) fun i h1 h2 => ?_
  have h3 : i < l.length := by simpa using h2
  simp [List.getD_eq_getElem?_getD, h3, h ▸ h3]

theorem wristSamples_range {γ : Type} (g : Iso × Corr2 → γ) (wp : List Iso) (oc : List (List Corr2)) (h : oc.length = wp.length) :
    (wristSamples wp oc).map g = (List.range wp.length).flatMap fun i => (oc.getD i []).map fun k => g (wp.getD i 1, k) := by
  unfold wristSamples
  rw [zip_eq_range wp oc h 1 [], List.flatMap_map, List.map_flatMap]
  simp only [List.map_map]
  rfl

/-- The blocks of one camera. -/
theorem msBlocks_samples {p : MsProblem} (hp : MsSizes p) : (msFeatures p).map (msBlock p) =
    (List.range p.baseToCameraGuess.length).flatMap fun c => (wristSamples (p.wristPoses.getD c []) (p.observations.getD c [])).map
      fun wk => (⟨[msCam c, msTgt], eval2 (msCost wk.2.inImage (p.intr.getD c ⟨0, 0, 0, 0⟩) wk.1 wk.2.inTarget)⟩ : ResBlock Pose6) := by
  unfold msFeatures byCamera
  rw [List.map_flatMap]
  refine List.flatMap_congr fun c hc => ?_
  rw [List.mem_range] at hc
  have h1 : p.wristPoses[c]? = some (p.wristPoses[c]'(by rw [hp.wrist]; exact hc)) := List.getElem?_eq_getElem _
  have h2 : p.observations[c]? = some (p.observations[c]'(by rw [hp.obs]; exact hc)) := List.getElem?_eq_getElem _
  rw [wristSamples_range _ _ _ (by rw [getD_of_some h1, getD_of_some h2]; exact hp.images c _ _ h2 h1), List.map_flatMap]
  refine List.flatMap_congr fun i _ => ?_
  unfold featuresOf
  rw [List.map_map]
  rfl

theorem multiStatic_order {p p' : MsProblem} (hp : MsSizes p) (hp' : MsSizes p') (hi : p.intr = p'.intr) (hc : p.baseToCameraGuess = p'.baseToCameraGuess)
    (ht : p.wristToTargetGuess = p'.wristToTargetGuess) (hl : p.labelTarget = p'.labelTarget) (hL : p.labelCamera = p'.labelCamera)
    (h : ∀ c, c < p.baseToCameraGuess.length → (wristSamples (p.wristPoses.getD c []) (p.observations.getD c [])).Perm
      (wristSamples (p'.wristPoses.getD c []) (p'.observations.getD c []))) {r : MsResult} (hr : Reaches (fun s => multiStatic s p) r) :
    Reaches (fun s => multiStatic s p') r := by
  obtain ⟨s, hs, hr⟩ := hr
  obtain ⟨pb, hb⟩ := C41_built p hp.wrist hp.obs hp.intr hp.images
  obtain ⟨pb', hb'⟩ := C41_built p' hp'.wrist hp'.obs hp'.intr hp'.images
  have hperm : pb.Perm pb' := by
    rw [msBuild_eq hb, msBuild_eq hb', msBlocks_samples hp, msBlocks_samples hp', ← hi, ← hc]
    exact List.Perm.flatMap_left _ fun c hc' => (h c (List.mem_range.1 hc')).map _
  have hinit : msInit p' = msInit p := by unfold msInit; rw [ht, hc]
  have hnames : msNames p' = msNames p := by unfold msNames; rw [hc, hl, hL]
  refine ⟨_, hs.through (instead_perm hperm), ?_⟩
  have e := instead_self pb' pb
  beta_reduce at hr ⊢
  unfold multiStatic at hr ⊢
  rw [hb, Res.ok_bind] at hr
  rw [hb', Res.ok_bind, ← hr, ← hc, hinit, hnames]
  simp only [covSolver_through s hperm e, ← costPerObs_perm hperm]
  simp only [Ceres.through, e]

/-- Several static cameras and a target on the wrist: for each camera only the correspondences with their wrist poses matter. -/
theorem C224_static (p : MsProblem) (wrist : List (List Iso)) (obs : List (List (List Corr2))) (hp : MsSizes p)
    (hp' : MsSizes { p with wristPoses := wrist, observations := obs })
    (h : ∀ c, c < p.baseToCameraGuess.length → (wristSamples (p.wristPoses.getD c []) (p.observations.getD c [])).Perm
      (wristSamples (wrist.getD c []) (obs.getD c []))) (r : MsResult) :
    Reaches (fun s => multiStatic s p) r ↔ Reaches (fun s => multiStatic s { p with wristPoses := wrist, observations := obs }) r :=
  ⟨multiStatic_order hp hp' rfl rfl rfl rfl rfl h, multiStatic_order hp' hp rfl rfl rfl rfl rfl fun c hc => (h c hc).symm⟩

/-- The residual block of one feature. -/
noncomputable def woBlock (p : WoProblem) (f : Feature) : ResBlock Pose6 :=
  ⟨[woCorr, woTgt], eval2 (woCost f.corr.inImage (p.intr.getD f.cam ⟨0, 0, 0, 0⟩) (p.wristPoses.getD f.img 1)
    (p.baseToCameraGuess.getD f.cam 1) f.corr.inTarget)⟩

theorem woBuild_eq {p : WoProblem} {pb : List (ResBlock Pose6)} (h : woBuild p = .ok pb) :
    pb = (byCamera p.observations p.baseToCameraGuess.length fun _ => p.wristPoses.length).map (woBlock p) := by
  have hf := woBuild_blocks h
  clear h
  generalize (byCamera p.observations p.baseToCameraGuess.length fun _ => p.wristPoses.length) = l at hf
  induction hf with
  | nil => rfl
  | cons hb _ ih =>
    obtain ⟨intr, w, g, h1, h2, h3, rfl⟩ := hb
    rw [List.map_cons, ← ih]
    unfold woBlock
    rw [getD_of_some h1, getD_of_some h2, getD_of_some h3]

/-- The sizes fit. -/
structure WoSizes (p : WoProblem) : Prop where
  intr : p.intr.length = p.baseToCameraGuess.length
  images : ∀ c, c < p.baseToCameraGuess.length → ∃ oc, p.observations[c]? = some oc ∧ oc.length = p.wristPoses.length

theorem WoSizes.built {p : WoProblem} (hp : WoSizes p) : ∃ pb, woBuild p = .ok pb := by
  obtain ⟨r, hr⟩ := wristOnly_returns (idCeres Pose6) p hp.intr hp.images
  unfold wristOnly at hr
  obtain ⟨pb, hb, -⟩ := (Res.bind_ok_iff _ _ _).1 hr
  exact ⟨pb, hb⟩

theorem woBlocks_samples {p : WoProblem} (hp : WoSizes p) :
    (byCamera p.observations p.baseToCameraGuess.length fun _ => p.wristPoses.length).map (woBlock p) =
    (List.range p.baseToCameraGuess.length).flatMap fun c => (wristSamples p.wristPoses (p.observations.getD c [])).map
      fun wk => (⟨[woCorr, woTgt], eval2 (woCost wk.2.inImage (p.intr.getD c ⟨0, 0, 0, 0⟩) wk.1 (p.baseToCameraGuess.getD c 1)
        wk.2.inTarget)⟩ : ResBlock Pose6) := by
  unfold byCamera
  rw [List.map_flatMap]
  refine List.flatMap_congr fun c hc => ?_
  rw [List.mem_range] at hc
  obtain ⟨oc, h1, h2⟩ := hp.images c hc
  rw [wristSamples_range _ _ _ (by rw [getD_of_some h1]; exact h2), List.map_flatMap]
  refine List.flatMap_congr fun i _ => ?_
  unfold featuresOf
  rw [List.map_map]
  rfl

theorem wristOnly_order {p p' : WoProblem} (hp : WoSizes p) (hp' : WoSizes p') (hi : p.intr = p'.intr)
    (hc : p.baseToCameraGuess = p'.baseToCameraGuess) (ht : p.wristToTargetGuess = p'.wristToTargetGuess)
    (h : ∀ c, c < p.baseToCameraGuess.length → (wristSamples p.wristPoses (p.observations.getD c [])).Perm
      (wristSamples p'.wristPoses (p'.observations.getD c []))) {r : WoResult} (hr : Reaches (fun s => wristOnly s p) r) :
    Reaches (fun s => wristOnly s p') r := by
  obtain ⟨s, hs, hr⟩ := hr
  obtain ⟨pb, hb⟩ := hp.built
  obtain ⟨pb', hb'⟩ := hp'.built
  have hperm : pb.Perm pb' := by
    rw [woBuild_eq hb, woBuild_eq hb', woBlocks_samples hp, woBlocks_samples hp', ← hi, ← hc]
    exact List.Perm.flatMap_left _ fun c hc' => (h c (List.mem_range.1 hc')).map _
  have hinit : woInit p' = woInit p := by unfold woInit; rw [ht]
  refine ⟨_, hs.through (instead_perm hperm), ?_⟩
  have e := instead_self pb' pb
  beta_reduce at hr ⊢
  unfold wristOnly at hr ⊢
  rw [hb, Res.ok_bind] at hr
  rw [hb', Res.ok_bind, ← hr, ← hc, hinit]
  simp only [← costPerObs_perm hperm]
  simp only [Ceres.through, e]

/-- One correction of all cameras. -/
theorem C224_wrist_only (p : WoProblem) (wrist : List Iso) (obs : List (List (List Corr2))) (hp : WoSizes p)
    (hp' : WoSizes { p with wristPoses := wrist, observations := obs })
    (h : ∀ c, c < p.baseToCameraGuess.length → (wristSamples p.wristPoses (p.observations.getD c [])).Perm
      (wristSamples wrist (obs.getD c []))) (r : WoResult) :
    Reaches (fun s => wristOnly s p) r ↔ Reaches (fun s => wristOnly s { p with wristPoses := wrist, observations := obs }) r :=
  ⟨wristOnly_order hp hp' rfl rfl rfl h, wristOnly_order hp' hp rfl rfl rfl fun c hc => (h c hc).symm⟩

/-- The residual block of one feature. -/
noncomputable def coBlock (p : CoProblem) (f : Feature) : ResBlock Pose6 :=
  if p.fixFirst = true ∧ f.cam = 0 then
    ⟨[coTgt f.img], eval1 (coFixedCost f.corr.inImage (p.intr.getD f.cam ⟨0, 0, 0, 0⟩) (p.baseToCameraGuess.getD f.cam 1) f.corr.inTarget)⟩
  else ⟨[coCam f.cam, coTgt f.img], eval2 (coFreeCost f.corr.inImage (p.intr.getD f.cam ⟨0, 0, 0, 0⟩) f.corr.inTarget)⟩

theorem coBuild_eq {p : CoProblem} {pb : List (ResBlock Pose6)} (h : coBuild p = .ok pb) :
    pb = (byImage p.observations p.baseToCameraGuess.length p.baseToTargetGuess.length).map (coBlock p) := by
  have hf := coBuild_blocks h
  clear h
  generalize (byImage p.observations p.baseToCameraGuess.length p.baseToTargetGuess.length) = l at hf
  induction hf with
  | nil => rfl
  | cons hb _ ih =>
    rw [List.map_cons, ← ih]
    obtain ⟨intr, h1, ⟨hf, h0, g, h2, rfl⟩ | ⟨hn, rfl⟩⟩ := hb
    · unfold coBlock
      rw [if_pos ⟨hf, h0⟩, getD_of_some h1, getD_of_some h2]
    · unfold coBlock
      rw [if_neg hn, getD_of_some h1]

/-- The sizes fit. -/
structure CoSizes (p : CoProblem) : Prop where
  intr : p.intr.length = p.baseToCameraGuess.length
  images : ∀ c, c < p.baseToCameraGuess.length → ∃ oc, p.observations[c]? = some oc ∧ oc.length = p.baseToTargetGuess.length

theorem CoSizes.built {p : CoProblem} (hp : CoSizes p) : ∃ pb, coBuild p = .ok pb := by
  obtain ⟨r, hr⟩ := cameraOnly_returns (idCeres Pose6) p hp.intr hp.images
  unfold cameraOnly at hr
  obtain ⟨pb, hb, -⟩ := (Res.bind_ok_iff _ _ _).1 hr
  exact ⟨pb, hb⟩

theorem cameraOnly_order {p : CoProblem} {obs : List (List (List Corr2))} (hp : CoSizes p) (hp' : CoSizes { p with observations := obs })
    (h : ∀ c, c < p.baseToCameraGuess.length → ∀ i, i < p.baseToTargetGuess.length →
      ((p.observations.getD c []).getD i []).Perm ((obs.getD c []).getD i [])) {r : CoResult} (hr : Reaches (fun s => cameraOnly s p) r) :
    Reaches (fun s => cameraOnly s { p with observations := obs }) r := by
  obtain ⟨s, hs, hr⟩ := hr
  obtain ⟨pb, hb⟩ := hp.built
  obtain ⟨pb', hb'⟩ := hp'.built
  have hperm : pb.Perm pb' := by
    rw [coBuild_eq hb, coBuild_eq hb']
    refine List.Perm.map _ ?_
    unfold byImage
    refine List.Perm.flatMap_left _ fun i hi => List.Perm.flatMap_left _ fun c hc => ?_
    exact (h c (List.mem_range.1 hc) i (List.mem_range.1 hi)).map _
  refine ⟨_, hs.through (instead_perm hperm), ?_⟩
  have e := instead_self pb' pb
  beta_reduce at hr ⊢
  unfold cameraOnly at hr ⊢
  rw [hb, Res.ok_bind] at hr
  rw [hb', Res.ok_bind, ← hr]
  simp only [← costPerObs_perm hperm]
  simp only [Ceres.through, e]
  rfl

/-- Cameras without wrist poses: the order of the correspondences of each image. -/
theorem C224_camera_only (p : CoProblem) (obs : List (List (List Corr2))) (hp : CoSizes p) (hp' : CoSizes { p with observations := obs })
    (h : ∀ c, c < p.baseToCameraGuess.length → ∀ i, i < p.baseToTargetGuess.length →
      ((p.observations.getD c []).getD i []).Perm ((obs.getD c []).getD i [])) (r : CoResult) :
    Reaches (fun s => cameraOnly s p) r ↔ Reaches (fun s => cameraOnly s { p with observations := obs }) r :=
  ⟨cameraOnly_order hp hp' h, cameraOnly_order (p := { p with observations := obs }) hp' hp fun c hc i hi => (h c hc i hi).symm⟩

/-- The residual block of one feature. -/
noncomputable def mcPnpBlock (p : McPnpProblem) (f : Feature) : ResBlock Pose6 :=
  ⟨[0], eval1 (mcPnpCost f.corr.inImage (p.intr.getD f.cam ⟨0, 0, 0, 0⟩) (p.baseToCamera.getD f.cam 1).inv f.corr.inTarget)⟩

theorem mcPnpBuild_eq {p : McPnpProblem} {pb : List (ResBlock Pose6)} (h : mcPnpBuild p = .ok pb) :
    pb = (oneImage p.observations p.baseToCamera.length).map (mcPnpBlock p) := by
  have hf := mcPnpBuild_blocks h
  clear h
  generalize (oneImage p.observations p.baseToCamera.length) = l at hf
  induction hf with
  | nil => rfl
  | cons hb _ ih =>
    obtain ⟨intr, c, h1, h2, rfl⟩ := hb
    rw [List.map_cons, ← ih]
    unfold mcPnpBlock
    rw [getD_of_some h1, getD_of_some h2]

theorem mcPnp_built {p : McPnpProblem} (h1 : p.baseToCamera.length ≤ p.intr.length) (h2 : p.baseToCamera.length ≤ p.observations.length) :
    ∃ pb, mcPnpBuild p = .ok pb := by
  obtain ⟨r, hr⟩ := C125_returns (idCeres Pose6) p h1 h2
  unfold mcPnp at hr
  obtain ⟨pb, hb, -⟩ := (Res.bind_ok_iff _ _ _).1 hr
  exact ⟨pb, hb⟩

theorem mcPnp_order {p : McPnpProblem} {obs : List (List Corr2)} (h1 : p.baseToCamera.length ≤ p.intr.length)
    (h2 : p.baseToCamera.length ≤ p.observations.length) (h3 : p.baseToCamera.length ≤ obs.length)
    (h : ∀ c, c < p.baseToCamera.length → (p.observations.getD c []).Perm (obs.getD c [])) {r : McPnpResult}
    (hr : Reaches (fun s => mcPnp s p) r) : Reaches (fun s => mcPnp s { p with observations := obs }) r := by
  obtain ⟨s, hs, hr⟩ := hr
  obtain ⟨pb, hb⟩ := mcPnp_built h1 h2
  obtain ⟨pb', hb'⟩ := mcPnp_built (p := { p with observations := obs }) h1 h3
  have hperm : pb.Perm pb' := by
    rw [mcPnpBuild_eq hb, mcPnpBuild_eq hb']
    refine List.Perm.map _ ?_
    unfold oneImage
    exact List.Perm.flatMap_left _ fun c hc => (h c (List.mem_range.1 hc)).map _
  refine ⟨_, hs.through (instead_perm hperm), ?_⟩
  have e := instead_self pb' pb
  beta_reduce at hr ⊢
  unfold mcPnp at hr ⊢
  rw [hb, Res.ok_bind] at hr
  rw [hb', Res.ok_bind, ← hr]
  simp only [← costPerObs_perm hperm]
  simp only [Ceres.through, e]

/-- Multi camera PnP: the order of the correspondences of each camera. -/
theorem C224_multi_pnp (p : McPnpProblem) (obs : List (List Corr2)) (h1 : p.baseToCamera.length ≤ p.intr.length)
    (h2 : p.baseToCamera.length ≤ p.observations.length) (h3 : p.baseToCamera.length ≤ obs.length)
    (h : ∀ c, c < p.baseToCamera.length → (p.observations.getD c []).Perm (obs.getD c [])) (r : McPnpResult) :
    Reaches (fun s => mcPnp s p) r ↔ Reaches (fun s => mcPnp s { p with observations := obs }) r :=
  ⟨mcPnp_order h1 h2 h3 h, mcPnp_order (p := { p with observations := obs }) h1 h3 h2 fun c hc => (h c hc).symm⟩

/-! ## Kinematic calibration -/

/-- The solver that works on `φ q` instead of `q`. -/
def KCeres.through (K : KCeres) (φ : List (ResBlock Mem) → List (ResBlock Mem)) : KCeres where
  order := fun q => K.order (φ q)
  run := fun bl => (K.run bl).through φ

theorem KCeres.WF.through {K : KCeres} (hK : K.WF) {φ : List (ResBlock Mem) → List (ResBlock Mem)} (h : ∀ q, (φ q).Perm q) :
    (K.through φ).WF where
  order_perm := fun q => (hK.order_perm (φ q)).trans (usedBlocks_perm (h q))
  run_wf := fun bl => (hK.run_wf bl).through h
  held := fun bl q st b hb k hk => hK.held bl (φ q) st b hb k hk

theorem mapList_ok_perm {α β : Type} {f : α → Res β} {l l' : List α} (h : l.Perm l') {r : List β} (hr : Res.mapList f l = .ok r) :
    ∃ r', Res.mapList f l' = .ok r' := by
  refine Res.mapList_returns fun a ha => ?_
  obtain ⟨b, -, hb⟩ := Forall₂.mem_left ((Res.mapList_ok_iff _ _ _).1 hr) (h.symm.subset ha)
  exact ⟨b, hb⟩

theorem kinOptimize_order {p : KinProblem} {costs costs' : List ((Nat → Mem) → Res (List ℝ))} (h : costs.Perm costs') {r : KinResult}
    (hr : ReachesK (fun K => kinOptimize K p costs) r) : ReachesK (fun K => kinOptimize K p costs') r := by
  obtain ⟨K, hK, hr⟩ := hr
  obtain ⟨pb0, hpb0⟩ : ∃ pb0, pb0 = costs.map fun f => (⟨List.range 8, evalKin f⟩ : ResBlock Mem) := ⟨_, rfl⟩
  obtain ⟨pb0', hpb0'⟩ : ∃ pb0', pb0' = costs'.map fun f => (⟨List.range 8, evalKin f⟩ : ResBlock Mem) := ⟨_, rfl⟩
  have hp0 : pb0.Perm pb0' := by rw [hpb0, hpb0']; exact h.map _
  beta_reduce at hr
  unfold kinOptimize at hr
  simp only at hr
  rw [← hpb0] at hr
  split at hr
  · cases hr
  rename_i hne
  simp only [Res.bind_ok_iff] at hr
  obtain ⟨u, hu, prior0, h0, prior1, h1, printed, hp, ls, hl, cov, hc, hr⟩ := hr
  have hp1 : (pb0 ++ prior0 ++ prior1).Perm (pb0' ++ prior0 ++ prior1) := (hp0.append_right _).append_right _
  classical
  let φ : List (ResBlock Mem) → List (ResBlock Mem) := fun q => if q = pb0' then pb0 else instead (pb0' ++ prior0 ++ prior1) (pb0 ++ prior0 ++ prior1) q
  have hφ : ∀ q, (φ q).Perm q := by
    intro q
    show (if q = pb0' then pb0 else _ : List (ResBlock Mem)).Perm q
    split
    · rename_i e; rw [e]; exact hp0
    · exact instead_perm hp1 q
  have e0 : φ pb0' = pb0 := if_pos rfl
  have e1 : φ (pb0' ++ prior0 ++ prior1) = pb0 ++ prior0 ++ prior1 := by
    by_cases he : pb0' ++ prior0 ++ prior1 = pb0'
    · have hnil : prior0 ++ prior1 = [] := by
        have := congrArg List.length he
        simp only [List.length_append] at this
        exact List.length_eq_zero_iff.1 (by rw [List.length_append]; omega)
      rw [he, e0, List.append_assoc, hnil, List.append_nil]
    · show (if _ then _ else _) = _
      rw [if_neg he]; exact instead_self _ _
  refine ⟨K.through φ, hK.through hφ, ?_⟩
  beta_reduce
  unfold kinOptimize
  simp only
  rw [← hpb0']
  have hne' : ¬ ((p.cameraChain.dof = 0 ∨ p.targetChain.dof = 0) ∧ pb0'.isEmpty = true) := by
    intro hh
    refine hne ⟨hh.1, ?_⟩
    have := hh.2
    rw [List.isEmpty_iff] at this ⊢
    rw [this] at hp0
    exact hp0.eq_nil
  rw [if_neg hne']
  obtain ⟨ls', hl'⟩ := mapList_ok_perm h hl
  simp only [KCeres.through, e0]
  rw [hu, Res.ok_bind, h0, Res.ok_bind, h1, Res.ok_bind, hp, Res.ok_bind, hl', Res.ok_bind]
  simp only [covSolverF_through _ hp1 e1, e1, ← costPerObs_perm hp1]
  simp only [Ceres.through, e1]
  rw [hc, Res.ok_bind]
  exact hr

/-- Kinematic calibration from pixels: only the correspondences with their joint values matter. -/
theorem C224_kinematic (p : KinProblem) (intr : Intr) (obs obs' : List KinObs) (h : (jointSamples obs).Perm (jointSamples obs')) (r : KinResult) :
    ReachesK (fun K => kinematic2 K p intr obs) r ↔ ReachesK (fun K => kinematic2 K p intr obs') r := by
  have e : ∀ obs : List KinObs, kinCosts2 p intr obs = (jointSamples obs).map fun t =>
      kinCost2 p.cameraChain p.targetChain intr ⟨[], t.1, t.2.1⟩ t.2.2 := by
    intro obs
    unfold kinCosts2 jointSamples
    rw [List.map_flatMap]
    simp only [List.map_map]
    rfl
  have hp : (kinCosts2 p intr obs).Perm (kinCosts2 p intr obs') := by rw [e, e]; exact h.map _
  exact ⟨kinOptimize_order hp, kinOptimize_order hp.symm⟩

/-- The same from measured poses. -/
theorem C224_kinematic_pose (p : KinProblem) (weight : ℝ) (obs obs' : List KinMeas) (h : obs.Perm obs') (r : KinResult) :
    ReachesK (fun K => kinematic6 K p weight obs) r ↔ ReachesK (fun K => kinematic6 K p weight obs') r :=
  ⟨kinOptimize_order (h.map _), kinOptimize_order (h.map _).symm⟩

/-- Two orders of the same correspondences, and a result that is reached. -/
example : ∃ (p : PnPProblem Corr2) (cs : List Corr2) (r : PnPResult), p.correspondences.Perm cs ∧ p.correspondences ≠ cs ∧
    Reaches (fun s => pnp2 s p) r := by
  obtain ⟨r, h⟩ : ∃ r, pnp2 (idCeres V3) ⟨⟨1, 1, 0, 0⟩, [⟨⟨0, 0⟩, ⟨1, 0, 2⟩⟩, ⟨⟨1, 0⟩, ⟨0, 0, 2⟩⟩], 1, "camera_to_target"⟩ = .ok r :=
    pnpFinish_returns _ _ [(⟨⟨0, 0⟩, ⟨1, 0, 2⟩⟩ : Corr2), ⟨⟨1, 0⟩, ⟨0, 0, 2⟩⟩] (by simp)
      (fun c => ⟨[pnpRot, pnpTrans], evalV2 (pnpCost2 ⟨1, 1, 0, 0⟩ c.inTarget c.inImage)⟩) (fun _ _ => rfl) rfl rfl
  exact ⟨_, [⟨⟨1, 0⟩, ⟨0, 0, 2⟩⟩, ⟨⟨0, 0⟩, ⟨1, 0, 2⟩⟩], r, .swap _ _ _, by simp, idCeres V3, idCeres_wf V3, h⟩

/-- One observation with two correspondences, and two observations with one each in the other order. -/
example (c t : Iso) (k l : Corr2) : (samples [⟨[k, l], c, t⟩]).Perm (samples [⟨[l], c, t⟩, ⟨[k], c, t⟩]) := .swap _ _ _

/-- Two images of a camera exchanged together with their wrist poses. -/
example (v w : Iso) (a b : List Corr2) : (wristSamples [v, w] [a, b]).Perm (wristSamples [w, v] [b, a]) := by
  simp only [wristSamples, List.zip_cons_cons, List.zip_nil_right, List.flatMap_cons, List.flatMap_nil, List.append_nil]
  exact List.perm_append_comm

end RCT
