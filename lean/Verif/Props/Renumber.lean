import Verif.Spec.Renumber
import Verif.Props.Order
import Verif.Props.Intrinsic
import Mathlib.Logic.Equiv.Basic

/-!
# C238 The numbering of cameras and images does not matter
-/

namespace RCT

open Spec

/-! ## Solvers for problems with other addresses -/

/-- The residual block with other addresses. -/
def ResBlock.rename {β : Type} (π : Nat → Nat) (b : ResBlock β) : ResBlock β := ⟨b.blocks.map π, b.eval⟩

theorem residuals_rename {β : Type} (π : Nat → Nat) (pb : List (ResBlock β)) (st : Nat → β) :
    residuals (pb.map (ResBlock.rename π)) st = residuals pb (fun a => st (π a)) := by
  unfold residuals
  rw [List.flatMap_map]
  refine List.flatMap_congr fun b _ => ?_
  unfold ResBlock.residual ResBlock.rename
  rw [List.map_map]
  rfl

theorem cost_rename {β : Type} (π : Nat → Nat) (pb : List (ResBlock β)) (st : Nat → β) :
    cost (pb.map (ResBlock.rename π)) st = cost pb (fun a => st (π a)) := by
  unfold cost; rw [residuals_rename]

theorem costPerObs_rename {β : Type} (π : Nat → Nat) (pb : List (ResBlock β)) (st : Nat → β) :
    costPerObs (pb.map (ResBlock.rename π)) st = costPerObs pb (fun a => st (π a)) := by
  unfold costPerObs; rw [residuals_rename, cost_rename]

theorem usedBlocks_rename {β : Type} (π : Equiv.Perm Nat) (pb : List (ResBlock β)) :
    usedBlocks (pb.map (ResBlock.rename π)) = (usedBlocks pb).map π := by
  unfold usedBlocks
  rw [← List.dedup_map_of_injective π.injective, List.flatMap_map, List.map_flatMap]
  rfl

open Classical in
/-- Solve `pb` instead of `pb'`, whose addresses are `π` of those of `pb`; its covariance is taken from `c`. -/
noncomputable def Ceres.renamed {β : Type} (s c : Ceres β) (π : Equiv.Perm Nat) (pb pb' : List (ResBlock β)) : Ceres β where
  solve := fun q st => if q = pb' then fun a => s.solve pb (fun a => st (π a)) (π.symm a) else s.solve q st
  converged := fun q st => if q = pb' then s.converged pb (fun a => st (π a)) else s.converged q st
  order := fun q => if q = pb' then (s.order pb).map π else s.order q
  covCompute := c.covCompute
  covMatrix := c.covMatrix

theorem Ceres.WF.renamed {β : Type} {s c : Ceres β} (hs : s.WF) (hc : c.WF) {π : Equiv.Perm Nat} {pb pb' : List (ResBlock β)}
    (h : (pb.map (ResBlock.rename π)).Perm pb') : (s.renamed c π pb pb').WF where
  frame := by
    intro q st a ha
    unfold Ceres.renamed
    by_cases e : q = pb'
    · simp only [if_pos e]
      have h2 : π.symm a ∉ usedBlocks pb := by
        intro hm
        refine ha ?_
        rw [e, ← (usedBlocks_perm h).mem_iff, usedBlocks_rename]
        exact List.mem_map.2 ⟨_, hm, by simp⟩
      rw [hs.frame pb _ _ h2, Equiv.apply_symm_apply]
    · simp only [if_neg e]
      exact hs.frame q st a ha
  descent := by
    intro q st
    unfold Ceres.renamed
    by_cases e : q = pb'
    · simp only [if_pos e]
      rw [e, ← cost_perm h, ← cost_perm h, cost_rename, cost_rename]
      simp only [Equiv.symm_apply_apply]
      exact hs.descent pb _
    · simp only [if_neg e]
      exact hs.descent q st
  order_perm := by
    intro q
    unfold Ceres.renamed
    by_cases e : q = pb'
    · simp only [if_pos e]
      rw [e]
      refine List.Perm.trans ?_ (usedBlocks_perm h)
      rw [usedBlocks_rename]
      exact (hs.order_perm pb).map _
    · simp only [if_neg e]
      exact hs.order_perm q
  compute_no_throw := fun q => hc.compute_no_throw q

theorem renamed_solve {β : Type} (s c : Ceres β) (π : Equiv.Perm Nat) (pb pb' : List (ResBlock β)) (st : Nat → β) :
    (s.renamed c π pb pb').solve pb' st = fun a => s.solve pb (fun a => st (π a)) (π.symm a) := by
  unfold Ceres.renamed; simp only [if_true]

theorem renamed_converged {β : Type} (s c : Ceres β) (π : Equiv.Perm Nat) (pb pb' : List (ResBlock β)) (st : Nat → β) :
    (s.renamed c π pb pb').converged pb' st = s.converged pb (fun a => st (π a)) := by
  unfold Ceres.renamed; simp only [if_true]

/-! ## Lists with another numbering -/

theorem Spec.Renumbered.bound {α : Type} {σ : Equiv.Perm Nat} {l l' : List α} (h : Renumbered σ l l') (i : Nat) :
    σ i < l.length ↔ i < l.length := by
  have h1 := h.2 i
  constructor
  · intro hi
    rw [List.getElem?_eq_getElem hi] at h1
    rw [← h.1]
    exact (List.getElem?_eq_some_iff.1 h1).1
  · intro hi
    rw [List.getElem?_eq_getElem (by rw [h.1]; exact hi)] at h1
    exact (List.getElem?_eq_some_iff.1 h1.symm).1

theorem Spec.Renumbered.getD {α : Type} {σ : Equiv.Perm Nat} {l l' : List α} (h : Renumbered σ l l') (i : Nat) (d : α) :
    l'.getD i d = l.getD (σ i) d := by
  rw [List.getD_eq_getElem?_getD, List.getD_eq_getElem?_getD, h.2]

theorem Spec.Renumbered.symm {α : Type} {σ : Equiv.Perm Nat} {l l' : List α} (h : Renumbered σ l l') : Renumbered σ.symm l' l :=
  ⟨h.1.symm, fun i => by rw [h.2, Equiv.apply_symm_apply]⟩

theorem Spec.Renumbered.map {α β : Type} {σ : Equiv.Perm Nat} {l l' : List α} (h : Renumbered σ l l') (f : α → β) :
    Renumbered σ (l.map f) (l'.map f) :=
  ⟨by rw [List.length_map, List.length_map, h.1], fun i => by rw [List.getElem?_map, List.getElem?_map, h.2]⟩

/-- A list of values that belong to the numbers `0, ..., n - 1`. -/
theorem Spec.Renumbered.range {α : Type} {σ : Equiv.Perm Nat} {n : Nat} (h : ∀ i, σ i < n ↔ i < n) (f g : Nat → α) (hg : ∀ i, g i = f (σ i)) :
    Renumbered σ ((List.range n).map f) ((List.range n).map g) := by
  refine ⟨by simp, fun i => ?_⟩
  by_cases hi : i < n
  · rw [List.getElem?_map, List.getElem?_map, List.getElem?_range hi, List.getElem?_range ((h i).2 hi), Option.map_some, Option.map_some, hg]
  · rw [List.getElem?_eq_none (by simpa using hi), List.getElem?_eq_none (by rw [List.length_map, List.length_range]; have := h i; omega)]

theorem range_perm {σ : Equiv.Perm Nat} {n : Nat} (h : ∀ i, σ i < n ↔ i < n) : ((List.range n).map σ).Perm (List.range n) := by
  rw [List.perm_ext_iff_of_nodup (List.nodup_range.map σ.injective) List.nodup_range]
  intro a
  simp only [List.mem_map, List.mem_range]
  constructor
  · rintro ⟨i, hi, rfl⟩; exact (h i).2 hi
  · intro ha
    exact ⟨σ.symm a, (h _).1 (by rw [Equiv.apply_symm_apply]; exact ha), Equiv.apply_symm_apply _ _⟩

theorem flatMap_renumbered {α : Type} {σ : Equiv.Perm Nat} {n : Nat} (h : ∀ i, σ i < n ↔ i < n) (f g : Nat → List α)
    (hg : ∀ i, i < n → (g i).Perm (f (σ i))) : ((List.range n).flatMap g).Perm ((List.range n).flatMap f) := by
  refine (List.Perm.flatMap_left _ fun i hi => hg i (List.mem_range.1 hi)).trans ?_
  rw [← List.flatMap_map σ f]
  exact (range_perm h).flatMap_right f

/-! ## Multi camera PnP -/

theorem mcPnp_renumber {p p' : McPnpProblem} {σ : Equiv.Perm Nat} (h1 : p.baseToCamera.length ≤ p.intr.length)
    (h2 : p.baseToCamera.length ≤ p.observations.length) (hi : Renumbered σ p.intr p'.intr)
    (hc : Renumbered σ p.baseToCamera p'.baseToCamera) (ho : Renumbered σ p.observations p'.observations)
    (hg : p'.guess = p.guess) {r : McPnpResult} (hr : Reaches (fun s => mcPnp s p) r) : Reaches (fun s => mcPnp s p') r := by
  obtain ⟨s, hs, hr⟩ := hr
  obtain ⟨pb, hb⟩ := mcPnp_built h1 h2
  obtain ⟨pb', hb'⟩ := mcPnp_built (p := p') (by rw [hc.1, hi.1]; exact h1) (by rw [hc.1, ho.1]; exact h2)
  have hperm : pb'.Perm pb := by
    rw [mcPnpBuild_eq hb, mcPnpBuild_eq hb']
    unfold oneImage
    rw [List.map_flatMap, List.map_flatMap, hc.1]
    refine flatMap_renumbered hc.bound _ _ fun c _ => ?_
    rw [List.map_map, List.map_map, ho.getD]
    refine .of_eq (List.map_congr_left fun k _ => ?_)
    simp only [Function.comp_apply, mcPnpBlock]
    rw [hi.getD, hc.getD]
  refine ⟨_, hs.through (instead_perm hperm.symm), ?_⟩
  have e := instead_self pb' pb
  beta_reduce at hr ⊢
  unfold mcPnp at hr ⊢
  rw [hb, Res.ok_bind] at hr
  rw [hb', Res.ok_bind, ← hr, hg]
  simp only [costPerObs_perm hperm]
  simp only [Ceres.through, e]

/-- Multi camera PnP: the cameras can be listed in any order. -/
theorem C238_multi_pnp (p p' : McPnpProblem) (σ : Equiv.Perm Nat) (h1 : p.baseToCamera.length ≤ p.intr.length)
    (h2 : p.baseToCamera.length ≤ p.observations.length) (hi : Renumbered σ p.intr p'.intr)
    (hc : Renumbered σ p.baseToCamera p'.baseToCamera) (ho : Renumbered σ p.observations p'.observations)
    (hg : p'.guess = p.guess) (r : McPnpResult) : Reaches (fun s => mcPnp s p) r ↔ Reaches (fun s => mcPnp s p') r :=
  ⟨mcPnp_renumber h1 h2 hi hc ho hg, mcPnp_renumber (by rw [hc.1, hi.1]; exact h1) (by rw [hc.1, ho.1]; exact h2) hi.symm hc.symm ho.symm hg.symm⟩

/-! ## One correction of all cameras -/

/-- Cameras and images can be listed in any order; the reported cameras come in the same order as the given ones. -/
theorem C238_wrist_only (p p' : WoProblem) (σ τ : Equiv.Perm Nat) (hp : WoSizes p) (hp' : WoSizes p') (hi : Renumbered σ p.intr p'.intr)
    (hc : Renumbered σ p.baseToCameraGuess p'.baseToCameraGuess) (hw : Renumbered τ p.wristPoses p'.wristPoses)
    (ho : ∀ c i, (p'.observations.getD c []).getD i [] = (p.observations.getD (σ c) []).getD (τ i) [])
    (ht : p'.wristToTargetGuess = p.wristToTargetGuess) (r : WoResult) (hr : Reaches (fun s => wristOnly s p) r) :
    ∃ r' : WoResult, Reaches (fun s => wristOnly s p') r' ∧ r'.converged = r.converged ∧ r'.initialCost = r.initialCost ∧
      r'.finalCost = r.finalCost ∧ r'.wristToTarget = r.wristToTarget ∧ Renumbered σ r.baseToCamera r'.baseToCamera := by
  obtain ⟨s, hs, hr⟩ := hr
  obtain ⟨pb, hb⟩ := hp.built
  obtain ⟨pb', hb'⟩ := hp'.built
  have hperm : pb'.Perm pb := by
    rw [woBuild_eq hb, woBuild_eq hb']
    unfold byCamera
    rw [List.map_flatMap, List.map_flatMap, hc.1]
    refine flatMap_renumbered hc.bound _ _ fun c _ => ?_
    rw [List.map_flatMap, List.map_flatMap, hw.1]
    refine flatMap_renumbered hw.bound _ _ fun i _ => ?_
    unfold featuresOf
    rw [List.map_map, List.map_map, ho]
    refine .of_eq (List.map_congr_left fun k _ => ?_)
    simp only [Function.comp_apply, woBlock]
    rw [hi.getD, hc.getD, hw.getD]
  have hinit : woInit p' = woInit p := by unfold woInit; rw [ht]
  have e := instead_self pb' pb
  beta_reduce at hr
  unfold wristOnly at hr
  rw [hb, Res.ok_bind] at hr
  cases hr
  have hr' : ∀ S : Ceres Pose6, wristOnly S p' = .ok ⟨S.converged pb' (woInit p'), costPerObs pb' (woInit p'),
      costPerObs pb' (S.solve pb' (woInit p')), poseCalToEigen (S.solve pb' (woInit p') woTgt),
      p'.baseToCameraGuess.map fun g => (poseCalToEigen (S.solve pb' (woInit p') woCorr)).inv * g⟩ := by
    intro S
    unfold wristOnly
    rw [hb', Res.ok_bind]
  refine ⟨_, ⟨_, hs.through (instead_perm hperm.symm), hr' _⟩, ?_⟩
  · simp only [hinit, Ceres.through, e, costPerObs_perm hperm, true_and]
    exact hc.map _

/-! ## Cameras without wrist poses -/

/-- The addresses of the second problem for those of the first. -/
def coRename (σ τ : Equiv.Perm Nat) : Equiv.Perm Nat where
  toFun := fun a => if a % 2 = 0 then 2 * τ.symm (a / 2) else 2 * σ.symm (a / 2) + 1
  invFun := fun a => if a % 2 = 0 then 2 * τ (a / 2) else 2 * σ (a / 2) + 1
  left_inv := fun a => by
    by_cases h : a % 2 = 0
    · simp only [h, if_true]
      rw [if_pos (by omega), show 2 * τ.symm (a / 2) / 2 = τ.symm (a / 2) by omega, Equiv.apply_symm_apply]
      omega
    · simp only [h, if_false]
      rw [if_neg (by omega), show (2 * σ.symm (a / 2) + 1) / 2 = σ.symm (a / 2) by omega, Equiv.apply_symm_apply]
      omega
  right_inv := fun a => by
    by_cases h : a % 2 = 0
    · simp only [h, if_true]
      rw [if_pos (by omega), show 2 * τ (a / 2) / 2 = τ (a / 2) by omega, Equiv.symm_apply_apply]
      omega
    · simp only [h, if_false]
      rw [if_neg (by omega), show (2 * σ (a / 2) + 1) / 2 = σ (a / 2) by omega, Equiv.symm_apply_apply]
      omega

theorem coRename_tgt (σ τ : Equiv.Perm Nat) (i : Nat) : coRename σ τ (coTgt (τ i)) = coTgt i := by
  show (if coTgt (τ i) % 2 = 0 then 2 * τ.symm (coTgt (τ i) / 2) else 2 * σ.symm (coTgt (τ i) / 2) + 1) = coTgt i
  unfold coTgt
  rw [if_pos (by omega), show 2 * τ i / 2 = τ i by omega, Equiv.symm_apply_apply]

theorem coRename_cam (σ τ : Equiv.Perm Nat) (c : Nat) : coRename σ τ (coCam (σ c)) = coCam c := by
  show (if coCam (σ c) % 2 = 0 then 2 * τ.symm (coCam (σ c) / 2) else 2 * σ.symm (coCam (σ c) / 2) + 1) = coCam c
  unfold coCam
  rw [if_neg (by omega), show (2 * σ c + 1) / 2 = σ c by omega, Equiv.symm_apply_apply]

theorem coInit_rename {p p' : CoProblem} {σ τ : Equiv.Perm Nat} (hc : Renumbered σ p.baseToCameraGuess p'.baseToCameraGuess)
    (ht : Renumbered τ p.baseToTargetGuess p'.baseToTargetGuess) : (fun a => coInit p' (coRename σ τ a)) = coInit p := by
  funext a
  show coInit p' (if a % 2 = 0 then 2 * τ.symm (a / 2) else 2 * σ.symm (a / 2) + 1) = coInit p a
  unfold coInit
  by_cases h : a % 2 = 0
  · simp only [h, if_true]
    rw [if_pos (by omega), show 2 * τ.symm (a / 2) / 2 = τ.symm (a / 2) by omega, ht.2, Equiv.apply_symm_apply]
  · simp only [h, if_false]
    rw [if_neg (by omega), show (2 * σ.symm (a / 2) + 1) / 2 = σ.symm (a / 2) by omega, hc.2, Equiv.apply_symm_apply, ht.1]

/-- Cameras (except a fixed first one) and images can be listed in any order; the reported poses come in the same order as the given
ones. -/
theorem C238_camera_only (p p' : CoProblem) (σ τ : Equiv.Perm Nat) (hp : CoSizes p) (hp' : CoSizes p') (hi : Renumbered σ p.intr p'.intr)
    (hc : Renumbered σ p.baseToCameraGuess p'.baseToCameraGuess) (ht : Renumbered τ p.baseToTargetGuess p'.baseToTargetGuess)
    (ho : ∀ c i, (p'.observations.getD c []).getD i [] = (p.observations.getD (σ c) []).getD (τ i) [])
    (hf : p'.fixFirst = p.fixFirst) (h0 : p.fixFirst = true → σ 0 = 0) (r : CoResult) (hr : Reaches (fun s => cameraOnly s p) r) :
    ∃ r' : CoResult, Reaches (fun s => cameraOnly s p') r' ∧ r'.converged = r.converged ∧ r'.initialCost = r.initialCost ∧
      r'.finalCost = r.finalCost ∧ Renumbered τ r.baseToTarget r'.baseToTarget ∧ Renumbered σ r.baseToCamera r'.baseToCamera := by
  obtain ⟨s, hs, hr⟩ := hr
  obtain ⟨pb, hb⟩ := hp.built
  obtain ⟨pb', hb'⟩ := hp'.built
  have hperm : pb'.Perm (pb.map (ResBlock.rename (coRename σ τ))) := by
    rw [coBuild_eq hb, coBuild_eq hb', List.map_map]
    unfold byImage
    rw [List.map_flatMap, List.map_flatMap, ht.1]
    refine flatMap_renumbered ht.bound _ _ fun i _ => ?_
    rw [List.map_flatMap, List.map_flatMap, hc.1]
    refine flatMap_renumbered hc.bound _ _ fun c _ => ?_
    unfold featuresOf
    rw [List.map_map, List.map_map, ho]
    refine .of_eq (List.map_congr_left fun k _ => ?_)
    simp only [Function.comp_apply, coBlock, hf]
    by_cases hq : p.fixFirst = true ∧ c = 0
    · rw [if_pos hq, if_pos ⟨hq.1, by rw [hq.2, h0 hq.1]⟩]
      unfold ResBlock.rename
      simp only [List.map_cons, List.map_nil, coRename_tgt]
      rw [hi.getD, hc.getD]
    · have hq' : ¬ (p.fixFirst = true ∧ σ c = 0) := by
        rintro ⟨ha, hb⟩
        exact hq ⟨ha, σ.injective (hb.trans (h0 ha).symm)⟩
      rw [if_neg hq, if_neg hq']
      unfold ResBlock.rename
      simp only [List.map_cons, List.map_nil, coRename_tgt, coRename_cam]
      rw [hi.getD]
  have hinit := coInit_rename hc ht
  beta_reduce at hr
  unfold cameraOnly at hr
  rw [hb, Res.ok_bind] at hr
  cases hr
  have hr' : ∀ S : Ceres Pose6, cameraOnly S p' = .ok ⟨S.converged pb' (coInit p'), costPerObs pb' (coInit p'),
      costPerObs pb' (S.solve pb' (coInit p')),
      (List.range p'.baseToTargetGuess.length).map (fun i => poseCalToEigen (S.solve pb' (coInit p') (coTgt i))),
      (List.range p'.baseToCameraGuess.length).map (fun c => (poseCalToEigen (S.solve pb' (coInit p') (coCam c))).inv)⟩ := by
    intro S
    unfold cameraOnly
    rw [hb', Res.ok_bind]
  refine ⟨_, ⟨_, hs.renamed hs hperm.symm, hr' _⟩, ?_⟩
  · simp only [renamed_solve, renamed_converged, hinit, costPerObs_perm hperm, costPerObs_rename, Equiv.symm_apply_apply, true_and]
    constructor
    · rw [ht.1]
      refine Renumbered.range ht.bound _ _ fun i => ?_
      rw [← coRename_tgt σ τ i, Equiv.symm_apply_apply]
    · rw [hc.1]
      refine Renumbered.range hc.bound _ _ fun c => ?_
      rw [← coRename_cam σ τ c, Equiv.symm_apply_apply]

/-! ## Cameras and the mounting of the target -/

/-- The addresses of the second problem for those of the first. -/
def msRename (σ : Equiv.Perm Nat) : Equiv.Perm Nat where
  toFun := fun a => if a = 0 then 0 else σ.symm (a - 1) + 1
  invFun := fun a => if a = 0 then 0 else σ (a - 1) + 1
  left_inv := fun a => by
    by_cases h : a = 0
    · simp [h]
    · simp only [h, if_false]
      rw [if_neg (by omega), Nat.add_sub_cancel, Equiv.apply_symm_apply]
      omega
  right_inv := fun a => by
    by_cases h : a = 0
    · simp [h]
    · simp only [h, if_false]
      rw [if_neg (by omega), Nat.add_sub_cancel, Equiv.symm_apply_apply]
      omega

theorem msRename_tgt (σ : Equiv.Perm Nat) : msRename σ msTgt = msTgt := rfl

theorem msRename_cam (σ : Equiv.Perm Nat) (c : Nat) : msRename σ (msCam (σ c)) = msCam c := by
  show (if msCam (σ c) = 0 then 0 else σ.symm (msCam (σ c) - 1) + 1) = msCam c
  unfold msCam
  rw [if_neg (by omega), Nat.add_sub_cancel, Equiv.symm_apply_apply]

theorem msInit_rename {p p' : MsProblem} {σ : Equiv.Perm Nat} (hc : Renumbered σ p.baseToCameraGuess p'.baseToCameraGuess)
    (ht : p'.wristToTargetGuess = p.wristToTargetGuess) : (fun a => msInit p' (msRename σ a)) = msInit p := by
  funext a
  show msInit p' (if a = 0 then 0 else σ.symm (a - 1) + 1) = msInit p a
  unfold msInit msTgt
  by_cases h : a = 0
  · simp only [h, if_true, ht]
  · simp only [h, if_false]
    rw [if_neg (by omega), Nat.add_sub_cancel, hc.2, Equiv.apply_symm_apply]

/-- Cameras can be listed in any order; the reported cameras come in the same order as the given ones. -/
theorem C238_static (p p' : MsProblem) (σ : Equiv.Perm Nat) (hp : MsSizes p) (hp' : MsSizes p') (hi : Renumbered σ p.intr p'.intr)
    (hc : Renumbered σ p.baseToCameraGuess p'.baseToCameraGuess) (hw : Renumbered σ p.wristPoses p'.wristPoses)
    (ho : Renumbered σ p.observations p'.observations)
    (ht : p'.wristToTargetGuess = p.wristToTargetGuess) (r : MsResult) (hr : Reaches (fun s => multiStatic s p) r) :
    ∃ r' : MsResult, Reaches (fun s => multiStatic s p') r' ∧ r'.converged = r.converged ∧ r'.initialCost = r.initialCost ∧
      r'.finalCost = r.finalCost ∧ r'.wristToTarget = r.wristToTarget ∧ Renumbered σ r.baseToCamera r'.baseToCamera := by
  obtain ⟨s, hs, hr⟩ := hr
  obtain ⟨pb, hb⟩ := C41_built p hp.wrist hp.obs hp.intr hp.images
  obtain ⟨pb', hb'⟩ := C41_built p' hp'.wrist hp'.obs hp'.intr hp'.images
  have hperm : pb'.Perm (pb.map (ResBlock.rename (msRename σ))) := by
    rw [msBuild_eq hb, msBuild_eq hb', List.map_map]
    unfold msFeatures byCamera
    rw [List.map_flatMap, List.map_flatMap, hc.1]
    refine flatMap_renumbered hc.bound _ _ fun c _ => ?_
    beta_reduce
    rw [hw.getD]
    refine .of_eq ?_
    rw [List.map_flatMap, List.map_flatMap]
    refine List.flatMap_congr fun i _ => ?_
    unfold featuresOf
    rw [List.map_map, List.map_map, ho.getD]
    refine List.map_congr_left fun k _ => ?_
    simp only [Function.comp_apply, msBlock]
    unfold ResBlock.rename
    simp only [List.map_cons, List.map_nil, msRename_tgt, msRename_cam]
    rw [hi.getD, hw.getD]
  have hinit := msInit_rename hc ht
  beta_reduce at hr
  unfold multiStatic at hr
  rw [hb, Res.ok_bind] at hr
  simp only [Res.bind_ok_iff] at hr
  obtain ⟨cov, hcov, hr⟩ := hr
  cases hr
  have hin := (C26_returns _ _ _ _ _ hcov).2.1
  obtain ⟨cov', hcov'⟩ : ∃ cov', computeCovariance (((s.renamed (idCeres Pose6) (msRename σ) pb pb')).covSolver pb'
      ((s.renamed (idCeres Pose6) (msRename σ) pb pb').solve pb' (msInit p')) 6)
      ((List.range p'.baseToCameraGuess.length).map msCam ++ [msTgt]) (msNames p') [] = .ok cov' := by
    refine computeCovariance_returns ?_ ?_ rfl rfl
    · rw [msNames_size]; simp
    · intro b hbm
      refine ⟨_, msNames_find p' b hbm, ?_⟩
      have hu : b ∈ usedBlocks pb' := by
        rw [(usedBlocks_perm hperm).mem_iff, usedBlocks_rename]
        have hu0 : ∀ b ∈ (List.range p.baseToCameraGuess.length).map msCam ++ [msTgt], b ∈ usedBlocks pb := by
          intro b hb0
          have := hin b hb0
          by_contra hn
          simp [Ceres.covSolver, hn] at this
        simp only [List.mem_append, List.mem_map, List.mem_range, List.mem_singleton] at hbm
        rcases hbm with ⟨c, hcc, rfl⟩ | rfl
        · refine List.mem_map.2 ⟨msCam (σ c), hu0 _ ?_, msRename_cam σ c⟩
          simp only [List.mem_append, List.mem_map, List.mem_range]
          exact Or.inl ⟨σ c, (hc.bound c).2 (by rw [← hc.1]; exact hcc), rfl⟩
        · exact List.mem_map.2 ⟨msTgt, hu0 _ (by simp), msRename_tgt σ⟩
      simp only [Ceres.covSolver, hu, if_true]
      rfl
  have hr' : multiStatic (s.renamed (idCeres Pose6) (msRename σ) pb pb') p' =
      .ok ⟨(s.renamed (idCeres Pose6) (msRename σ) pb pb').converged pb' (msInit p'), costPerObs pb' (msInit p'),
        costPerObs pb' ((s.renamed (idCeres Pose6) (msRename σ) pb pb').solve pb' (msInit p')),
        poseCalToEigen ((s.renamed (idCeres Pose6) (msRename σ) pb pb').solve pb' (msInit p') msTgt),
        (List.range p'.baseToCameraGuess.length).map
          (fun c => (poseCalToEigen ((s.renamed (idCeres Pose6) (msRename σ) pb pb').solve pb' (msInit p') (msCam c))).inv), cov'⟩ := by
    unfold multiStatic
    rw [hb', Res.ok_bind]
    simp only [hcov', Res.ok_bind]
  refine ⟨_, ⟨_, hs.renamed (idCeres_wf _) hperm.symm, hr'⟩, ?_⟩
  · simp only [renamed_solve, renamed_converged, hinit, costPerObs_perm hperm, costPerObs_rename, Equiv.symm_apply_apply, true_and]
    constructor
    · conv_lhs => rw [← msRename_tgt σ, Equiv.symm_apply_apply]
    · rw [hc.1]
      refine Renumbered.range hc.bound _ _ fun c => ?_
      rw [← msRename_cam σ c, Equiv.symm_apply_apply]

/-! ## Intrinsic calibration -/

theorem flatMap_filter_if {α β : Type} (q : α → Bool) (g : α → List β) (l : List α) :
    (l.filter q).flatMap g = l.flatMap fun a => if q a = true then g a else [] := by
  induction l with
  | nil => rfl
  | cons a l ih =>
    by_cases h : q a = true
    · rw [List.filter_cons_of_pos h, List.flatMap_cons, List.flatMap_cons, ih, if_pos h]
    · rw [List.filter_cons_of_neg h, List.flatMap_cons, ih, if_neg h, List.nil_append]

theorem mapList_get {α β : Type} {f : α → Res β} {l : List α} {r : List β} (h : Res.mapList f l = .ok r) {i : Nat} {a : α}
    (hi : l[i]? = some a) : ∃ b, r[i]? = some b ∧ f a = .ok b := by
  have hf := (Res.mapList_ok_iff _ _ _).1 h
  obtain ⟨h1, rfl⟩ := List.getElem?_eq_some_iff.1 hi
  have h2 : i < r.length := by rw [← hf.length_eq]; exact h1
  exact ⟨r[i], List.getElem?_eq_getElem h2, hf.get h1 h2⟩

theorem mapList_renumbered {α β : Type} {f : α → Res β} {l l' : List α} {r : List β} {τ : Equiv.Perm Nat} (h : Res.mapList f l = .ok r)
    (hl : Renumbered τ l l') : ∃ r', Res.mapList f l' = .ok r' ∧ Renumbered τ r r' := by
  obtain ⟨r', hr'⟩ : ∃ r', Res.mapList f l' = .ok r' := by
    refine Res.mapList_returns fun a ha => ?_
    obtain ⟨i, hi⟩ := List.mem_iff_getElem?.1 ha
    rw [hl.2] at hi
    obtain ⟨b, -, hb⟩ := mapList_get h hi
    exact ⟨b, hb⟩
  have e1 := Res.mapList_ok_length h
  have e2 := Res.mapList_ok_length hr'
  refine ⟨r', hr', by rw [e1, e2, hl.1], fun i => ?_⟩
  by_cases hi : i < l'.length
  · have h1 : l'[i]? = some l'[i] := List.getElem?_eq_getElem hi
    obtain ⟨b, hb, hb'⟩ := mapList_get hr' h1
    obtain ⟨c, hc, hc'⟩ := mapList_get h ((hl.2 i).symm.trans h1)
    rw [hb, hc]
    rw [hb'] at hc'
    cases hc'
    rfl
  · have h2 := hl.bound i
    rw [hl.1] at hi
    rw [List.getElem?_eq_none (by rw [e2, hl.1]; omega), List.getElem?_eq_none (by rw [e1]; omega)]

/-- Images can be listed in any order. -/
theorem C238_intrinsic (p p' : IntrinsicProblem) (τ : Equiv.Perm Nat) (ho : Renumbered τ p.observations p'.observations)
    (hg : p'.guess = p.guess) (s3 : Ceres V3) (r : IntrinsicResult) (hr : Reaches (fun s => intrinsic s3 s p) r) :
    ∃ r' : IntrinsicResult, Reaches (fun s => intrinsic s3 s p') r' ∧ r'.converged = r.converged ∧ r'.initialCost = r.initialCost ∧
      r'.finalCost = r.finalCost ∧ r'.intrinsics = r.intrinsics ∧ r'.distortions = r.distortions := by
  obtain ⟨s, hs, hr⟩ := hr
  beta_reduce at hr
  unfold intrinsic at hr
  simp only [Res.bind_ok_iff] at hr
  obtain ⟨poses, hp, cov, hcov, hr⟩ := hr
  cases hr
  obtain ⟨poses', hp', hpr⟩ : ∃ poses', intrPoses s3 p' = .ok poses' ∧ Renumbered τ poses poses' := by
    unfold intrPoses at hp ⊢
    rw [hg]
    exact mapList_renumbered hp ho
  have hlen : poses.length = p.observations.length := Res.mapList_ok_length hp
  obtain ⟨pb, hpb⟩ : ∃ pb, pb = intrBuild p poses := ⟨_, rfl⟩
  obtain ⟨pb', hpb'⟩ : ∃ pb', pb' = intrBuild p' poses' := ⟨_, rfl⟩
  have hperm : pb'.Perm (pb.map (ResBlock.rename (msRename τ))) := by
    rw [hpb, hpb']
    unfold intrBuild validIdx
    rw [List.map_flatMap, flatMap_filter_if, flatMap_filter_if, hpr.1]
    refine flatMap_renumbered hpr.bound _ _ fun i _ => ?_
    rw [hpr.getD]
    split
    · rw [List.map_map, ho.getD]
      refine .of_eq (List.map_congr_left fun k _ => ?_)
      simp only [Function.comp_apply, ResBlock.rename, List.map_cons, List.map_nil]
      rw [show poseBlk (τ i) = msCam (τ i) from rfl, msRename_cam, show intrBlk = msTgt from rfl, msRename_tgt]
      rfl
    · exact .refl _
  have hinit : (fun a => intrInit p' poses' (msRename τ a)) = intrInit p poses := by
    funext a
    show intrInit p' poses' (if a = 0 then 0 else τ.symm (a - 1) + 1) = intrInit p poses a
    unfold intrInit intrBlk
    by_cases h : a = 0
    · simp only [h, if_true, hg]
    · simp only [h, if_false]
      rw [if_neg (by omega), Nat.add_sub_cancel, hpr.getD, Equiv.apply_symm_apply]
  have hin := (C26_returns _ _ _ _ _ hcov).2.1
  rw [← hpb] at hin ⊢
  obtain ⟨S, hS⟩ : ∃ S, S = s.renamed (idCeres Mem) (msRename τ) pb pb' := ⟨_, rfl⟩
  obtain ⟨cov', hcov'⟩ : ∃ cov', computeCovariance (S.covSolverF pb' (S.solve pb' (intrInit p' poses')) intrSize)
      (intrBlk :: (List.range p'.observations.length).map poseBlk) (intrNames p') [] = .ok cov' := by
    refine computeCovariance_returns ?_ ?_ (by rw [hS]; rfl) (by rw [hS]; rfl)
    · rw [intrNames_size]; simp
    · intro b hbm
      obtain ⟨l, hl, hl2⟩ := intrNames_find p' b hbm
      refine ⟨l, hl, ?_⟩
      have hu : b ∈ usedBlocks pb' := by
        rw [(usedBlocks_perm hperm).mem_iff, usedBlocks_rename]
        have hu0 : ∀ b ∈ intrBlk :: (List.range p.observations.length).map poseBlk, b ∈ usedBlocks pb := by
          intro b hb0
          have := hin b hb0
          by_contra hn
          simp [Ceres.covSolverF, hn] at this
        simp only [List.mem_cons, List.mem_map, List.mem_range] at hbm
        rcases hbm with rfl | ⟨c, hcc, rfl⟩
        · exact List.mem_map.2 ⟨intrBlk, hu0 _ (by simp), msRename_tgt τ⟩
        · refine List.mem_map.2 ⟨poseBlk (τ c), hu0 _ ?_, msRename_cam τ c⟩
          simp only [List.mem_cons, List.mem_map, List.mem_range]
          exact Or.inr ⟨τ c, (ho.bound c).2 (by rw [← ho.1]; exact hcc), rfl⟩
      simp only [Ceres.covSolverF, hu, if_true, hl2]
  have hr' : intrinsic s3 S p' = .ok ⟨S.converged pb' (intrInit p' poses'), costPerObs pb' (intrInit p' poses'),
      costPerObs pb' (S.solve pb' (intrInit p' poses')),
      ⟨S.solve pb' (intrInit p' poses') intrBlk 0, S.solve pb' (intrInit p' poses') intrBlk 1,
        S.solve pb' (intrInit p' poses') intrBlk 2, S.solve pb' (intrInit p' poses') intrBlk 3⟩,
      [S.solve pb' (intrInit p' poses') intrBlk 4, S.solve pb' (intrInit p' poses') intrBlk 5, S.solve pb' (intrInit p' poses') intrBlk 6,
        S.solve pb' (intrInit p' poses') intrBlk 7, S.solve pb' (intrInit p' poses') intrBlk 8], [], cov'⟩ := by
    unfold intrinsic
    rw [hp', Res.ok_bind]
    simp only [← hpb', hcov', Res.ok_bind]
  refine ⟨_, ⟨S, hS ▸ hs.renamed (idCeres_wf _) hperm.symm, hr'⟩, ?_⟩
  have hz : (msRename τ).symm intrBlk = intrBlk := rfl
  simp only [hS, renamed_solve, renamed_converged, hinit, costPerObs_perm hperm, costPerObs_rename, Equiv.symm_apply_apply, hz, true_and]

/-- Two elements exchanged. -/
theorem renumbered_swap {α : Type} (a b : α) : Renumbered (Equiv.swap 0 1) [a, b] [b, a] := by
  refine ⟨rfl, fun i => ?_⟩
  match i with
  | 0 => rw [Equiv.swap_apply_left]; rfl
  | 1 => rw [Equiv.swap_apply_right]; rfl
  | i + 2 => rw [Equiv.swap_apply_of_ne_of_ne (by omega) (by omega)]; rfl

/-- Two cameras that saw different features of one target, listed in both orders, and a result that is reached. -/
example (f g : Intr) (k l : Corr2) (x y z : Iso) : ∃ p p' : CoProblem, CoSizes p ∧ CoSizes p' ∧ p.baseToCameraGuess = [x, y] ∧
    p'.baseToCameraGuess = [y, x] ∧ Renumbered (Equiv.swap 0 1) p.intr p'.intr ∧
    Renumbered (Equiv.swap 0 1) p.baseToCameraGuess p'.baseToCameraGuess ∧ Renumbered 1 p.baseToTargetGuess p'.baseToTargetGuess ∧
    (∀ c i, (p'.observations.getD c []).getD i [] = (p.observations.getD (Equiv.swap 0 1 c) []).getD i []) ∧
    p'.fixFirst = p.fixFirst ∧ p.fixFirst = false ∧ ∃ r, Reaches (fun s => cameraOnly s p) r := by
  have hsz : ∀ (f g : Intr) (k l : Corr2) (x y : Iso), CoSizes ⟨false, [f, g], [z], [[[k]], [[l]]], [x, y]⟩ := by
    intro f g k l x y
    refine ⟨rfl, fun c hc => ?_⟩
    match c, hc with
    | 0, _ => exact ⟨_, rfl, rfl⟩
    | 1, _ => exact ⟨_, rfl, rfl⟩
  refine ⟨⟨false, [f, g], [z], [[[k]], [[l]]], [x, y]⟩, ⟨false, [g, f], [z], [[[l]], [[k]]], [y, x]⟩, hsz _ _ _ _ _ _, hsz _ _ _ _ _ _,
    rfl, rfl, renumbered_swap f g, renumbered_swap x y, ⟨rfl, fun _ => rfl⟩, fun c i => ?_, rfl, rfl, ?_⟩
  · rw [(renumbered_swap [[k]] [[l]]).getD c []]
  · obtain ⟨r, hr⟩ := cameraOnly_returns (idCeres Pose6) _ (hsz f g k l x y).intr (hsz f g k l x y).images
    exact ⟨r, _, idCeres_wf _, hr⟩

end RCT
