import Verif.Spec.Links
import Verif.Props.IdentifyStatic
import Mathlib.Tactic.IntervalCases

/-!
# C202 Cameras linked by common images
-/

namespace RCT

open Spec

/-- Camera `c` sees four features of a plane, no three on one line, in image `i`, and not exactly from the side. -/
def SeesWell (p : CoProblem) (cams tgts : List Iso) (c i : Nat) : Prop :=
  c < p.baseToCameraGuess.length ∧ i < p.baseToTargetGuess.length ∧ SeesQuadrangle ((p.observations.getD c []).getD i []) ∧
    (p.intr.getD c ⟨0, 0, 0, 0⟩).fx ≠ 0 ∧ (p.intr.getD c ⟨0, 0, 0, 0⟩).fy ≠ 0 ∧ ((cams.getD c 1).inv * tgts.getD i 1).inv.t.z ≠ 0

theorem getD_rigid {l : List Iso} (hl : ∀ t ∈ l, RigidMotion t) (n : Nat) : (l.getD n 1).IsRigid := by
  rw [List.getD_eq_getElem?_getD]
  cases hn : l[n]? with
  | none => exact Iso.IsRigid.one
  | some t => exact (rigid_iff _).2 (hl t (List.mem_of_getElem? hn))

/-- Perfect images of a planar target: if a chain of cameras leads from one camera to another in which neighbours see the target
in a common image, and the final cost is zero, the reported pose of one camera relative to the other is the true one, and so are
the reported poses of the target in the images of all these cameras relative to them. -/
theorem C202_relative (s : Ceres Pose6) (hs : s.WF) (p : CoProblem) (res : CoResult) (h : cameraOnly s p = .ok res)
    (hfix : p.fixFirst = true → ∀ g, p.baseToCameraGuess[0]? = some g → Representable g)
    (hi : p.baseToTargetGuess ≠ []) (hr : ∀ c ∈ res.baseToCamera, RigidMotion c) (hrt : ∀ t ∈ res.baseToTarget, RigidMotion t)
    (cams tgts : List Iso) (hcams : ∀ c ∈ cams, RigidMotion c) (htgts : ∀ t ∈ tgts, RigidMotion t)
    (hdata : ∀ e ∈ staticErrors p.intr cams (fun _ i => tgts.getD i 1)
      (byImage p.observations p.baseToCameraGuess.length p.baseToTargetGuess.length), e = 0)
    (hz : ∀ f ∈ byImage p.observations p.baseToCameraGuess.length p.baseToTargetGuess.length,
      0 < staticDepth (cams.getD f.cam 1) (tgts.getD f.img 1) f.corr)
    (hz' : ∀ f ∈ byImage p.observations p.baseToCameraGuess.length p.baseToTargetGuess.length,
      0 < staticDepth (res.baseToCamera.getD f.cam 1) (res.baseToTarget.getD f.img 1) f.corr)
    (hcost : res.finalCost = some 0) (c c' : Nat) (hlink : Linked (SeesWell p cams tgts) c c') :
    (res.baseToCamera.getD c 1).inv * res.baseToCamera.getD c' 1 = (cams.getD c 1).inv * cams.getD c' 1 ∧
    ∀ i, SeesWell p cams tgts c' i →
      (res.baseToCamera.getD c 1).inv * res.baseToTarget.getD i 1 = (cams.getD c 1).inv * tgts.getD i 1 := by
  have one : ∀ x y i, SeesWell p cams tgts x i → SeesWell p cams tgts y i →
      (res.baseToCamera.getD x 1).inv * res.baseToCamera.getD y 1 = (cams.getD x 1).inv * cams.getD y 1 ∧
      (res.baseToCamera.getD x 1).inv * res.baseToTarget.getD i 1 = (cams.getD x 1).inv * tgts.getD i 1 := fun x y i hx hy =>
    C154_relative s hs p res h hfix hi hr hrt cams tgts hcams htgts hdata hz hz' x y i hx.2.1 hcost fun z hz => by
      simp only [List.mem_cons, List.not_mem_nil, or_false] at hz
      rcases hz with rfl | rfl
      · exact ⟨hx.1, hx.2.2⟩
      · exact ⟨hy.1, hy.2.2⟩
  have join : ∀ {A A' B B' C C' : Iso}, B.IsRigid → B'.IsRigid → A.inv * B = A'.inv * B' → B.inv * C = B'.inv * C' →
      A.inv * C = A'.inv * C' := fun rB rB' e1 e2 => by
    have := congrArg₂ (· * ·) e1 e2
    simpa only [Iso.mul_assoc, Iso.mul_inv_cancel_left rB, Iso.mul_inv_cancel_left rB'] using this
  have rel : (res.baseToCamera.getD c 1).inv * res.baseToCamera.getD c' 1 = (cams.getD c 1).inv * cams.getD c' 1 := by
    induction hlink with
    | refl => rw [Iso.inv_mul (getD_rigid hr c), Iso.inv_mul (getD_rigid hcams c)]
    | @tail y z _ hyz ih =>
      obtain ⟨i, hx, hy⟩ := hyz
      exact join (getD_rigid hr y) (getD_rigid hcams y) ih (one y z i hx hy).1
  exact ⟨rel, fun i hsee => join (getD_rigid hr c') (getD_rigid hcams c') rel (one c' c' i hsee hsee).2⟩

/-- With the first camera fixed at its true pose, every camera linked to it is reported at its true pose, and so is the target in
all images of these cameras. -/
theorem C202_fixed (s : Ceres Pose6) (hs : s.WF) (p : CoProblem) (res : CoResult) (h : cameraOnly s p = .ok res)
    (hf : p.fixFirst = true) (g : Iso) (hg : p.baseToCameraGuess[0]? = some g) (hrep : Representable g)
    (hi : p.baseToTargetGuess ≠ []) (hr : ∀ c ∈ res.baseToCamera, RigidMotion c) (hrt : ∀ t ∈ res.baseToTarget, RigidMotion t)
    (cams tgts : List Iso) (hcams : ∀ c ∈ cams, RigidMotion c) (htgts : ∀ t ∈ tgts, RigidMotion t) (hg' : cams[0]? = some g)
    (hdata : ∀ e ∈ staticErrors p.intr cams (fun _ i => tgts.getD i 1)
      (byImage p.observations p.baseToCameraGuess.length p.baseToTargetGuess.length), e = 0)
    (hz : ∀ f ∈ byImage p.observations p.baseToCameraGuess.length p.baseToTargetGuess.length,
      0 < staticDepth (cams.getD f.cam 1) (tgts.getD f.img 1) f.corr)
    (hz' : ∀ f ∈ byImage p.observations p.baseToCameraGuess.length p.baseToTargetGuess.length,
      0 < staticDepth (res.baseToCamera.getD f.cam 1) (res.baseToTarget.getD f.img 1) f.corr)
    (hcost : res.finalCost = some 0) (c : Nat) (hlink : Linked (SeesWell p cams tgts) 0 c) :
    res.baseToCamera.getD c 1 = cams.getD c 1 ∧
    ∀ i, SeesWell p cams tgts c i → res.baseToTarget.getD i 1 = tgts.getD i 1 := by
  obtain ⟨h1, h2⟩ := C202_relative s hs p res h (fun _ g' hg2 => by rw [hg] at hg2; cases hg2; exact hrep) hi hr hrt cams tgts
    hcams htgts hdata hz hz' hcost 0 c hlink
  have h0 := C39_partial s hs p res h hf hi g hg hrep
  rw [getD_of_some h0, getD_of_some hg'] at h1
  refine ⟨?_, fun i hsee => ?_⟩
  · have := congrArg (g * ·) h1
    simpa only [Iso.mul_inv_cancel_left hrep.rigid] using this
  · have := h2 i hsee
    rw [getD_of_some h0, getD_of_some hg'] at this
    have := congrArg (g * ·) this
    simpa only [Iso.mul_inv_cancel_left hrep.rigid] using this

/-- The link is symmetric. -/
theorem Spec.Linked.symm {sees : Nat → Nat → Prop} {c c' : Nat} (h : Linked sees c c') : Linked sees c' c := by
  induction h with
  | refl => exact .refl
  | tail _ hyz ih =>
    obtain ⟨i, h1, h2⟩ := hyz
    exact .head ⟨i, h2, h1⟩ ih

theorem Spec.Linked.mono {sees sees' : Nat → Nat → Prop} (hs : ∀ c i, sees c i → sees' c i) {c c' : Nat} (h : Linked sees c c') :
    Linked sees' c c' := by
  induction h with
  | refl => exact .refl
  | tail _ hyz ih =>
    obtain ⟨i, h1, h2⟩ := hyz
    exact .tail ih ⟨i, hs _ _ h1, hs _ _ h2⟩

open Classical in
/-- Cameras that are linked to camera `c` can be shifted together, with the target poses in their images, without any effect on
the cost, unless one of them is the fixed first camera: for every result and every shift there is a run with the same cost
that reports these cameras and target poses shifted and all others where they were. The target is at the same place in every
camera that sees it. -/
theorem C202_open (s : Ceres Pose6) (hs : s.WF) (p : CoProblem) (res : CoResult) (h : cameraOnly s p = .ok res)
    (hfix : p.fixFirst = true → ∀ g, p.baseToCameraGuess[0]? = some g → Representable g)
    (hr : ∀ c ∈ res.baseToCamera, RigidMotion c)
    (hz : NoZeroDepth res.baseToCamera (fun _ i => res.baseToTarget.getD i 1)
      (byImage p.observations p.baseToCameraGuess.length p.baseToTargetGuess.length)) (c : Nat)
    (hc : ∃ i, SeesSome p.observations p.baseToCameraGuess.length p.baseToTargetGuess.length c i)
    (h0 : p.fixFirst = true → ¬ Linked (SeesSome p.observations p.baseToCameraGuess.length p.baseToTargetGuess.length) c 0)
    (a : V3) (k : ℝ) :
    ∃ (s' : Ceres Pose6) (res' : CoResult), s'.WF ∧ cameraOnly s' p = .ok res' ∧ res'.finalCost = res.finalCost ∧
      (∀ x < p.baseToCameraGuess.length, res'.baseToCamera.getD x 1 =
        if Linked (SeesSome p.observations p.baseToCameraGuess.length p.baseToTargetGuess.length) c x
          then movedBy k a (res.baseToCamera.getD x 1) else res.baseToCamera.getD x 1) ∧
      (∀ i < p.baseToTargetGuess.length, res'.baseToTarget.getD i 1 =
        if ∃ x, Linked (SeesSome p.observations p.baseToCameraGuess.length p.baseToTargetGuess.length) c x ∧
            SeesSome p.observations p.baseToCameraGuess.length p.baseToTargetGuess.length x i
          then movedBy k a (res.baseToTarget.getD i 1) else res.baseToTarget.getD i 1) ∧
      ∀ x i, SeesSome p.observations p.baseToCameraGuess.length p.baseToTargetGuess.length x i →
        (res'.baseToCamera.getD x 1).inv * res'.baseToTarget.getD i 1 = (res.baseToCamera.getD x 1).inv * res.baseToTarget.getD i 1 := by
  obtain ⟨S, hS⟩ : ∃ S, S = SeesSome p.observations p.baseToCameraGuess.length p.baseToTargetGuess.length := ⟨_, rfl⟩
  rw [← hS] at h0 hc ⊢
  have hi : p.baseToTargetGuess ≠ [] := by
    obtain ⟨i, hi⟩ := hc
    rw [hS] at hi
    exact List.ne_nil_of_length_pos (by have := hi.2.1; omega)
  have h39 : p.fixFirst = true → ∀ g, p.baseToCameraGuess[0]? = some g → Representable g ∧ res.baseToCamera[0]? = some g :=
    fun hf g hg => ⟨hfix hf g hg, C39_partial s hs p res h hf hi g hg (hfix hf g hg)⟩
  unfold cameraOnly at h
  rw [Res.bind_ok_iff] at h
  obtain ⟨pb, hb, h⟩ := h
  obtain ⟨st, hst⟩ : ∃ st, st = s.solve pb (coInit p) := ⟨_, rfl⟩
  rw [← hst] at h
  cases h
  simp only at hr hz h39 ⊢
  have rC : ∀ c, c < p.baseToCameraGuess.length → (poseCalToEigen (st (coCam c))).IsRigid := fun c hc =>
    Iso.IsRigid.of_inv ((rigid_iff _).2 (hr _ (List.mem_map.2 ⟨c, List.mem_range.2 hc, rfl⟩)))
  -- the cameras and images that move
  obtain ⟨P, hP⟩ : ∃ P : Nat → Prop, P = Linked S c := ⟨_, rfl⟩
  obtain ⟨Q, hQ⟩ : ∃ Q : Nat → Prop, Q = fun i => ∃ x, P x ∧ S x i := ⟨_, rfl⟩
  have hPQ : ∀ x i, S x i → (P x ↔ Q i) := by
    intro x i hs1
    rw [hQ]
    constructor
    · intro h1; exact ⟨x, h1, hs1⟩
    · rintro ⟨y, h1, h2⟩
      rw [hP] at h1 ⊢
      exact h1.tail ⟨i, h2, hs1⟩
  have hPs : ∀ x, P x → ∃ i, S x i := by
    intro x hx
    rw [hP] at hx
    rcases Relation.ReflTransGen.cases_tail hx with rfl | ⟨y, -, i, -, h2⟩
    · exact hc
    · exact ⟨i, h2⟩
  have hused : ∀ c' i : Nat, P c' → S c' i → coCam c' ∈ usedBlocks pb ∧ coTgt i ∈ usedBlocks pb := by
    intro c' i hp hsee
    rw [hS] at hsee
    obtain ⟨hc', hi, hne⟩ := hsee
    obtain ⟨kc, hk⟩ := List.exists_mem_of_ne_nil _ hne
    obtain ⟨b, hb1, intr, -, ⟨hfx, hc0, -⟩ | ⟨-, rfl⟩⟩ := Forall₂.mem_left (coBuild_blocks hb) (byImage_mem hc' hi hk)
    · rw [hP] at hp
      rw [show c' = 0 from hc0] at hp
      exact absurd hp (h0 hfx)
    · exact ⟨mem_usedBlocks.2 ⟨_, hb1, by simp⟩, mem_usedBlocks.2 ⟨_, hb1, by simp⟩⟩
  obtain ⟨st', hst'⟩ : ∃ st' : Nat → Pose6, st' = fun b =>
    if b % 2 = 0 then if Q (b / 2) then (st b).withTrans ((poseCalToEigen (st b)).t + V3.smul k a) else st b
    else if P (b / 2) then (st b).movedCamera k a else st b := ⟨_, rfl⟩
  have hT : ∀ i, poseCalToEigen (st' (coTgt i)) =
      if Q i then movedBy k a (poseCalToEigen (st (coTgt i))) else poseCalToEigen (st (coTgt i)) := by
    intro i
    have e1 : coTgt i % 2 = 0 := by simp [coTgt]
    have e2 : coTgt i / 2 = i := by simp [coTgt]
    rw [hst']
    simp only [e1, e2, if_true]
    split
    · rw [poseCalToEigen_withTrans]
      rfl
    · rfl
  have hC : ∀ c, c < p.baseToCameraGuess.length → (poseCalToEigen (st' (coCam c))).inv =
      if P c then movedBy k a (poseCalToEigen (st (coCam c))).inv else (poseCalToEigen (st (coCam c))).inv := by
    intro c hc
    have e1 : ¬ coCam c % 2 = 0 := by simp only [coCam]; omega
    have e2 : coCam c / 2 = c := by simp only [coCam]; omega
    rw [hst']
    simp only [if_neg e1, e2]
    split
    · rw [← movedCamera_eq k a _ (rC c hc)]
    · rfl
  have hcamD : ∀ (st : Nat → Pose6) (c : Nat), c < p.baseToCameraGuess.length →
      ((List.range p.baseToCameraGuess.length).map fun c => (poseCalToEigen (st (coCam c))).inv).getD c 1 =
        (poseCalToEigen (st (coCam c))).inv := fun st c hc => by
    rw [List.getD_eq_getElem?_getD, List.getElem?_map, List.getElem?_range hc]; rfl
  have htgtD : ∀ (st : Nat → Pose6) (i : Nat), i < p.baseToTargetGuess.length →
      ((List.range p.baseToTargetGuess.length).map fun i => poseCalToEigen (st (coTgt i))).getD i 1 =
        poseCalToEigen (st (coTgt i)) := fun st i hi => by
    rw [List.getD_eq_getElem?_getD, List.getElem?_map, List.getElem?_range hi]; rfl
  have hsame : ∀ x i, S x i →
      (((List.range p.baseToCameraGuess.length).map fun c => (poseCalToEigen (st' (coCam c))).inv).getD x 1).inv *
        ((List.range p.baseToTargetGuess.length).map fun i => poseCalToEigen (st' (coTgt i))).getD i 1 =
      (((List.range p.baseToCameraGuess.length).map fun c => (poseCalToEigen (st (coCam c))).inv).getD x 1).inv *
        ((List.range p.baseToTargetGuess.length).map fun i => poseCalToEigen (st (coTgt i))).getD i 1 := by
    intro x i hsee
    have hpq := hPQ x i hsee
    rw [hS] at hsee
    obtain ⟨hc, hi, -⟩ := hsee
    rw [hcamD st' _ hc, hcamD st _ hc, htgtD st' _ hi, htgtD st _ hi, hC x hc, hT i]
    by_cases hp : P x
    · rw [if_pos hp, if_pos (hpq.1 hp)]
      rw [movedBy_eq k a (poseCalToEigen _).inv, movedBy_eq k a (poseCalToEigen _), Iso.mul_inv_rev (movedBy_rigid .one k a),
        Iso.mul_assoc, Iso.inv_mul_cancel_left (movedBy_rigid .one k a)]
    · rw [if_neg hp, if_neg fun hq => hp (hpq.2 hq)]
  have hres : residuals pb st' = residuals pb st := by
    rw [coBuild_residuals hb st ((List.range p.baseToCameraGuess.length).map fun c => (poseCalToEigen (st (coCam c))).inv)
      ((List.range p.baseToTargetGuess.length).map fun i => poseCalToEigen (st (coTgt i))) hr
      (fun c hc => by simp [hc]) (fun c hc => by simp [hc]) h39 hz]
    have hz2 : ∀ f ∈ byImage p.observations p.baseToCameraGuess.length p.baseToTargetGuess.length,
        (((List.range p.baseToCameraGuess.length).map fun c => (poseCalToEigen (st' (coCam c))).inv).getD f.cam 1).inv *
          ((List.range p.baseToTargetGuess.length).map fun i => poseCalToEigen (st' (coTgt i))).getD f.img 1 =
        (((List.range p.baseToCameraGuess.length).map fun c => (poseCalToEigen (st (coCam c))).inv).getD f.cam 1).inv *
          ((List.range p.baseToTargetGuess.length).map fun i => poseCalToEigen (st (coTgt i))).getD f.img 1 := by
      intro f hf
      refine hsame _ _ ?_
      simp only [byImage, featuresOf, List.mem_flatMap, List.mem_map, List.mem_range] at hf
      obtain ⟨i, hi, c', hc', k, hk, rfl⟩ := hf
      rw [hS]
      exact ⟨hc', hi, List.ne_nil_of_mem hk⟩
    rw [coBuild_residuals hb st' ((List.range p.baseToCameraGuess.length).map fun c => (poseCalToEigen (st' (coCam c))).inv)
      ((List.range p.baseToTargetGuess.length).map fun i => poseCalToEigen (st' (coTgt i))) ?_
      (fun c hc => by simp [hc]) (fun c hc => by simp [hc]) ?_ ?_]
    · unfold staticErrors
      refine flatMap_congr' fun f hf => ?_
      unfold staticError
      rw [hz2 f hf]
    · intro c hc
      obtain ⟨x, hx, rfl⟩ := List.mem_map.1 hc
      have hx' := List.mem_range.1 hx
      rw [hC x hx']
      split
      · exact (rigid_iff _).1 (movedBy_rigid (rC x hx').inv k a)
      · exact (rigid_iff _).1 (rC x hx').inv
    · intro hf g hg
      obtain ⟨r1, r2⟩ := h39 hf g hg
      refine ⟨r1, ?_⟩
      have hlen : 0 < p.baseToCameraGuess.length := by
        by_contra hn
        rw [List.getElem?_eq_none (by omega)] at hg
        cases hg
      rw [List.getElem?_map, List.getElem?_range hlen] at r2 ⊢
      simp only [Option.map_some] at r2 ⊢
      rw [hC 0 hlen, if_neg (by rw [hP]; exact h0 hf)]
      exact r2
    · intro f hf
      have := hz f hf
      unfold staticDepth at this ⊢
      rwa [hz2 f hf]
  obtain ⟨hcost, hper⟩ := costPerObs_congr hres
  obtain ⟨s', res', h1, h2, h3, h4, h5⟩ := cameraOnly_other hs hb (st' := st') (fun b hb' => by
      have : st' b = st b := by
        rw [hst']
        simp only
        split
        · rename_i he
          rw [if_neg]
          intro hq
          rw [hQ] at hq
          obtain ⟨x, hx1, hx2⟩ := hq
          apply hb'
          have := (hused x _ hx1 hx2).2
          rwa [show coTgt (b / 2) = b by simp only [coTgt]; omega] at this
        · rename_i he
          rw [if_neg]
          intro hp
          obtain ⟨i, hi⟩ := hPs _ hp
          apply hb'
          have := (hused _ i hp hi).1
          rwa [show coCam (b / 2) = b by simp only [coCam]; omega] at this
      rw [this, hst]
      exact hs.frame pb _ b hb')
    (by rw [hcost, hst]; exact hs.descent pb _)
  refine ⟨s', res', h1, h2, h3.trans hper, fun x hx => ?_, fun i hi => ?_, fun x i hsee => ?_⟩
  · rw [h5, hcamD st' x hx, hcamD st x hx, hC x hx, hP]
  · rw [h4, htgtD st' i hi, htgtD st i hi, hT i, hQ, hP]
  · rw [h4, h5]
    exact hsame x i hsee

theorem cameraOnly_lengths {s : Ceres Pose6} {p : CoProblem} {res : CoResult} (h : cameraOnly s p = .ok res) :
    res.baseToCamera.length = p.baseToCameraGuess.length ∧ res.baseToTarget.length = p.baseToTargetGuess.length := by
  unfold cameraOnly at h
  rw [Res.bind_ok_iff] at h
  obtain ⟨pb, -, h⟩ := h
  cases h
  simp

theorem movedBy_ne {k : ℝ} {a : V3} (hk : k ≠ 0) (ha : a ≠ 0) (T : Iso) : movedBy k a T ≠ T := by
  intro h
  have h1 : T.t + V3.smul k a = T.t := congrArg Iso.t h
  have hx := congrArg V3.x h1
  have hy := congrArg V3.y h1
  have hz := congrArg V3.z h1
  simp [V3.smul, hk] at hx hy hz
  exact ha (V3.ext hx hy hz)

open Classical in
/-- What a zero final cost says about the cameras: the reported pose of a camera relative to another is the true one in all runs
with final cost zero exactly if a chain of cameras leads from one to the other in which neighbours see the target in a common
image. -/
theorem C202_iff (s : Ceres Pose6) (hs : s.WF) (p : CoProblem) (res : CoResult) (h : cameraOnly s p = .ok res)
    (hfix : p.fixFirst = true → ∀ g, p.baseToCameraGuess[0]? = some g → Representable g)
    (hr : ∀ c ∈ res.baseToCamera, RigidMotion c) (hrt : ∀ t ∈ res.baseToTarget, RigidMotion t)
    (cams tgts : List Iso) (hcams : ∀ c ∈ cams, RigidMotion c) (htgts : ∀ t ∈ tgts, RigidMotion t)
    (hdata : ∀ e ∈ staticErrors p.intr cams (fun _ i => tgts.getD i 1)
      (byImage p.observations p.baseToCameraGuess.length p.baseToTargetGuess.length), e = 0)
    (hz : ∀ f ∈ byImage p.observations p.baseToCameraGuess.length p.baseToTargetGuess.length,
      0 < staticDepth (cams.getD f.cam 1) (tgts.getD f.img 1) f.corr)
    (hz' : ∀ f ∈ byImage p.observations p.baseToCameraGuess.length p.baseToTargetGuess.length,
      0 < staticDepth (res.baseToCamera.getD f.cam 1) (res.baseToTarget.getD f.img 1) f.corr)
    (hcost : res.finalCost = some 0)
    (hwell : ∀ x i, SeesSome p.observations p.baseToCameraGuess.length p.baseToTargetGuess.length x i → SeesWell p cams tgts x i)
    (c c' : Nat) (hc : ∃ i, SeesSome p.observations p.baseToCameraGuess.length p.baseToTargetGuess.length c i)
    (hc' : ∃ i, SeesSome p.observations p.baseToCameraGuess.length p.baseToTargetGuess.length c' i) :
    (∀ (s' : Ceres Pose6) (res' : CoResult), s'.WF → cameraOnly s' p = .ok res' → (∀ c ∈ res'.baseToCamera, RigidMotion c) →
      (∀ t ∈ res'.baseToTarget, RigidMotion t) →
      (∀ f ∈ byImage p.observations p.baseToCameraGuess.length p.baseToTargetGuess.length,
        0 < staticDepth (res'.baseToCamera.getD f.cam 1) (res'.baseToTarget.getD f.img 1) f.corr) → res'.finalCost = some 0 →
      (res'.baseToCamera.getD c 1).inv * res'.baseToCamera.getD c' 1 = (cams.getD c 1).inv * cams.getD c' 1) ↔
    Linked (SeesSome p.observations p.baseToCameraGuess.length p.baseToTargetGuess.length) c c' := by
  obtain ⟨S, hS⟩ : ∃ S, S = SeesSome p.observations p.baseToCameraGuess.length p.baseToTargetGuess.length := ⟨_, rfl⟩
  rw [← hS] at hwell hc hc' ⊢
  have hi : p.baseToTargetGuess ≠ [] := by
    obtain ⟨i, hi⟩ := hc
    rw [hS] at hi
    exact List.ne_nil_of_length_pos (by have := hi.2.1; omega)
  constructor
  swap
  · intro hl s' res' hs' h' hr' hrt' hz'' hcost'
    exact (C202_relative s' hs' p res' h' hfix hi hr' hrt' cams tgts hcams htgts hdata hz hz'' hcost' c c'
      (hl.mono hwell)).1
  · intro hall
    by_contra hl
    have hlt : ∀ {x}, (∃ i, S x i) → x < p.baseToCameraGuess.length := fun ⟨i, h⟩ => by rw [hS] at h; exact h.1
    have here := hall s res hs h hr hrt hz' hcost
    -- one of the two cameras is not linked to the fixed one
    have move : ∀ x, (∃ i, S x i) → (p.fixFirst = true → ¬ Linked S x 0) → ∃ (C : Nat → Iso),
        (∀ y < p.baseToCameraGuess.length, (Linked S x y → C y = movedBy 1 ⟨1, 0, 0⟩ (res.baseToCamera.getD y 1)) ∧
          (¬ Linked S x y → C y = res.baseToCamera.getD y 1)) ∧
        (C c).inv * C c' = (cams.getD c 1).inv * cams.getD c' 1 := by
      intro x hx h0
      obtain ⟨s', res', g1, g2, g3, g4, g5, g6⟩ := C202_open s hs p res h hfix hr (fun f hf => (hz' f hf).ne') x (by rw [← hS]; exact hx)
        (by rw [← hS]; exact h0) ⟨1, 0, 0⟩ 1
      rw [← hS] at g4 g5 g6
      obtain ⟨l1, l2⟩ := cameraOnly_lengths g2
      have rig : ∀ (l l' : List Iso) (n : Nat) (q : Nat → Prop) [DecidablePred q], l'.length = n → (∀ t ∈ l, RigidMotion t) →
          (∀ j < n, l'.getD j 1 = if q j then movedBy 1 ⟨1, 0, 0⟩ (l.getD j 1) else l.getD j 1) → ∀ t ∈ l', RigidMotion t := by
        intro l l' n q _ hn hl hq t ht
        obtain ⟨j, hj, rfl⟩ := List.mem_iff_getElem.1 ht
        have := hq j (hn ▸ hj)
        rw [getD_of_some (List.getElem?_eq_getElem hj)] at this
        rw [this, ← rigid_iff]
        split
        · exact movedBy_rigid (getD_rigid hl j) _ _
        · exact getD_rigid hl j
      refine ⟨fun y => res'.baseToCamera.getD y 1, fun y hy => ⟨fun hl => (g4 y hy).trans (if_pos hl), fun hl => (g4 y hy).trans (if_neg hl)⟩,
        hall s' res' g1 g2 (rig _ _ _ (Linked S x) l1 hr g4)
        (rig _ _ _ (fun i => ∃ y, Linked S x y ∧ S y i) l2 hrt g5) (fun f hf => ?_) (g3.trans hcost)⟩
      have := hz' f hf
      unfold staticDepth at this ⊢
      rw [g6]
      · exact this
      · simp only [byImage, featuresOf, List.mem_flatMap, List.mem_map, List.mem_range] at hf
        obtain ⟨i, hi, c', hc', k, hk, rfl⟩ := hf
        rw [hS]
        exact ⟨hc', hi, List.ne_nil_of_mem hk⟩
    have ne : (⟨1, 0, 0⟩ : V3) ≠ 0 := fun h => by simpa using congrArg V3.x h
    by_cases h0 : p.fixFirst = true ∧ Linked S c 0
    · obtain ⟨C, h1, h2⟩ := move c' hc' fun _ h3 => hl (h0.2.trans h3.symm)
      rw [(h1 c (hlt hc)).2 fun h3 => hl h3.symm, (h1 c' (hlt hc')).1 .refl, ← here] at h2
      have := congrArg (res.baseToCamera.getD c 1 * ·) h2
      simp only [Iso.mul_inv_cancel_left (getD_rigid hr c)] at this
      exact movedBy_ne one_ne_zero ne _ this
    · obtain ⟨C, h1, h2⟩ := move c hc fun h3 h4 => h0 ⟨h3, h4⟩
      rw [(h1 c (hlt hc)).1 .refl, (h1 c' (hlt hc')).2 hl, ← here] at h2
      have := congrArg (· * (res.baseToCamera.getD c' 1).inv) h2
      simp only [Iso.mul_assoc, Iso.mul_inv (getD_rigid hr c'), Iso.mul_one] at this
      have := congrArg Iso.inv this
      rw [Iso.inv_inv (getD_rigid hr c), Iso.inv_inv (movedBy_rigid (getD_rigid hr c) _ _)] at this
      exact movedBy_ne one_ne_zero ne _ this

/-! ### Concrete cases -/

/-- Three cameras and two target poses on the z axis; `vis c i` says whether camera `c` sees the target in image `i`. -/
noncomputable def lineImage (vis : Nat → Nat → Bool) (c i : Nat) : List Corr2 :=
  bif vis c i then squareImage ⟨1, 1, 0, 0⟩ (shiftBy 0 0 (4 + i - c)) else []
noncomputable def lineCams : List Iso := [shiftBy 0 0 0, shiftBy 0 0 1, shiftBy 0 0 2]
noncomputable def lineTgts : List Iso := [shiftBy 0 0 4, shiftBy 0 0 5]
noncomputable def lineProblem (fix : Bool) (vis : Nat → Nat → Bool) : CoProblem :=
  ⟨fix, [⟨1, 1, 0, 0⟩, ⟨1, 1, 0, 0⟩, ⟨1, 1, 0, 0⟩], lineTgts, [[lineImage vis 0 0, lineImage vis 0 1],
    [lineImage vis 1 0, lineImage vis 1 1], [lineImage vis 2 0, lineImage vis 2 1]], lineCams⟩

theorem line_cam {c : Nat} (hc : c < 3) : lineCams.getD c 1 = shiftBy 0 0 c ∧
    ∀ fix vis, (lineProblem fix vis).intr.getD c ⟨0, 0, 0, 0⟩ = ⟨1, 1, 0, 0⟩ := by
  unfold lineCams lineProblem
  interval_cases c <;> simp

theorem line_tgt {i : Nat} (hi : i < 2) : lineTgts.getD i 1 = shiftBy 0 0 (4 + i) := by
  unfold lineTgts
  interval_cases i <;> norm_num

theorem line_obs (fix : Bool) (vis : Nat → Nat → Bool) {c i : Nat} (hc : c < 3) (hi : i < 2) :
    ((lineProblem fix vis).observations.getD c []).getD i [] = lineImage vis c i := by
  unfold lineProblem
  interval_cases c <;> interval_cases i <;> rfl

theorem line_pose (c i : ℝ) : (shiftBy 0 0 c).inv * shiftBy 0 0 (4 + i) = shiftBy 0 0 (4 + i - c) := by
  ext <;> simp [shiftBy, Iso.inv, M3.tr, M3.mulVec, Iso.mul_def, M3.mul_def]
  ring

theorem line_feature {fix : Bool} {vis : Nat → Nat → Bool} {f : Feature}
    (hf : f ∈ byImage (lineProblem fix vis).observations (lineProblem fix vis).baseToCameraGuess.length
      (lineProblem fix vis).baseToTargetGuess.length) : f.cam < 3 ∧ f.img < 2 ∧ vis f.cam f.img = true ∧
      f.corr ∈ squareImage ⟨1, 1, 0, 0⟩ (shiftBy 0 0 (4 + f.img - f.cam)) := by
  simp only [byImage, featuresOf, List.mem_flatMap, List.mem_map, List.mem_range] at hf
  obtain ⟨i, hi, c, hc, k, hk, rfl⟩ := hf
  rw [line_obs fix vis hc hi] at hk
  unfold lineImage at hk
  cases hv : vis c i with
  | false => rw [hv] at hk; cases hk
  | true => rw [hv] at hk; exact ⟨hc, hi, rfl, hk⟩

theorem line_depth {fix : Bool} {vis : Nat → Nat → Bool} {f : Feature}
    (hf : f ∈ byImage (lineProblem fix vis).observations (lineProblem fix vis).baseToCameraGuess.length
      (lineProblem fix vis).baseToTargetGuess.length) :
    0 < staticDepth (lineCams.getD f.cam 1) (lineTgts.getD f.img 1) f.corr := by
  obtain ⟨hc, hi, -, hk⟩ := line_feature hf
  unfold staticDepth
  rw [(line_cam hc).1, line_tgt hi, line_pose, shiftBy_apply]
  obtain ⟨q, hq, h⟩ := List.mem_map.1 hk
  have hz : f.corr.inTarget.z = 0 := by
    rw [← h]
    simp only [squarePoints, List.mem_cons, List.not_mem_nil, or_false] at hq
    rcases hq with rfl | rfl | rfl | rfl <;> rfl
  have : (f.cam : ℝ) < 3 := by exact_mod_cast hc
  have : (0 : ℝ) ≤ f.img := Nat.cast_nonneg _
  simp only [hz]
  linarith

theorem line_exact (fix : Bool) (vis : Nat → Nat → Bool) : ∀ e ∈ staticErrors (lineProblem fix vis).intr lineCams
    (fun _ i => lineTgts.getD i 1) (byImage (lineProblem fix vis).observations (lineProblem fix vis).baseToCameraGuess.length
      (lineProblem fix vis).baseToTargetGuess.length), e = 0 := by
  rw [staticErrors, flatMap_zero]
  intro f hf
  obtain ⟨hc, hi, -, hk⟩ := line_feature hf
  obtain ⟨q, -, h⟩ := List.mem_map.1 hk
  simp only [(line_cam hc).1, (line_cam hc).2, line_tgt hi, staticError, line_pose]
  rw [diff2_zero, ← h]

theorem lineCams_rep : ∀ g ∈ lineCams, Representable g := by
  intro g hg
  simp only [lineCams, List.mem_cons, List.not_mem_nil, or_false] at hg
  rcases hg with rfl | rfl | rfl <;> exact shiftBy_rep _ _ _

theorem lineTgts_rep : ∀ g ∈ lineTgts, Representable g := by
  intro g hg
  simp only [lineTgts, List.mem_cons, List.not_mem_nil, or_false] at hg
  rcases hg with rfl | rfl <;> exact shiftBy_rep _ _ _

theorem line_run {fix : Bool} {vis : Nat → Nat → Bool} {res : CoResult} (h : cameraOnly (idCeres Pose6) (lineProblem fix vis) = .ok res)
    (hvis : ∃ c < 3, ∃ i < 2, vis c i = true) :
    res.baseToCamera = lineCams ∧ res.baseToTarget = lineTgts ∧ res.finalCost = some 0 := by
  have hi : (lineProblem fix vis).baseToTargetGuess ≠ [] := by simp [lineProblem, lineTgts]
  obtain ⟨h1, h2⟩ := C34_camera_only (idCeres Pose6) _ res (fun _ _ => rfl) hi lineTgts_rep lineCams_rep h
  replace h1 : res.baseToTarget = lineTgts := h1
  replace h2 : res.baseToCamera = lineCams := h2
  refine ⟨h2, h1, ?_⟩
  rw [C126_camera_only_final _ (idCeres_wf Pose6) _ res h (fun _ g hg => lineCams_rep g (List.mem_of_getElem? hg)) hi
    (by rw [h2]; exact fun c hc => (lineCams_rep c hc).1) (fun f hf => by rw [h1, h2]; exact (line_depth hf).ne'), meanCost_eq_zero_iff,
    h1, h2]
  refine ⟨?_, line_exact fix vis⟩
  obtain ⟨c, hc, i, hi, hv⟩ := hvis
  have hmem : (⟨c, i, ⟨pinhole ⟨1, 1, 0, 0⟩ ((shiftBy 0 0 (4 + i - c)).apply ⟨0, 0, 0⟩), ⟨0, 0, 0⟩⟩⟩ : Feature) ∈
      byImage (lineProblem fix vis).observations (lineProblem fix vis).baseToCameraGuess.length
      (lineProblem fix vis).baseToTargetGuess.length := by
    refine byImage_mem hc hi ?_
    rw [line_obs fix vis hc hi, lineImage, hv]
    exact List.mem_map.2 ⟨⟨0, 0, 0⟩, by simp [squarePoints], rfl⟩
  unfold staticErrors
  intro h0
  rw [List.flatMap_eq_nil_iff] at h0
  have := h0 _ hmem
  simp [staticError, diff2] at this

theorem line_sees {fix : Bool} {vis : Nat → Nat → Bool} {c i : Nat} : SeesSome (lineProblem fix vis).observations
    (lineProblem fix vis).baseToCameraGuess.length (lineProblem fix vis).baseToTargetGuess.length c i ↔
    c < 3 ∧ i < 2 ∧ vis c i = true := by
  constructor
  · rintro ⟨hc, hi, hne⟩
    replace hc : c < 3 := hc
    replace hi : i < 2 := hi
    refine ⟨hc, hi, ?_⟩
    rw [line_obs fix vis hc hi, lineImage] at hne
    by_contra hv
    rw [Bool.not_eq_true] at hv
    rw [hv] at hne
    exact hne rfl
  · rintro ⟨hc, hi, hv⟩
    refine ⟨hc, hi, ?_⟩
    rw [line_obs fix vis hc hi, lineImage, hv]
    simp [squareImage, squarePoints]

theorem line_well {fix : Bool} {vis : Nat → Nat → Bool} {c i : Nat} (h : c < 3 ∧ i < 2 ∧ vis c i = true) :
    SeesWell (lineProblem fix vis) lineCams lineTgts c i := by
  obtain ⟨hc, hi, hv⟩ := h
  refine ⟨hc, hi, ?_, ?_, ?_, ?_⟩
  · rw [line_obs fix vis hc hi, lineImage, hv]
    exact squareImage_sees _ _
  · rw [(line_cam hc).2]; norm_num
  · rw [(line_cam hc).2]; norm_num
  · rw [(line_cam hc).1, line_tgt hi, line_pose]
    have : (c : ℝ) < 3 := by exact_mod_cast hc
    have : (0 : ℝ) ≤ i := Nat.cast_nonneg _
    simp only [shiftBy, Iso.inv, M3.tr, M3.mulVec]
    simp
    linarith

/-- The first and the second camera share the first image, the second and the third camera the second image. -/
def chainVis (c i : Nat) : Bool := c == i || c == i + 1

/-- `C202_fixed`: no image is shared by the first and the third camera. -/
example : ∃ res, cameraOnly (idCeres Pose6) (lineProblem true chainVis) = .ok res ∧ res.baseToCamera.getD 2 1 = shiftBy 0 0 2 ∧
    ∀ i, ¬ (chainVis 0 i = true ∧ chainVis 2 i = true) := by
  obtain ⟨res, h⟩ : ∃ res, cameraOnly (idCeres Pose6) (lineProblem true chainVis) = .ok res := ⟨_, rfl⟩
  obtain ⟨h1, h2, h3⟩ := line_run h ⟨0, by norm_num, 0, by norm_num, rfl⟩
  refine ⟨res, h, ?_, fun i => by simp [chainVis]; omega⟩
  exact (C202_fixed _ (idCeres_wf Pose6) _ res h rfl (shiftBy 0 0 0) rfl (shiftBy_rep _ _ _) (by simp [lineProblem, lineTgts])
    (by rw [h1]; exact fun c hc => (lineCams_rep c hc).1) (by rw [h2]; exact fun c hc => (lineTgts_rep c hc).1) lineCams lineTgts
    (fun c hc => (lineCams_rep c hc).1) (fun c hc => (lineTgts_rep c hc).1) rfl (line_exact _ _) (fun f hf => line_depth hf)
    (fun f hf => by rw [h1, h2]; exact line_depth hf) h3 2
    (.tail (b := 1) (.tail .refl ⟨0, line_well ⟨by norm_num, by norm_num, rfl⟩, line_well ⟨by norm_num, by norm_num, rfl⟩⟩)
      ⟨1, line_well ⟨by norm_num, by norm_num, rfl⟩, line_well ⟨by norm_num, by norm_num, rfl⟩⟩)).1

/-- The first camera sees the target in the first image only, the others in the second only. -/
def splitVis (c i : Nat) : Bool := c == 0 && i == 0 || (c == 1 || c == 2) && i == 1

/-- `C202_open`, `C202_iff`: a run with cost zero that reports a wrong pose of the third camera relative to the first. -/
example : ∃ (s : Ceres Pose6) (res : CoResult), s.WF ∧ cameraOnly s (lineProblem true splitVis) = .ok res ∧ res.finalCost = some 0 ∧
    (res.baseToCamera.getD 0 1).inv * res.baseToCamera.getD 2 1 ≠ (lineCams.getD 0 1).inv * lineCams.getD 2 1 := by
  obtain ⟨res, h⟩ : ∃ res, cameraOnly (idCeres Pose6) (lineProblem true splitVis) = .ok res := ⟨_, rfl⟩
  obtain ⟨h1, h2, h3⟩ := line_run h ⟨0, by norm_num, 0, by norm_num, rfl⟩
  by_contra hno
  push Not at hno
  have hl := (C202_iff _ (idCeres_wf Pose6) _ res h (fun _ g hg => lineCams_rep g (List.mem_of_getElem? hg))
    (by rw [h1]; exact fun c hc => (lineCams_rep c hc).1) (by rw [h2]; exact fun c hc => (lineTgts_rep c hc).1) lineCams lineTgts
    (fun c hc => (lineCams_rep c hc).1) (fun c hc => (lineTgts_rep c hc).1) (line_exact _ _) (fun f hf => line_depth hf)
    (fun f hf => by rw [h1, h2]; exact line_depth hf) h3 (fun x i hs => line_well (line_sees.1 hs)) 0 2
    ⟨0, line_sees.2 ⟨by norm_num, by norm_num, rfl⟩⟩ ⟨1, line_sees.2 ⟨by norm_num, by norm_num, rfl⟩⟩).1
    fun s' res' g1 g2 _ _ _ g3 => hno s' res' g1 g2 g3
  have : ∀ x, Linked (SeesSome (lineProblem true splitVis).observations (lineProblem true splitVis).baseToCameraGuess.length
      (lineProblem true splitVis).baseToTargetGuess.length) 0 x → x = 0 := by
    intro x hx
    induction hx with
    | refl => rfl
    | tail _ hyz ih =>
      obtain ⟨i, g1, g2⟩ := hyz
      rw [ih] at g1
      have := (line_sees.1 g1).2.2
      have := (line_sees.1 g2).2.2
      simp [splitVis] at *
      omega
  exact absurd (this 2 hl) (by norm_num)

end RCT
