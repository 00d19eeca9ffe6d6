import Verif.Spec.HandEye
import Verif.Lemmas.Frames
import Verif.Lemmas.Solver

namespace RCT
open Spec

theorem targetPointInCamera_eq {A B : Iso} (hA : Representable A) (hB : Representable B) (pt : V3) (cam tgt : Pose6) :
    targetPointInCamera A B pt cam tgt =
      (poseCalToEigen cam).apply (A.apply (B.apply ((poseCalToEigen tgt).apply pt))) := by
  unfold targetPointInCamera
  simp only [transformPoint_eq, hA.act, hB.act]

/-- In terms of the reported transforms, if the camera block is a rigid pose. -/
theorem targetPointInCamera_spec {C T : Iso} (hC : Representable C) (hT : Representable T) (pt : V3) (cam tgt : Pose6)
    (hcam : (poseCalToEigen cam).IsRigid) :
    targetPointInCamera C.inv T pt cam tgt =
      targetInCamera (poseCalToEigen cam).inv C T (poseCalToEigen tgt) pt := by
  rw [targetPointInCamera_eq hC.inv hT]
  unfold targetInCamera
  rw [Iso.inv_inv hcam]
  simp only [Iso.apply_mul]

/-- The residual block added for one feature. -/
noncomputable def heBlock2 (i : Intr) (f : Obs Corr2 × Corr2) : ResBlock Pose6 :=
  ⟨[heCam, heTgt], eval2 (handEyeCost2 f.2.inImage f.1.toCameraMount.inv f.1.toTargetMount f.2.inTarget i)⟩

noncomputable def heBlock3 (f : Obs Corr3 × Corr3) : ResBlock Pose6 :=
  ⟨[heCam, heTgt], eval2 (handEyeCost3 f.2.inImage f.1.toCameraMount.inv f.1.toTargetMount f.2.inTarget)⟩

def heVisible (p : HandEyeProblem Corr2) (f : Obs Corr2 × Corr2) : Prop :=
  0 < (targetPointInCamera f.1.toCameraMount.inv f.1.toTargetMount f.2.inTarget (heInit p heCam) (heInit p heTgt)).z

theorem heInner (p : HandEyeProblem Corr2) (o : Obs Corr2) (cs : List Corr2) (acc : List (ResBlock Pose6)) :
    ((∀ c ∈ cs, heVisible p (o, c)) ∧
      Res.foldList (heStep2 p o) acc cs = .ok (acc ++ (cs.map fun c => (o, c)).map (heBlock2 p.intr))) ∨
    ((∃ c ∈ cs, ¬ heVisible p (o, c)) ∧ Res.foldList (heStep2 p o) acc cs = .throw .runtimeError) := by
  induction cs generalizing acc with
  | nil => left; simp
  | cons c cs ih =>
    rw [Res.foldList_cons]
    by_cases hv : heVisible p (o, c)
    · have : heStep2 p o acc c = .ok (acc ++ [heBlock2 p.intr (o, c)]) := by
        unfold heStep2 isPointVisible
        rw [if_neg]
        · rfl
        · simpa [heVisible] using hv
      rw [this, Res.ok_bind]
      rcases ih (acc ++ [heBlock2 p.intr (o, c)]) with ⟨h1, h2⟩ | ⟨⟨c', hc', h1⟩, h2⟩
      · left
        refine ⟨by intro c' hc'; rcases List.mem_cons.1 hc' with rfl | hc'; exacts [hv, h1 c' hc'], ?_⟩
        rw [h2]; simp
      · right; exact ⟨⟨c', by simp [hc'], h1⟩, h2⟩
    · have : heStep2 p o acc c = .throw .runtimeError := by
        unfold heStep2 isPointVisible
        rw [if_pos]
        simpa [heVisible] using hv
      rw [this]
      right; exact ⟨⟨c, by simp, hv⟩, rfl⟩

theorem heOuter (p : HandEyeProblem Corr2) (os : List (Obs Corr2)) (acc : List (ResBlock Pose6)) :
    ((∀ f ∈ features os, heVisible p f) ∧
      Res.foldList (fun acc o => Res.foldList (heStep2 p o) acc o.corrs) acc os =
        .ok (acc ++ (features os).map (heBlock2 p.intr))) ∨
    ((∃ f ∈ features os, ¬ heVisible p f) ∧
      Res.foldList (fun acc o => Res.foldList (heStep2 p o) acc o.corrs) acc os = .throw .runtimeError) := by
  induction os generalizing acc with
  | nil => left; simp [features]
  | cons o os ih =>
    rw [Res.foldList_cons]
    have hf : features (o :: os) = (o.corrs.map fun c => (o, c)) ++ features os := by simp [features]
    rw [hf]
    rcases heInner p o o.corrs acc with ⟨h1, h2⟩ | ⟨⟨c, hc, h1⟩, h2⟩
    · rw [h2, Res.ok_bind]
      rcases ih (acc ++ (o.corrs.map fun c => (o, c)).map (heBlock2 p.intr)) with ⟨g1, g2⟩ | ⟨⟨f, hf', g1⟩, g2⟩
      · left
        refine ⟨?_, by rw [g2]; simp⟩
        intro f hf'
        rcases List.mem_append.1 hf' with hf' | hf'
        · obtain ⟨c, hc, rfl⟩ := List.mem_map.1 hf'; exact h1 c hc
        · exact g1 f hf'
      · right; exact ⟨⟨f, by simp [hf'], g1⟩, g2⟩
    · right
      rw [h2]
      exact ⟨⟨(o, c), by simp [hc], h1⟩, rfl⟩

theorem heBuild2_cases (p : HandEyeProblem Corr2) :
    ((∀ f ∈ features p.observations, heVisible p f) ∧
      heBuild2 p = .ok ((features p.observations).map (heBlock2 p.intr))) ∨
    ((∃ f ∈ features p.observations, ¬ heVisible p f) ∧ heBuild2 p = .throw .runtimeError) := by
  have := heOuter p p.observations []
  rw [List.nil_append] at this
  exact this

theorem heBuild3_eq (p : HandEyeProblem Corr3) : heBuild3 p = (features p.observations).map heBlock3 := by
  unfold heBuild3
  have inner : ∀ (o : Obs Corr3) (cs : List Corr3) (acc : List (ResBlock Pose6)),
      cs.foldl (fun acc c => acc ++ [⟨[heCam, heTgt],
        eval2 (handEyeCost3 c.inImage o.toCameraMount.inv o.toTargetMount c.inTarget)⟩]) acc
        = acc ++ (cs.map fun c => (o, c)).map heBlock3 := by
    intro o cs
    induction cs with
    | nil => intro acc; simp
    | cons c cs ih => intro acc; rw [List.foldl_cons, ih]; simp [heBlock3]
  have outer : ∀ (os : List (Obs Corr3)) (acc : List (ResBlock Pose6)),
      os.foldl (fun acc o => o.corrs.foldl (fun acc c => acc ++ [⟨[heCam, heTgt],
        eval2 (handEyeCost3 c.inImage o.toCameraMount.inv o.toTargetMount c.inTarget)⟩]) acc) acc
        = acc ++ (features os).map heBlock3 := by
    intro os
    induction os with
    | nil => intro acc; simp [features]
    | cons o os ih => intro acc; rw [List.foldl_cons, ih, inner]; simp [features]
  rw [outer, List.nil_append]

theorem mem_features {κ : Type} {os : List (Obs κ)} {f : Obs κ × κ} :
    f ∈ features os ↔ f.1 ∈ os ∧ f.2 ∈ f.1.corrs := by
  unfold features
  simp only [List.mem_flatMap, List.mem_map]
  constructor
  · rintro ⟨o, ho, c, hc, rfl⟩; exact ⟨ho, hc⟩
  · rintro ⟨ho, hc⟩; exact ⟨f.1, ho, f.2, hc, rfl⟩

theorem features_length {κ : Type} (os : List (Obs κ)) : (features os).length = (os.map fun o => o.corrs.length).sum := by
  simp [features, List.length_flatMap]

/-- The residual of one block at a state with a rigid camera pose, in terms of the reported transforms. -/
theorem heBlock2_residual (i : Intr) (f : Obs Corr2 × Corr2) (st : Nat → Pose6) (hC : Representable f.1.toCameraMount)
    (hT : Representable f.1.toTargetMount) (hcam : (poseCalToEigen (st heCam)).IsRigid)
    (hz : (inCamera2 (poseCalToEigen (st heCam)).inv (poseCalToEigen (st heTgt)) f).z ≠ 0) :
    (heBlock2 i f).residual st =
      diff2 (pinhole i (inCamera2 (poseCalToEigen (st heCam)).inv (poseCalToEigen (st heTgt)) f)) f.2.inImage := by
  unfold inCamera2 at *
  simp only [heBlock2, ResBlock.residual, List.map_cons, List.map_nil, eval2, handEyeCost2,
    targetPointInCamera_spec hC hT _ _ _ hcam, C02_pinhole i _ hz, diff2]

theorem heBlock3_residual (f : Obs Corr3 × Corr3) (st : Nat → Pose6) (hC : Representable f.1.toCameraMount)
    (hT : Representable f.1.toTargetMount) (hcam : (poseCalToEigen (st heCam)).IsRigid) :
    (heBlock3 f).residual st =
      diff3 (inCamera3 (poseCalToEigen (st heCam)).inv (poseCalToEigen (st heTgt)) f) f.2.inImage := by
  unfold inCamera3
  simp only [heBlock3, ResBlock.residual, List.map_cons, List.map_nil, eval2, handEyeCost3,
    targetPointInCamera_spec hC hT _ _ _ hcam, diff3]

theorem residuals_map {β α : Type} (l : List α) (g : α → ResBlock β) (st : Nat → β) :
    residuals (l.map g) st = l.flatMap fun a => (g a).residual st := by
  simp [residuals, List.flatMap_map]

theorem flatMap_congr' {α β : Type} {l : List α} {f g : α → List β} (h : ∀ a ∈ l, f a = g a) :
    l.flatMap f = l.flatMap g := by
  induction l with
  | nil => rfl
  | cons a l ih =>
    simp only [List.flatMap_cons]
    rw [h a (by simp), ih (fun b hb => h b (by simp [hb]))]

end RCT
