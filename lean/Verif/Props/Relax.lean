import Verif.Props.Agree
import Verif.Props.Guess
import Mathlib.Data.Multiset.Bind

/-! # C241 Calibrations with fewer assumptions can reproduce those with more -/

namespace RCT

open Spec

theorem byCamera_perm_byImage (obs : List (List (List Corr2))) (n m : Nat) : (byCamera obs n fun _ => m).Perm (byImage obs n m) := by
  unfold byCamera byImage
  have h := Multiset.bind_bind (List.range n : Multiset Nat) (List.range m : Multiset Nat) (f := fun c i => (featuresOf obs c i : Multiset Feature))
  simp only [Multiset.coe_bind] at h
  exact Multiset.coe_eq_coe.1 h

/-- Problems of two kinds over lists of features that are permutations of each other have the same costs where all features have
the same residuals. -/
theorem costs_features {β : Type} {l l' : List Feature} (hp : l.Perm l') {B B' : Feature → ResBlock β} {st st' : Nat → β}
    (h : ∀ f ∈ l, (B' f).residual st' = (B f).residual st) :
    cost (l'.map B') st' = cost (l.map B) st ∧ costPerObs (l'.map B') st' = costPerObs (l.map B) st := by
  have e : residuals (l.map B') st' = residuals (l.map B) st := by
    rw [residuals_map, residuals_map]
    exact flatMap_congr' h
  have hq : (l'.map B').Perm (l.map B') := (hp.map _).symm
  rw [cost_perm hq, costPerObs_perm hq]
  exact cost_of_residuals e

theorem msCost_coFree (px : V2) (intr : Intr) {w Y : Iso} (hw : Representable w) (hY : Representable (w * Y)) (pt : V3) (cam tgt : Pose6)
    (ht : poseCalToEigen tgt = Y) : coFreeCost px intr pt cam (poseEigenToCal (w * Y)) = msCost px intr w pt cam tgt := by
  unfold coFreeCost msCost
  simp only [transformPoint_eq, hw.act, hY.roundtrip, ht, Iso.apply_mul]

/-- Every result of the calibration of static cameras with wrist poses is a result of the calibration without them, that starts
from the target poses that the wrist poses and the guess amount to: with the same verdict, costs and cameras, and with the
target poses that the wrist poses and the result amount to. -/
theorem C241_static_to_cameras (intr : List Intr) (ws : List Iso) (obs : List (List (List Corr2))) (Y : Iso) (cams : List Iso) (lt lc : String)
    (hi : intr.length = cams.length) (ho : obs.length = cams.length) (him : ∀ oc ∈ obs, oc.length = ws.length)
    (hw : ∀ w ∈ ws, Representable w) (hY : Representable Y) (hWY : ∀ w ∈ ws, Representable (w * Y))
    (hseen : ∀ i < ws.length, ∃ c < cams.length, (obs.getD c []).getD i [] ≠ []) (r : MsResult)
    (hr : Reaches (fun s => multiStatic s ⟨intr, List.replicate cams.length ws, obs, Y, cams, lt, lc⟩) r)
    (hWr : ∀ w ∈ ws, Representable (w * r.wristToTarget)) :
    ∃ r' : CoResult, Reaches (fun s => cameraOnly s ⟨false, intr, ws.map (fun w => w * Y), obs, cams⟩) r' ∧
      r'.converged = r.converged ∧ r'.initialCost = r.initialCost ∧ r'.finalCost = r.finalCost ∧
      r'.baseToTarget = ws.map (fun w => w * r.wristToTarget) ∧ r'.baseToCamera = r.baseToCamera := by
  obtain ⟨s, hs, hr⟩ := hr
  obtain ⟨P, hP⟩ : ∃ P : MsProblem, P = ⟨intr, List.replicate cams.length ws, obs, Y, cams, lt, lc⟩ := ⟨_, rfl⟩
  obtain ⟨Q, hQ⟩ : ∃ Q : CoProblem, Q = ⟨false, intr, ws.map (fun w => w * Y), obs, cams⟩ := ⟨_, rfl⟩
  have hQs : CoSizes Q := by
    rw [hQ]
    refine ⟨hi, fun c hc => ?_⟩
    have hc' : c < obs.length := by rw [ho]; exact hc
    exact ⟨obs[c], List.getElem?_eq_getElem hc', by rw [him _ (List.getElem_mem hc')]; simp⟩
  obtain ⟨pb', hb'⟩ := hQs.built
  beta_reduce at hr
  rw [← hP] at hr
  rw [← hQ]
  unfold multiStatic at hr
  rw [Res.bind_ok_iff] at hr
  obtain ⟨pb, hb, hr⟩ := hr
  simp only [Res.bind_ok_iff] at hr
  obtain ⟨cov, hcov, hr⟩ := hr
  cases hr
  have hin := (C26_returns _ _ _ _ _ hcov).2.1
  simp only at hWr ⊢
  obtain ⟨st, hst⟩ : ∃ st, st = s.solve pb (msInit P) := ⟨_, rfl⟩
  rw [← hst] at hWr ⊢
  have hPc : P.baseToCameraGuess = cams := by rw [hP]
  have hQc : Q.baseToCameraGuess = cams := by rw [hQ]
  have hQt : Q.baseToTargetGuess = ws.map (fun w => w * Y) := by rw [hQ]
  have hQo : Q.observations = obs := by rw [hQ]
  have hQi : Q.intr = intr := by rw [hQ]
  have hPi : P.intr = intr := by rw [hP]
  have hPw : ∀ c < cams.length, P.wristPoses.getD c [] = ws := by
    intro c hc
    rw [hP]
    simp [List.getD_eq_getElem?_getD, hc]
  have hpb : pb = (byCamera obs cams.length fun _ => ws.length).map (msBlock P) := by
    rw [msBuild_eq hb]
    unfold msFeatures byCamera
    rw [hPc, show P.observations = obs by rw [hP]]
    congr 1
    exact flatMap_congr' fun c hc => by beta_reduce; rw [hPw c (List.mem_range.1 hc)]
  have hpb' : pb' = (byImage obs cams.length ws.length).map (coBlock Q) := by
    rw [coBuild_eq hb', hQc, hQt, hQo, List.length_map]
  have hperm := byCamera_perm_byImage obs cams.length ws.length
  have hblock : ∀ f, coBlock Q f = ⟨[coCam f.cam, coTgt f.img], eval2 (coFreeCost f.corr.inImage (intr.getD f.cam ⟨0, 0, 0, 0⟩) f.corr.inTarget)⟩ := by
    intro f
    unfold coBlock
    rw [if_neg (by rw [hQ]; simp), hQi]
  have hwi : ∀ i < ws.length, ws.getD i 1 ∈ ws := by
    intro i h
    rw [List.getD_eq_getElem?_getD, List.getElem?_eq_getElem h]
    exact List.getElem_mem h
  have key : ∀ (a b : Nat → Pose6) (Z : Iso), poseCalToEigen (b msTgt) = Z → (∀ w ∈ ws, Representable (w * Z)) →
      (∀ c < cams.length, 0 < ws.length → a (coCam c) = b (msCam c)) → (∀ i < ws.length, a (coTgt i) = poseEigenToCal (ws.getD i 1 * Z)) →
      ∀ f ∈ byCamera obs cams.length (fun _ => ws.length), (coBlock Q f).residual a = (msBlock P f).residual b := by
    intro a b Z hZ hr hc ht f hf
    obtain ⟨f1, f2, -⟩ := mem_byCamera hf
    rw [hblock]
    simp only [ResBlock.residual, msBlock, List.map_cons, List.map_nil, eval2]
    rw [hc _ f1 (by omega), ht _ f2, hPi, hPw _ f1]
    exact msCost_coFree _ _ (hw _ (hwi _ f2)) (hr _ (hwi _ f2)) _ _ _ hZ
  have hci : ∀ c < cams.length, 0 < ws.length → coInit Q (coCam c) = msInit P (msCam c) := by
    intro c hc h0
    unfold coInit msInit
    rw [hQc, hPc, hQt, List.length_map, if_neg (show ¬ coCam c % 2 = 0 by unfold coCam; omega), if_neg (by omega),
      if_neg (show ¬ msCam c = msTgt by simp [msCam, msTgt]), show coCam c / 2 = c by unfold coCam; omega, show msCam c - 1 = c by simp [msCam]]
  have hti : ∀ i < ws.length, coInit Q (coTgt i) = poseEigenToCal (ws.getD i 1 * Y) := by
    intro i h
    unfold coInit
    rw [hQt, if_pos (show coTgt i % 2 = 0 by unfold coTgt; omega), show coTgt i / 2 = i by unfold coTgt; omega]
    simp [List.getD_eq_getElem?_getD, h]
  obtain ⟨fin, hfin⟩ : ∃ fin : Nat → Pose6, fin = fun a => if a % 2 = 0 then
      (if a / 2 < ws.length then poseEigenToCal (ws.getD (a / 2) 1 * poseCalToEigen (st msTgt)) else coInit Q a)
      else (if a / 2 < cams.length then st (msCam (a / 2)) else coInit Q a) := ⟨_, rfl⟩
  have hfc : ∀ c < cams.length, fin (coCam c) = st (msCam c) := by
    intro c hc
    rw [hfin]
    simp only [show ¬ coCam c % 2 = 0 by unfold coCam; omega, show coCam c / 2 = c by unfold coCam; omega, hc, if_true, if_false]
  have hft : ∀ i < ws.length, fin (coTgt i) = poseEigenToCal (ws.getD i 1 * poseCalToEigen (st msTgt)) := by
    intro i h
    rw [hfin]
    simp only [show coTgt i % 2 = 0 by unfold coTgt; omega, show coTgt i / 2 = i by unfold coTgt; omega, h, if_true]
  have hmt : poseCalToEigen (msInit P msTgt) = Y := by
    unfold msInit
    rw [if_pos rfl, hP]
    exact hY.roundtrip
  have e1 := costs_features hperm (key (coInit Q) (msInit P) Y hmt hWY hci hti)
  have e2 := costs_features hperm (key fin st _ rfl hWr (fun c hc _ => hfc c hc) hft)
  rw [← hpb, ← hpb'] at e1 e2
  have wf : (Ceres.jump pb' (coInit Q) fin (s.converged pb (msInit P))).WF := by
    refine Ceres.jump_wf _ (fun a ha => ?_) ?_
    · have used : ∀ f ∈ byCamera obs cams.length (fun _ => ws.length), a ≠ coCam f.cam ∧ a ≠ coTgt f.img := by
        intro f hf
        rw [← not_or]
        intro h
        refine ha ?_
        rw [hpb', mem_usedBlocks]
        refine ⟨_, List.mem_map.2 ⟨f, hperm.subset hf, rfl⟩, ?_⟩
        rw [hblock]
        simpa using h
      rw [hfin]
      simp only
      split_ifs with h1 h2 h3
      · exfalso
        obtain ⟨c, hc, hne⟩ := hseen _ h2
        obtain ⟨k, hk⟩ := List.exists_mem_of_ne_nil _ hne
        refine (used ⟨c, a / 2, k⟩ ?_).2 (by simp only [coTgt]; omega)
        unfold byCamera featuresOf
        exact List.mem_flatMap.2 ⟨c, List.mem_range.2 hc, List.mem_flatMap.2 ⟨a / 2, List.mem_range.2 h2, List.mem_map.2 ⟨k, hk, rfl⟩⟩⟩
      · rfl
      · exfalso
        obtain ⟨sz, l, h4, -⟩ := hin (msCam (a / 2)) (by
          simp only [List.mem_append, List.mem_map, List.mem_range, hPc]
          exact Or.inl ⟨a / 2, h3, rfl⟩)
        have hu : msCam (a / 2) ∈ usedBlocks pb := by
          by_contra hn
          simp [Ceres.covSolver, hn] at h4
        rw [hpb, mem_usedBlocks] at hu
        obtain ⟨b, hbm, hab⟩ := hu
        obtain ⟨f, hf, rfl⟩ := List.mem_map.1 hbm
        refine (used f hf).1 ?_
        simp only [msBlock, List.mem_cons, List.not_mem_nil, or_false, msCam, msTgt] at hab
        simp only [coCam]
        omega
      · rfl
    · rw [e1.1, e2.1, hst]
      exact hs.descent _ _
  have hr' : cameraOnly (Ceres.jump pb' (coInit Q) fin (s.converged pb (msInit P))) Q =
      .ok ⟨s.converged pb (msInit P), costPerObs pb' (coInit Q), costPerObs pb' fin,
        (List.range ws.length).map (fun i => poseCalToEigen (fin (coTgt i))),
        (List.range cams.length).map (fun c => (poseCalToEigen (fin (coCam c))).inv)⟩ := by
    unfold cameraOnly
    rw [hb', Res.ok_bind]
    simp only [Ceres.jump_solve, hQt, hQc, List.length_map]
    rfl
  refine ⟨_, ⟨_, wf, hr'⟩, rfl, e1.2, e2.2, ?_, ?_⟩
  · refine List.ext_getElem (by simp) fun i h1 h2 => ?_
    have hlt : i < ws.length := by simpa using h1
    simp only [List.getElem_map, List.getElem_range]
    rw [hft i hlt, (hWr _ (hwi i hlt)).roundtrip]
    simp [List.getD_eq_getElem?_getD, hlt]
  · simp only [hPc]
    exact List.map_congr_left fun c hc => by rw [hfc c (List.mem_range.1 hc)]

theorem isRigid_of_inv {E : Iso} (h : E.inv.IsRigid) : E.IsRigid := by
  have h' : E.R.tr.IsRot := h
  have := h'.tr
  rwa [M3.tr_tr] at this

theorem woCost_ms (px : V2) (intr : Intr) (w : Iso) {g E : Iso} (hg : Representable g) (hE : E.IsRigid) (hc : Representable (E.inv * g)) (pt : V3)
    (corr tgt : Pose6) (he : poseCalToEigen corr = E) :
    msCost px intr w pt (poseEigenToCal (E.inv * g).inv) tgt = woCost px intr w g pt corr tgt := by
  unfold woCost msCost
  simp only [transformPoint_eq, hc.inv.roundtrip, hg.inv.act, he]
  rw [Iso.mul_inv_rev hE.inv, Iso.inv_inv hE]
  simp only [Iso.apply_mul]

/-- Every result of the common correction of all cameras is a result of the calibration of each of them: with the same verdict,
costs, target pose and cameras. -/
theorem C241_correction_to_static (intr : List Intr) (ws : List Iso) (obs : List (List (List Corr2))) (Y : Iso) (cams : List Iso) (lt lc : String)
    (hn : cams ≠ []) (hi : intr.length = cams.length) (ho : obs.length = cams.length) (him : ∀ oc ∈ obs, oc.length = ws.length)
    (hg : ∀ g ∈ cams, Representable g) (hseen : ∀ c < cams.length, ∃ i < ws.length, (obs.getD c []).getD i [] ≠ []) (r : WoResult)
    (hr : Reaches (fun s => wristOnly s ⟨intr, ws, obs, Y, cams⟩) r) (hc : ∀ g ∈ r.baseToCamera, Representable g) :
    ∃ r' : MsResult, Reaches (fun s => multiStatic s ⟨intr, List.replicate cams.length ws, obs, Y, cams, lt, lc⟩) r' ∧
      r'.converged = r.converged ∧ r'.initialCost = r.initialCost ∧ r'.finalCost = r.finalCost ∧
      r'.wristToTarget = r.wristToTarget ∧ r'.baseToCamera = r.baseToCamera := by
  obtain ⟨s, hs, hr⟩ := hr
  obtain ⟨P, hP⟩ : ∃ P : MsProblem, P = ⟨intr, List.replicate cams.length ws, obs, Y, cams, lt, lc⟩ := ⟨_, rfl⟩
  obtain ⟨Q, hQ⟩ : ∃ Q : WoProblem, Q = ⟨intr, ws, obs, Y, cams⟩ := ⟨_, rfl⟩
  have hPc : P.baseToCameraGuess = cams := by rw [hP]
  have hQc : Q.baseToCameraGuess = cams := by rw [hQ]
  have hQw : Q.wristPoses = ws := by rw [hQ]
  have hQo : Q.observations = obs := by rw [hQ]
  have hQi : Q.intr = intr := by rw [hQ]
  have hPi : P.intr = intr := by rw [hP]
  have hPw : ∀ c < cams.length, P.wristPoses.getD c [] = ws := by
    intro c hc
    rw [hP]
    simp [List.getD_eq_getElem?_getD, hc]
  have hPs : MsSizes P := by
    rw [hP]
    refine ⟨by simp, ho, hi, fun c oc wp h1 h2 => ?_⟩
    simp only [List.getElem?_replicate] at h2
    split_ifs at h2 with h3
    cases h2
    exact him oc (List.mem_of_getElem? h1)
  obtain ⟨pb', hb'⟩ := C41_built P hPs.wrist hPs.obs hPs.intr hPs.images
  beta_reduce at hr
  rw [← hQ] at hr
  rw [← hP]
  unfold wristOnly at hr
  rw [Res.bind_ok_iff] at hr
  obtain ⟨pb, hb, hr⟩ := hr
  simp only at hr
  cases hr
  simp only [hQc] at hc ⊢
  obtain ⟨st, hst⟩ : ∃ st, st = s.solve pb (woInit Q) := ⟨_, rfl⟩
  rw [← hst] at hc ⊢
  obtain ⟨E, hE⟩ : ∃ E, E = poseCalToEigen (st woCorr) := ⟨_, rfl⟩
  rw [← hE] at hc ⊢
  have hgE : ∀ g ∈ cams, Representable (E.inv * g) := fun g h => hc _ (List.mem_map.2 ⟨g, h, rfl⟩)
  have hEr : E.IsRigid := by
    obtain ⟨g, h⟩ := List.exists_mem_of_ne_nil _ hn
    have h1 := (hgE g h).rigid.mul (hg g h).rigid.inv
    rw [Iso.mul_assoc, Iso.mul_inv (hg g h).rigid, Iso.mul_one] at h1
    exact isRigid_of_inv h1
  have hpb' : pb' = (byCamera obs cams.length fun _ => ws.length).map (msBlock P) := by
    rw [msBuild_eq hb']
    unfold msFeatures byCamera
    rw [hPc, show P.observations = obs by rw [hP]]
    congr 1
    exact flatMap_congr' fun c hc => by beta_reduce; rw [hPw c (List.mem_range.1 hc)]
  have hpb : pb = (byCamera obs cams.length fun _ => ws.length).map (woBlock Q) := by
    rw [woBuild_eq hb, hQc, hQw, hQo]
  have hci : ∀ c < cams.length, cams.getD c 1 ∈ cams := by
    intro i h
    rw [List.getD_eq_getElem?_getD, List.getElem?_eq_getElem h]
    exact List.getElem_mem h
  have key : ∀ (a b : Nat → Pose6) (F : Iso), poseCalToEigen (b woCorr) = F → F.IsRigid → (∀ g ∈ cams, Representable (F.inv * g)) →
      (∀ c < cams.length, a (msCam c) = poseEigenToCal (F.inv * cams.getD c 1).inv) → a msTgt = b woTgt →
      ∀ f ∈ byCamera obs cams.length (fun _ => ws.length), (msBlock P f).residual a = (woBlock Q f).residual b := by
    intro a b F hF hFr hr hca hta f hf
    obtain ⟨f1, f2, -⟩ := mem_byCamera hf
    simp only [ResBlock.residual, msBlock, woBlock, List.map_cons, List.map_nil, eval2]
    rw [hca _ f1, hta, hPi, hPw _ f1, hQi, hQw, hQc]
    exact woCost_ms _ _ _ (hg _ (hci _ f1)) hFr (hr _ (hci _ f1)) _ _ _ hF
  have h1 : poseCalToEigen (woInit Q woCorr) = 1 := by
    unfold woInit
    rw [if_neg (by decide)]
    exact Representable.one.roundtrip
  have hmc : ∀ c < cams.length, msInit P (msCam c) = poseEigenToCal ((1 : Iso).inv * cams.getD c 1).inv := by
    intro c hc
    unfold msInit
    rw [if_neg (show ¬ msCam c = msTgt by simp [msCam, msTgt]), hPc, show msCam c - 1 = c by simp [msCam], Iso.inv_one, Iso.one_mul]
    simp [List.getD_eq_getElem?_getD, hc]
  have hmt : msInit P msTgt = woInit Q woTgt := by
    unfold msInit woInit
    rw [if_pos rfl, if_pos rfl, hP, hQ]
  obtain ⟨fin, hfin⟩ : ∃ fin : Nat → Pose6, fin = fun a => if a = msTgt then st woTgt
      else if a - 1 < cams.length then poseEigenToCal (E.inv * cams.getD (a - 1) 1).inv else msInit P a := ⟨_, rfl⟩
  have hft : fin msTgt = st woTgt := by rw [hfin]; simp
  have hfc : ∀ c < cams.length, fin (msCam c) = poseEigenToCal (E.inv * cams.getD c 1).inv := by
    intro c hc
    rw [hfin]
    simp only [show ¬ msCam c = msTgt by simp [msCam, msTgt], show msCam c - 1 = c by simp [msCam], hc, if_true, if_false]
  have e1 := costs_features (.refl _) (key (msInit P) (woInit Q) 1 h1 Iso.IsRigid.one
    (fun g h => by rw [Iso.inv_one, Iso.one_mul]; exact hg g h) hmc hmt)
  have e2 := costs_features (.refl _) (key fin st E hE.symm hEr hgE hfc hft)
  rw [← hpb, ← hpb'] at e1 e2
  have hused : ∀ c < cams.length, msCam c ∈ usedBlocks pb' ∧ msTgt ∈ usedBlocks pb' := by
    intro c hc
    obtain ⟨i, hi, hne⟩ := hseen c hc
    obtain ⟨k, hk⟩ := List.exists_mem_of_ne_nil _ hne
    have hf : (⟨c, i, k⟩ : Feature) ∈ byCamera obs cams.length (fun _ => ws.length) := by
      unfold byCamera featuresOf
      exact List.mem_flatMap.2 ⟨c, List.mem_range.2 hc, List.mem_flatMap.2 ⟨i, List.mem_range.2 hi, List.mem_map.2 ⟨k, hk, rfl⟩⟩⟩
    rw [hpb', mem_usedBlocks, mem_usedBlocks]
    exact ⟨⟨_, List.mem_map.2 ⟨_, hf, rfl⟩, by simp [msBlock]⟩, ⟨_, List.mem_map.2 ⟨_, hf, rfl⟩, by simp [msBlock]⟩⟩
  have hn0 : 0 < cams.length := List.length_pos_of_ne_nil hn
  have wf : (Ceres.jump pb' (msInit P) fin (s.converged pb (woInit Q))).WF := by
    refine Ceres.jump_wf _ (fun a ha => ?_) ?_
    · rw [hfin]
      simp only
      split_ifs with h2 h3
      · exact absurd (h2 ▸ (hused 0 hn0).2) ha
      · refine absurd ?_ ha
        have : a = msCam (a - 1) := by simp only [msCam, msTgt] at h2 ⊢; omega
        rw [this]
        exact (hused _ h3).1
      · rfl
    · rw [e1.1, e2.1, hst]
      exact hs.descent _ _
  obtain ⟨cov', hcov'⟩ : ∃ cov', computeCovariance ((Ceres.jump pb' (msInit P) fin (s.converged pb (woInit Q))).covSolver pb' fin 6)
      ((List.range P.baseToCameraGuess.length).map msCam ++ [msTgt]) (msNames P) [] = .ok cov' := by
    refine computeCovariance_returns ?_ ?_ rfl rfl
    · rw [msNames_size]; simp
    · intro b hbm
      refine ⟨_, msNames_find P b hbm, ?_⟩
      have hu : b ∈ usedBlocks pb' := by
        rw [hPc] at hbm
        simp only [List.mem_append, List.mem_map, List.mem_range, List.mem_singleton] at hbm
        rcases hbm with ⟨c, hcc, rfl⟩ | rfl
        · exact (hused c hcc).1
        · exact (hused 0 hn0).2
      simp only [Ceres.covSolver, hu, if_true]
      rfl
  have hr' : multiStatic (Ceres.jump pb' (msInit P) fin (s.converged pb (woInit Q))) P =
      .ok ⟨s.converged pb (woInit Q), costPerObs pb' (msInit P), costPerObs pb' fin, poseCalToEigen (fin msTgt),
        (List.range cams.length).map (fun c => (poseCalToEigen (fin (msCam c))).inv), cov'⟩ := by
    unfold multiStatic
    rw [hb', Res.ok_bind]
    simp only [Ceres.jump_solve, hcov', Res.ok_bind]
    rw [hPc]
    rfl
  refine ⟨_, ⟨_, wf, hr'⟩, rfl, e1.2, e2.2, by simp only [hft], ?_⟩
  refine List.ext_getElem (by simp) fun c h2 h3 => ?_
  have hlt : c < cams.length := by simpa using h2
  simp only [List.getElem_map, List.getElem_range]
  rw [hfc c hlt, (hgE _ (hci c hlt)).inv.roundtrip, Iso.inv_inv (hgE _ (hci c hlt)).rigid]
  simp [List.getD_eq_getElem?_getD, hlt]

/-! ## Examples -/

/-- There are results of all three that correspond. -/
theorem relaxed_results (intr : List Intr) (ws : List Iso) (obs : List (List (List Corr2))) (Y : Iso) (cams : List Iso) (hn : cams ≠ [])
    (hi : intr.length = cams.length) (ho : obs.length = cams.length) (him : ∀ oc ∈ obs, oc.length = ws.length)
    (hg : ∀ g ∈ cams, Representable g) (hw : ∀ w ∈ ws, Representable w) (hY : Representable Y) (hWY : ∀ w ∈ ws, Representable (w * Y))
    (hall : ∀ c < cams.length, ∀ i < ws.length, (obs.getD c []).getD i [] ≠ []) (hws : ws ≠ []) :
    ∃ (r : WoResult) (r' : MsResult) (r'' : CoResult), Reaches (fun s => wristOnly s ⟨intr, ws, obs, Y, cams⟩) r ∧
      (∀ g ∈ r.baseToCamera, Representable g) ∧
      Reaches (fun s => multiStatic s ⟨intr, List.replicate cams.length ws, obs, Y, cams, "t", "c"⟩) r' ∧
      (∀ w ∈ ws, Representable (w * r'.wristToTarget)) ∧
      Reaches (fun s => cameraOnly s ⟨false, intr, ws.map (fun w => w * Y), obs, cams⟩) r'' := by
  obtain ⟨r, hr⟩ := wristOnly_returns (idCeres Pose6) ⟨intr, ws, obs, Y, cams⟩ hi (by
    intro c hc
    have hc' : c < obs.length := by rw [ho]; exact hc
    exact ⟨obs[c], List.getElem?_eq_getElem hc', him _ (List.getElem_mem hc')⟩)
  obtain ⟨h1, h2⟩ := C34_wrist_only (idCeres Pose6) ⟨intr, ws, obs, Y, cams⟩ r (fun _ _ => rfl) hY hr
  have hR : Reaches (fun s => wristOnly s ⟨intr, ws, obs, Y, cams⟩) r := ⟨_, idCeres_wf _, hr⟩
  have hc : ∀ g ∈ r.baseToCamera, Representable g := by rw [h2]; exact hg
  obtain ⟨r', hr', -, -, -, h3, -⟩ := C241_correction_to_static intr ws obs Y cams "t" "c" hn hi ho him hg
    (fun c h => ⟨0, List.length_pos_of_ne_nil hws, hall c h 0 (List.length_pos_of_ne_nil hws)⟩) r hR hc
  have hWr : ∀ w ∈ ws, Representable (w * r'.wristToTarget) := by rw [h3, h1]; exact hWY
  obtain ⟨r'', hr'', -⟩ := C241_static_to_cameras intr ws obs Y cams "t" "c" hi ho him hw hY hWY
    (fun i h => ⟨0, List.length_pos_of_ne_nil hn, hall 0 (List.length_pos_of_ne_nil hn) i h⟩) r' hr' hWr
  exact ⟨r, r', r'', hR, hc, hr', hWr, hr''⟩

/-- Two cameras and two wrist poses. -/
example (k : Corr2) (intr : Intr) : ∃ (r : WoResult) (r' : MsResult) (r'' : CoResult) (ws cams : List Iso), ws.length = 2 ∧ cams.length = 2 ∧
    Reaches (fun s => wristOnly s ⟨[intr, intr], ws, [[[k], [k]], [[k], [k]]], ⟨1, ⟨0, 0, 1⟩⟩, cams⟩) r ∧
    Reaches (fun s => multiStatic s ⟨[intr, intr], List.replicate 2 ws, [[[k], [k]], [[k], [k]]], ⟨1, ⟨0, 0, 1⟩⟩, cams, "t", "c"⟩) r' ∧
    Reaches (fun s => cameraOnly s ⟨false, [intr, intr], ws.map (fun w => w * ⟨1, ⟨0, 0, 1⟩⟩), [[[k], [k]], [[k], [k]]], cams⟩) r'' := by
  have hT : ∀ a b : V3, Representable ((⟨1, a⟩ : Iso) * ⟨1, b⟩) := by
    intro a b
    have e : (⟨1, a⟩ : Iso) * ⟨1, b⟩ = ⟨1, a + b⟩ := by
      refine Iso.ext ?_ ?_
      · show (1 : M3) * 1 = 1
        ext <;> simp [M3.mul_def]
      · ext <;> simp [Iso.mul_def, M3.mulVec] <;> ring
    rw [e]
    exact Representable.translation _
  have h2 : ∀ w ∈ [(⟨1, ⟨0, 0, 0⟩⟩ : Iso), ⟨1, ⟨1, 0, 0⟩⟩], ∃ a, w = ⟨1, a⟩ := by
    intro w h
    simp only [List.mem_cons, List.not_mem_nil, or_false] at h
    rcases h with rfl | rfl <;> exact ⟨_, rfl⟩
  have hw : ∀ w ∈ [(⟨1, ⟨0, 0, 0⟩⟩ : Iso), ⟨1, ⟨1, 0, 0⟩⟩], Representable w := by
    intro w h
    obtain ⟨a, rfl⟩ := h2 w h
    exact Representable.translation _
  obtain ⟨r, r', r'', h3, -, h4, -, h5⟩ := relaxed_results [intr, intr] [⟨1, ⟨0, 0, 0⟩⟩, ⟨1, ⟨1, 0, 0⟩⟩] [[[k], [k]], [[k], [k]]] ⟨1, ⟨0, 0, 1⟩⟩
    [⟨1, ⟨0, 0, 0⟩⟩, ⟨1, ⟨1, 0, 0⟩⟩] (by simp) rfl rfl (by simp) hw hw (Representable.translation _)
    (fun w h => by obtain ⟨a, rfl⟩ := h2 w h; exact hT _ _)
    (by
      intro c hc i hi
      simp only [List.length_cons, List.length_nil] at hc hi
      interval_cases c <;> interval_cases i <;> simp)
    (by simp)
  exact ⟨r, r', r'', _, _, rfl, rfl, h3, h4, h5⟩

end RCT
