import Verif.Lemmas.RankFull
import Verif.Props.Rank
import Verif.Props.RankFit

/-!
# C199 – C201 Data that determine a calibration to first order
-/

namespace RCT

open Spec Filter Topology

/-! ## C199 Hand-eye calibration -/

/-- Rotations about different axes have no direction in common. -/
theorem axes_no_common {A B : M3} (hA : A.IsRot) (hB : B.IsRot) (h : AxesDiffer A B) {a : V3} (h1 : A.mulVec a = a)
    (h2 : B.mulVec a = a) : a = 0 := by
  have key : ∀ {F : M3}, F.IsRot → F.mulVec a = a → a.cross (turnVector F) = 0 := by
    intro F hF e'
    have e'' : F.tr.mulVec a = a := by
      conv_lhs => rw [← e']
      rw [← M3.mulVec_mul, hF.1, M3.one_mulVec]
    have ax := congrArg V3.x e'; have ay := congrArg V3.y e'; have az := congrArg V3.z e'
    have bx := congrArg V3.x e''; have by' := congrArg V3.y e''; have bz := congrArg V3.z e''
    simp only [M3.mulVec, M3.tr] at ax ay az bx by' bz
    ext <;> simp only [turnVector, V3.cross, V3.zero_x, V3.zero_y, V3.zero_z] <;> linarith
  exact cross_two_zero h (key hA h1) (key hB h2)

/-- Directions of the target mount that all observations show alike are directions unchanged by the motions. -/
theorem mounts_no_common {κ : Type} {obs : List (Obs κ)} (hrig : ∀ o ∈ obs, o.toCameraMount.IsRigid ∧ o.toTargetMount.IsRigid)
    (hne : obs ≠ []) (hno : ∀ a : V3, (∀ o ∈ obs, ∀ o' ∈ obs, (mountMotion o o').R.mulVec a = a) → a = 0) {b : V3}
    (hb : ∀ o ∈ obs, ∀ o' ∈ obs, (o.toCameraMount.inv * o.toTargetMount).R.mulVec b =
      (o'.toCameraMount.inv * o'.toTargetMount).R.mulVec b) : b = 0 := by
  obtain ⟨o₀, ho₀⟩ := List.exists_mem_of_ne_nil _ hne
  have r : ∀ o ∈ obs, (o.toCameraMount.inv * o.toTargetMount).IsRigid := fun o ho => (hrig o ho).1.inv.mul (hrig o ho).2
  have h0 := hno ((o₀.toCameraMount.inv * o₀.toTargetMount).R.mulVec b) fun o ho o' ho' => by
    show ((o.toCameraMount.inv * o.toTargetMount).R * (o'.toCameraMount.inv * o'.toTargetMount).R.tr).mulVec _ = _
    rw [M3.mulVec_mul, hb o₀ ho₀ o' ho', ← M3.mulVec_mul _ _ b, (r o' ho').1, M3.one_mulVec, hb o ho o' ho']
  have := congrArg (fun v => (o₀.toCameraMount.inv * o₀.toTargetMount).R.tr.mulVec v) h0
  simpa only [← M3.mulVec_mul, (r o₀ ho₀).1, M3.one_mulVec, M3.mulVec_zero] using this

theorem heUsed_cases {κ : Type} {l : List (Obs κ × κ)} {g : Obs κ × κ → ResBlock Pose6} (hg : ∀ a, (g a).blocks = [heCam, heTgt])
    {b : Nat} (hb : b ∈ usedBlocks (l.map g)) : b = heCam ∨ b = heTgt := by
  obtain ⟨x, hx, hb⟩ := mem_usedBlocks.1 hb
  obtain ⟨a, -, rfl⟩ := List.mem_map.1 hx
  rw [hg] at hb
  simpa using hb

theorem chain_rigid {M : Iso} (hM : M.IsRigid) {cam tgt : Pose6} (hc : Plain cam) (ht : Plain tgt) :
    (poseCalToEigen cam * (M * poseCalToEigen tgt)).IsRigid :=
  Iso.IsRigid.mul ((poseCalToEigen_rigid_iff cam).2 hc) (hM.mul ((poseCalToEigen_rigid_iff tgt).2 ht))

theorem chainPoint_apply (M : Iso) (q : V3) (cam tgt : Pose6) :
    chainPoint M q cam tgt = (poseCalToEigen cam * (M * poseCalToEigen tgt)).apply q := by
  rw [Iso.apply_mul, Iso.apply_mul]; rfl

/-- Hand-eye calibration from points: if some observations each show a triangle and no direction is unchanged by all motions of
the robot between them, every change of the camera pose or the target pose changes a residual to first order. -/
theorem C199_full_3d (p : HandEyeProblem Corr3) (hm : MountsRepresentable p.observations) (good : List (Obs Corr3)) (hne : good ≠ [])
    (hgood : ∀ o ∈ good, o ∈ p.observations ∧ SeesTriangle o)
    (hno : ∀ a : V3, (∀ o ∈ good, ∀ o' ∈ good, (mountMotion o o').R.mulVec a = a) → a = 0) (st : Nat → Pose6)
    (hp : ∀ a, PlainPose (st a)) (hturn : ∀ a, ¬ FullTurns (st a).rot) : FullRank Pose6.mem (fun _ => 6) (heBuild3 p) st := by
  rw [heBuild3_eq]
  intro γ d h0 hγ hd
  by_contra hall
  push Not at hall
  have hz : ∀ i v, Speed ((features p.observations).map heBlock3) γ i v → v = 0 := fun i v h => by
    by_contra hv
    exact hall i v hv h
  have hst := fun {a} (ha : a ∈ features p.observations) =>
    (heBlock3_pair p hm).all_still (fun b _ => hp b) h0 hγ hz ha
  have rg : ∀ o ∈ good, o.toCameraMount.IsRigid ∧ o.toTargetMount.IsRigid := fun o ho =>
    ⟨(hm o (hgood o ho).1).1.rigid, (hm o (hgood o ho).1).2.rigid⟩
  have hfield : ∀ o, o ∈ good → chainTurn (d heCam) (d heTgt) (o.toCameraMount.inv * o.toTargetMount) (st heCam) (st heTgt) = 0 ∧
      chainShift (d heCam) (d heTgt) (o.toCameraMount.inv * o.toTargetMount) (st heCam) (st heTgt) = 0 := by
    intro o ho
    obtain ⟨hom, a, ha, b, hb, c, hc, habc⟩ := hgood o ho
    have rM := (rg o ho).1.inv.mul (rg o ho).2
    have key : ∀ k ∈ o.corrs, (chainTurn (d heCam) (d heTgt) (o.toCameraMount.inv * o.toTargetMount) (st heCam) (st heTgt)).cross
        ((poseCalToEigen (st heCam) * (o.toCameraMount.inv * o.toTargetMount * poseCalToEigen (st heTgt))).apply k.inTarget) +
        chainShift (d heCam) (d heTgt) (o.toCameraMount.inv * o.toTargetMount) (st heCam) (st heTgt) = 0 := by
      intro k hk
      have := hst (a := (o, k)) (mem_features.2 ⟨hom, hk⟩)
      rwa [chainVel_field _ _ rM _ _ (hp heCam), chainPoint_apply] at this
    exact field_zero3 (chain_rigid rM (hp heCam) (hp heTgt)) habc (key a ha) (key b hb) (key c hc)
  obtain ⟨o₀, ho₀⟩ := List.exists_mem_of_ne_nil _ hne
  obtain ⟨hcz, htz⟩ := chain_still (P := fun o => o ∈ good) (same := fun _ _ => True)
    (M := fun o : Obs Corr3 => o.toCameraMount.inv * o.toTargetMount) (cam := fun _ => st heCam) (dc := fun _ => d heCam)
    (fun o ho => (rg o ho).1.inv.mul (rg o ho).2) (fun _ => hp heCam) (hturn heTgt) (fun _ => hturn heCam) (fun _ _ _ => ⟨rfl, rfl⟩)
    (fun b hb => mounts_no_common rg hne hno fun o ho o' ho' => hb o ho o' ho' trivial) (fun o ho => (hfield o ho).1)
    (fun o ho => (hfield o ho).2)
  obtain ⟨b, hb, k, hk, hne⟩ := hd
  rcases heUsed_cases (fun _ => rfl) hb with rfl | rfl
  · exact hne (six_zero (hcz o₀ ho₀) hk)
  · exact hne (six_zero htz hk)

/-- Conversely, if all motions leave a direction unchanged, some change of the parameters changes no residual to first order. -/
theorem C199_iff_3d (p : HandEyeProblem Corr3) (hm : MountsRepresentable p.observations) (hne : p.observations ≠ [])
    (hsee : ∀ o ∈ p.observations, SeesTriangle o) (st : Nat → Pose6)
    (hp : ∀ a, PlainPose (st a)) (hturn : ∀ a, ¬ FullTurns (st a).rot) :
    FullRank Pose6.mem (fun _ => 6) (heBuild3 p) st ↔
      ∀ a : V3, (∀ o ∈ p.observations, ∀ o' ∈ p.observations, (mountMotion o o').R.mulVec a = a) → a = 0 := by
  refine ⟨fun h a hfix => ?_, fun h => C199_full_3d p hm _ hne (fun o ho => ⟨ho, hsee o ho⟩) h st hp hturn⟩
  by_contra ha
  have hfne : features p.observations ≠ [] := by
    obtain ⟨o, ho⟩ := List.exists_mem_of_ne_nil _ hne
    obtain ⟨k, hk, -⟩ := hsee o ho
    exact List.ne_nil_of_mem (mem_features.2 (show (o, k).1 ∈ _ ∧ (o, k).2 ∈ _ from ⟨ho, hk⟩))
  rw [heBuild3_eq] at h
  obtain ⟨dt, hd, hv⟩ := (HeBlind.axis (pt := Corr3.inTarget) a ha hfix).still hfne hm (hp heTgt)
  obtain ⟨dc, hv⟩ := hv (st heCam)
  obtain ⟨hu, -⟩ := heUsed hfne (g := heBlock3) fun _ _ => rfl
  obtain ⟨k, hk, hdk⟩ := hd
  obtain ⟨i, v, hvne, hs⟩ := h (posesAlong (heSpeeds dc dt) st) _ (posesAlong_zero _ _) (posesAlong_straight _ _)
    ⟨heTgt, hu, k, hk, by simpa [hk, heSpeeds] using hdk⟩
  have hs' := ((heBlock3_pair p hm).deriv (fun b _ => hp b) (posesAlong_zero _ _) (posesAlong_straight (heSpeeds dc dt) st)).speed i
  apply hvne
  rw [HasDerivAt.unique hs hs']
  refine getD_zero (fun e he => ?_) i
  obtain ⟨f, hf, he⟩ := List.mem_flatMap.1 he
  have : chainVel (fun k => if k < 6 then heSpeeds dc dt heCam k else 0) (fun k => if k < 6 then heSpeeds dc dt heTgt k else 0)
      (f.1.toCameraMount.inv * f.1.toTargetMount) f.2.inTarget (st heCam) (st heTgt) = 0 := hv f hf
  rw [this] at he
  simp only [List.mem_cons, List.not_mem_nil, or_false] at he
  rcases he with rfl | rfl | rfl <;> rfl

/-- Hand-eye calibration from images: if some images each show four points of the target plane, no three on one line, from outside
the plane, no feature is in the plane of the camera centre and no direction is unchanged by all motions of the robot between the
images, every change of the camera pose or the target pose changes a residual to first order. -/
theorem C199_full_2d (p : HandEyeProblem Corr2) (hm : MountsRepresentable p.observations) (hx : p.intr.fx ≠ 0) (hy : p.intr.fy ≠ 0)
    (good : List (Obs Corr2)) (hne : good ≠ []) (st : Nat → Pose6)
    (hgood : ∀ o ∈ good, o ∈ p.observations ∧ SeesQuadrangle o.corrs ∧
      (poseInCamera (poseCalToEigen (st heCam)).inv (poseCalToEigen (st heTgt)) o).inv.t.z ≠ 0)
    (hdepth : ∀ f ∈ features p.observations, (inCamera2 (poseCalToEigen (st heCam)).inv (poseCalToEigen (st heTgt)) f).z ≠ 0)
    (hno : ∀ a : V3, (∀ o ∈ good, ∀ o' ∈ good, (mountMotion o o').R.mulVec a = a) → a = 0)
    (hp : ∀ a, PlainPose (st a)) (hturn : ∀ a, ¬ FullTurns (st a).rot) (pb : List (ResBlock Pose6)) (hb : heBuild2 p = .ok pb) :
    FullRank Pose6.mem (fun _ => 6) pb st := by
  rcases heBuild2_cases p with ⟨-, hb'⟩ | ⟨-, hb'⟩
  swap
  · rw [hb'] at hb; cases hb
  rw [hb'] at hb
  cases hb
  have einv : (poseCalToEigen (st heCam)).inv.inv = poseCalToEigen (st heCam) := Iso.inv_inv (PlainPose.rigid (hp heCam))
  intro γ d h0 hγ hd
  by_contra hall
  push Not at hall
  have hz : ∀ i v, Speed ((features p.observations).map (heBlock2 p.intr)) γ i v → v = 0 := fun i v h => by
    by_contra hv
    exact hall i v hv h
  have hdep : ∀ f ∈ features p.observations, (chainPoint (f.1.toCameraMount.inv * f.1.toTargetMount) f.2.inTarget (st heCam) (st heTgt)).z ≠ 0 := by
    intro f hf
    have := hdepth f hf
    unfold inCamera2 Spec.targetInCamera at this
    rw [einv] at this
    simpa only [chainPoint, Iso.apply_mul] using this
  have hst := fun {a} (ha : a ∈ features p.observations) =>
    (heBlock2_pair p hm).all_still (fun b _ => hp b) hdep h0 hγ hz ha
  have rg : ∀ o ∈ good, o.toCameraMount.IsRigid ∧ o.toTargetMount.IsRigid := fun o ho =>
    ⟨(hm o (hgood o ho).1).1.rigid, (hm o (hgood o ho).1).2.rigid⟩
  have hfield : ∀ o, o ∈ good → chainTurn (d heCam) (d heTgt) (o.toCameraMount.inv * o.toTargetMount) (st heCam) (st heTgt) = 0 ∧
      chainShift (d heCam) (d heTgt) (o.toCameraMount.inv * o.toTargetMount) (st heCam) (st heTgt) = 0 := by
    intro o ho
    obtain ⟨hom, ⟨a, ha, b, hb, c, hc, e, he, hq⟩, hcam⟩ := hgood o ho
    have rM := (rg o ho).1.inv.mul (rg o ho).2
    have epose : poseInCamera (poseCalToEigen (st heCam)).inv (poseCalToEigen (st heTgt)) o =
        poseCalToEigen (st heCam) * (o.toCameraMount.inv * o.toTargetMount * poseCalToEigen (st heTgt)) := by
      unfold poseInCamera
      rw [einv, Iso.mul_assoc o.toCameraMount.inv]
    rw [epose] at hcam
    have key : ∀ k ∈ o.corrs, ∃ r : ℝ, (chainTurn (d heCam) (d heTgt) (o.toCameraMount.inv * o.toTargetMount) (st heCam) (st heTgt)).cross
        ((poseCalToEigen (st heCam) * (o.toCameraMount.inv * o.toTargetMount * poseCalToEigen (st heTgt))).apply k.inTarget) +
        chainShift (d heCam) (d heTgt) (o.toCameraMount.inv * o.toTargetMount) (st heCam) (st heTgt) = V3.smul r
        ((poseCalToEigen (st heCam) * (o.toCameraMount.inv * o.toTargetMount * poseCalToEigen (st heTgt))).apply k.inTarget) := by
      intro k hk
      have hf : ((o, k) : Obs Corr2 × Corr2) ∈ features p.observations := mem_features.2 ⟨hom, hk⟩
      have h1 := pixel_still hx hy (hdep _ hf) (hst hf)
      rw [chainVel_field _ _ rM _ _ (hp heCam), chainPoint_apply] at h1
      exact ⟨_, h1⟩
    obtain ⟨ra, ka⟩ := key a ha
    obtain ⟨rb, kb⟩ := key b hb
    obtain ⟨rc, kc⟩ := key c hc
    obtain ⟨re, ke⟩ := key e he
    exact field_zero2 (chain_rigid rM (hp heCam) (hp heTgt)) hcam hq ka kb kc ke
  obtain ⟨o₀, ho₀⟩ := List.exists_mem_of_ne_nil _ hne
  obtain ⟨hcz, htz⟩ := chain_still (P := fun o => o ∈ good) (same := fun _ _ => True)
    (M := fun o : Obs Corr2 => o.toCameraMount.inv * o.toTargetMount) (cam := fun _ => st heCam) (dc := fun _ => d heCam)
    (fun o ho => (rg o ho).1.inv.mul (rg o ho).2) (fun _ => hp heCam) (hturn heTgt) (fun _ => hturn heCam) (fun _ _ _ => ⟨rfl, rfl⟩)
    (fun b hb => mounts_no_common rg hne hno fun o ho o' ho' => hb o ho o' ho' trivial) (fun o ho => (hfield o ho).1)
    (fun o ho => (hfield o ho).2)
  obtain ⟨b, hb, k, hk, hne⟩ := hd
  rcases heUsed_cases (fun _ => rfl) hb with rfl | rfl
  · exact hne (six_zero (hcz o₀ ho₀) hk)
  · exact hne (six_zero htz hk)

/-- Turns about two different axes leave no direction unchanged. -/
theorem C199_axes {κ : Type} (obs : List (Obs κ)) (hm : MountsRepresentable obs) (a b c d : Obs κ)
    (hobs : ∀ o ∈ [a, b, c, d], o ∈ obs) (hax : AxesDiffer (mountMotion a b).R (mountMotion c d).R) (v : V3)
    (hv : ∀ o ∈ obs, ∀ o' ∈ obs, (mountMotion o o').R.mulVec v = v) : v = 0 := by
  have r : ∀ o ∈ obs, ∀ o' ∈ obs, (mountMotion o o').R.IsRot := fun o ho o' ho' =>
    ((hm o ho).1.rigid.inv.mul (hm o ho).2.rigid).mul ((hm o' ho').1.rigid.inv.mul (hm o' ho').2.rigid).inv
  have ha := hobs a (by simp)
  have hb := hobs b (by simp)
  have hc := hobs c (by simp)
  have hd := hobs d (by simp)
  exact axes_no_common (r a ha b hb) (r c hc d hd) hax (hv a ha b hb) (hv c hc d hd)

/-! ## C200 PnP -/

theorem pnpVel_field (dr dt q r t : V3) :
    pnpVel dr dt q r = (turnSpeed r dr).cross ((pnpTransform r t).apply q) + (dt - (turnSpeed r dr).cross t) := by
  have e : (pnpTransform r t).apply q = (AngleAxis.toMat ⟨r.norm, r.normalized⟩).mulVec q + t := rfl
  rw [e]
  unfold pnpVel
  generalize (AngleAxis.toMat ⟨r.norm, r.normalized⟩).mulVec q = x
  generalize turnSpeed r dr = w
  ext <;> simp only [V3.cross, V3.add_x, V3.add_y, V3.add_z, V3.sub_x, V3.sub_y, V3.sub_z] <;> ring

theorem pnpTransform_isRigid {r : V3} (hr : r ≠ 0) (t : V3) : (pnpTransform r t).IsRigid :=
  AngleAxis.toMat_isRot (V3.normSq_normalized hr)

theorem pnp_zero {r dr dt t : V3} (hr : r ≠ 0) (ht : ¬ FullTurns r) (h : turnSpeed r dr = 0 ∧ dt - (turnSpeed r dr).cross t = 0) :
    dr = 0 ∧ dt = 0 := by
  refine ⟨turn_injective ht (by rw [poseTurn, if_neg hr]; exact h.1), ?_⟩
  have := h.2
  rw [h.1, show (0 : V3).cross t = 0 by ext <;> simp [V3.cross]] at this
  exact V3.sub_eq_zero.1 this

/-- All derivatives of a PnP problem vanish in no direction of the parameters. -/
theorem pnp_full {κ : Type} {l : List κ} {g : κ → ResBlock V3} (hg : ∀ c, (g c).blocks = [pnpRot, pnpTrans]) {st : Nat → V3}
    {vel : κ → V3 → V3 → List ℝ}
    (hder : ∀ c ∈ l, ∀ (γ : ℝ → Nat → V3) (dr dt : V3), (∀ u, γ u pnpRot = st pnpRot + V3.smul u dr) →
      (∀ u, γ u pnpTrans = st pnpTrans + V3.smul u dt) → DerivList (fun u => (g c).residual (γ u)) (vel c dr dt))
    (hzero : ∀ dr dt : V3, (∀ c ∈ l, ∀ e ∈ vel c dr dt, e = 0) → dr = 0 ∧ dt = 0) :
    FullRank vecElem (fun _ => 3) (l.map g) st := by
  intro γ d h0 hγ hd
  by_contra hall
  push Not at hall
  have hz : ∀ i v, Speed (l.map g) γ i v → v = 0 := fun i v h => by
    by_contra hv
    exact hall i v hv h
  have hder' : DerivList (fun u => residuals (l.map g) (γ u)) (l.flatMap fun c =>
      vel c ⟨d pnpRot 0, d pnpRot 1, d pnpRot 2⟩ ⟨d pnpTrans 0, d pnpTrans 1, d pnpTrans 2⟩) := by
    simp only [residuals_map]
    exact DerivList.flatMap fun c hc => hder c hc γ _ _ (fun u => by rw [hγ.vec u pnpRot, h0]) fun u => by rw [hγ.vec u pnpTrans, h0]
  have hs := hder'.all_still hz
  obtain ⟨h1, h2⟩ := hzero _ _ fun c hc e he => hs e (List.mem_flatMap.2 ⟨c, hc, he⟩)
  obtain ⟨b, hb, k, hk, hne⟩ := hd
  obtain ⟨x, hx, hb⟩ := mem_usedBlocks.1 hb
  obtain ⟨a, -, rfl⟩ := List.mem_map.1 hx
  rw [hg] at hb
  have q : ∀ c : Nat, (⟨d c 0, d c 1, d c 2⟩ : V3) = 0 → d c k = 0 := by
    intro c h
    have a0 := congrArg V3.x h; have a1 := congrArg V3.y h; have a2 := congrArg V3.z h
    simp only [V3.zero_x, V3.zero_y, V3.zero_z] at a0 a1 a2
    interval_cases k <;> assumption
  simp only [List.mem_cons, List.not_mem_nil, or_false] at hb
  rcases hb with rfl | rfl
  · exact hne (q _ h1)
  · exact hne (q _ h2)

/-- PnP from points: if three of the measured points are not on one line, every change of the pose changes a residual to first
order. -/
theorem C200_full_3d (p : PnPProblem Corr3) (a b c : Corr3) (ha : a ∈ p.correspondences) (hb : b ∈ p.correspondences)
    (hc : c ∈ p.correspondences) (habc : Triangle3 a.inTarget b.inTarget c.inTarget) (st : Nat → V3) (hrot : st pnpRot ≠ 0)
    (hturn : ¬ FullTurns (st pnpRot)) : FullRank vecElem (fun _ => 3) (pnpBuild3 p) st := by
  refine pnp_full (g := fun c : Corr3 => ⟨[pnpRot, pnpTrans], evalV2 (pnpCost3 c.inTarget c.inImage)⟩) (fun _ => rfl)
    (vel := fun c dr dt => [(pnpVel dr dt c.inTarget (st pnpRot)).x, (pnpVel dr dt c.inTarget (st pnpRot)).y,
      (pnpVel dr dt c.inTarget (st pnpRot)).z]) (fun c hc γ dr dt h1 h2 => ?_) (fun dr dt h => ?_)
  · have e : (fun u => (⟨[pnpRot, pnpTrans], evalV2 (pnpCost3 c.inTarget c.inImage)⟩ : ResBlock V3).residual (γ u)) = _ :=
      funext fun u => show pnpCost3 c.inTarget c.inImage (γ u pnpRot) (γ u pnpTrans) = _ by rw [h1, h2]
    rw [e]
    exact DerivList.point3 c.inImage (pnp_speed _ _ _ hrot _)
  · have key : ∀ k ∈ p.correspondences, (turnSpeed (st pnpRot) dr).cross ((pnpTransform (st pnpRot) (st pnpTrans)).apply k.inTarget) +
        (dt - (turnSpeed (st pnpRot) dr).cross (st pnpTrans)) = 0 := by
      intro k hk
      rw [← pnpVel_field]
      exact V3.ext (h k hk _ (by simp)) (h k hk _ (by simp)) (h k hk _ (by simp))
    exact pnp_zero hrot hturn (field_zero3 (pnpTransform_isRigid hrot _) habc (key a ha) (key b hb) (key c hc))

/-- PnP from an image: if four of the points are on the target plane, no three of them on one line, and the pose shows the target
from outside its plane and all points in front of the camera, every change of the pose changes a residual to first order. -/
theorem C200_full_2d (p : PnPProblem Corr2) (hx : p.intr.fx ≠ 0) (hy : p.intr.fy ≠ 0) (hq : SeesQuadrangle p.correspondences)
    (st : Nat → V3) (hrot : st pnpRot ≠ 0) (hturn : ¬ FullTurns (st pnpRot))
    (hz : ∀ k ∈ p.correspondences, ((pnpTransform (st pnpRot) (st pnpTrans)).apply k.inTarget).z > 1 / 10 ^ 10)
    (hcam : (pnpTransform (st pnpRot) (st pnpTrans)).inv.t.z ≠ 0) : FullRank vecElem (fun _ => 3) (pnpBuild2 p) st := by
  refine pnp_full (g := fun c : Corr2 => ⟨[pnpRot, pnpTrans], evalV2 (pnpCost2 p.intr c.inTarget c.inImage)⟩) (fun _ => rfl)
    (vel := fun c dr dt =>
      [(pixelSpeedE p.intr ((pnpTransform (st pnpRot) (st pnpTrans)).apply c.inTarget) (pnpVel dr dt c.inTarget (st pnpRot))).x,
       (pixelSpeedE p.intr ((pnpTransform (st pnpRot) (st pnpTrans)).apply c.inTarget) (pnpVel dr dt c.inTarget (st pnpRot))).y])
    (fun c hc γ dr dt h1 h2 => ?_) (fun dr dt h => ?_)
  · have e : (fun u => (⟨[pnpRot, pnpTrans], evalV2 (pnpCost2 p.intr c.inTarget c.inImage)⟩ : ResBlock V3).residual (γ u)) = _ :=
      funext fun u => show pnpCost2 p.intr c.inTarget c.inImage (γ u pnpRot) (γ u pnpTrans) = _ by rw [h1, h2]
    rw [e]
    have z : ∀ a b : V3, a + V3.smul (0 : ℝ) b = a := fun a b => by ext <;> simp [V3.smul]
    have hk := DerivList.pixelE p.intr c.inImage (pnp_speed dr dt c.inTarget hrot (st pnpTrans)) (by rw [z, z]; exact (hz c hc).ne')
    simp only [z] at hk
    exact hk
  · have key : ∀ k ∈ p.correspondences, ∃ r : ℝ,
        (turnSpeed (st pnpRot) dr).cross ((pnpTransform (st pnpRot) (st pnpTrans)).apply k.inTarget) +
        (dt - (turnSpeed (st pnpRot) dr).cross (st pnpTrans)) = V3.smul r ((pnpTransform (st pnpRot) (st pnpTrans)).apply k.inTarget) := by
      intro k hk
      rw [← pnpVel_field]
      refine ⟨_, pixel_still hx hy (lt_trans (by positivity) (hz k hk)).ne' ?_⟩
      have e1 := h k hk _ (List.mem_cons_self)
      have e2 := h k hk _ (List.mem_cons_of_mem _ List.mem_cons_self)
      unfold pixelSpeedE at e1 e2
      rw [if_pos (hz k hk)] at e1 e2
      exact V2.ext e1 e2
    obtain ⟨a, ha, b, hb, c, hc, e, he, hq⟩ := hq
    obtain ⟨ra, ka⟩ := key a ha
    obtain ⟨rb, kb⟩ := key b hb
    obtain ⟨rc, kc⟩ := key c hc
    obtain ⟨re, ke⟩ := key e he
    exact pnp_zero hrot hturn (field_zero2 (pnpTransform_isRigid hrot _) hcam hq ka kb kc ke)

/-! ## C201 Calibration of several static cameras -/

/-- Calibration of several cameras and the target mount: if each camera has images of four points of the target plane, no three on
one line, from outside the plane, no feature is in the plane of the centre of its camera, and no direction of the wrist is
unchanged by all motions of the wrist between images of the same camera, every change of the poses changes a residual to first
order. -/
theorem C201_full (p : MsProblem) (hw : ∀ wp ∈ p.wristPoses, ∀ w ∈ wp, Representable w)
    (hf : ∀ i ∈ p.intr, i.fx ≠ 0 ∧ i.fy ≠ 0) (st : Nat → Pose6) (hp : ∀ a, PlainPose (st a)) (hturn : ∀ a, ¬ FullTurns (st a).rot)
    (hdepth : NoZeroDepth ((List.range p.baseToCameraGuess.length).map fun c => (poseCalToEigen (st (msCam c))).inv)
      (fun c i => (p.wristPoses.getD c []).getD i 1 * poseCalToEigen (st msTgt))
      (byCamera p.observations p.baseToCameraGuess.length fun c => (p.wristPoses.getD c []).length))
    (good : List (Nat × Nat)) (hcams : ∀ c < p.baseToCameraGuess.length, ∃ i, (c, i) ∈ good)
    (hgood : ∀ x ∈ good, x.1 < p.baseToCameraGuess.length ∧ x.2 < (p.wristPoses.getD x.1 []).length ∧
      SeesQuadrangle ((p.observations.getD x.1 []).getD x.2 []) ∧
      (poseCalToEigen (st (msCam x.1)) * ((p.wristPoses.getD x.1 []).getD x.2 1 * poseCalToEigen (st msTgt))).inv.t.z ≠ 0)
    (hno : ∀ b : V3, (∀ x ∈ good, ∀ y ∈ good, x.1 = y.1 → (((p.wristPoses.getD y.1 []).getD y.2 1).inv *
      (p.wristPoses.getD x.1 []).getD x.2 1).R.mulVec b = b) → b = 0)
    (pb : List (ResBlock Pose6)) (hb : msBuild p = .ok pb) : FullRank Pose6.mem (fun _ => 6) pb st := by
  rw [msBuild_eq hb]
  have hintr : ∀ f ∈ msFeatures p, ∃ intr ∈ p.intr, p.intr.getD f.cam ⟨0, 0, 0, 0⟩ = intr := by
    intro f hf
    obtain ⟨b, -, intr, -, -, h1, -⟩ := Forall₂.mem_left (msBuild_blocks hb) hf
    exact ⟨intr, List.mem_of_getElem? h1, getD_of_some h1⟩
  intro γ d h0 hγ hd
  by_contra hall
  push Not at hall
  have hz : ∀ i v, Speed ((msFeatures p).map (msBlock p)) γ i v → v = 0 := fun i v h => by
    by_contra hv
    exact hall i v hv h
  have hdep : ∀ f ∈ msFeatures p, (chainPoint ((p.wristPoses.getD f.cam []).getD f.img 1) f.corr.inTarget (st (msCam f.cam)) (st msTgt)).z ≠ 0 := by
    intro f hf
    have := hdepth f hf
    unfold staticDepth at this
    have hcam := (mem_byCamera hf).1
    have e : ((List.range p.baseToCameraGuess.length).map fun c => (poseCalToEigen (st (msCam c))).inv).getD f.cam 1 =
        (poseCalToEigen (st (msCam f.cam))).inv := by simp [List.getD_eq_getElem?_getD, hcam]
    rw [e, Iso.inv_inv (PlainPose.rigid (hp _))] at this
    simpa only [chainPoint, Iso.apply_mul] using this
  have hst := fun {a} (ha : a ∈ msFeatures p) => (msBlock_pair p hw).all_still (fun b _ => hp b) hdep h0 hγ hz ha
  have hfeat : ∀ x ∈ good, ∀ k ∈ (p.observations.getD x.1 []).getD x.2 [], (⟨x.1, x.2, k⟩ : Feature) ∈ msFeatures p := by
    intro x hx k hk
    obtain ⟨h1, h2, -, -⟩ := hgood x hx
    exact List.mem_flatMap.2 ⟨x.1, List.mem_range.2 h1, List.mem_flatMap.2 ⟨x.2, List.mem_range.2 h2, List.mem_map.2 ⟨k, hk, rfl⟩⟩⟩
  have rw' : ∀ x ∈ good, ((p.wristPoses.getD x.1 []).getD x.2 1).IsRigid := by
    intro x hx
    obtain ⟨-, -, ⟨a, ha, -⟩, -⟩ := hgood x hx
    obtain ⟨wp, h1, h2⟩ := msFeatures_wrist (hfeat x hx a ha)
    exact (hw wp h1 _ h2).rigid
  have hfield : ∀ x, x ∈ good →
      chainTurn (d (msCam x.1)) (d msTgt) ((p.wristPoses.getD x.1 []).getD x.2 1) (st (msCam x.1)) (st msTgt) = 0 ∧
      chainShift (d (msCam x.1)) (d msTgt) ((p.wristPoses.getD x.1 []).getD x.2 1) (st (msCam x.1)) (st msTgt) = 0 := by
    intro x hx
    obtain ⟨-, -, ⟨a, ha, b, hb, c, hc, e, he, hq⟩, hcam⟩ := hgood x hx
    have rM := rw' x hx
    have key : ∀ k ∈ (p.observations.getD x.1 []).getD x.2 [], ∃ r : ℝ,
        (chainTurn (d (msCam x.1)) (d msTgt) ((p.wristPoses.getD x.1 []).getD x.2 1) (st (msCam x.1)) (st msTgt)).cross
        ((poseCalToEigen (st (msCam x.1)) * ((p.wristPoses.getD x.1 []).getD x.2 1 * poseCalToEigen (st msTgt))).apply k.inTarget) +
        chainShift (d (msCam x.1)) (d msTgt) ((p.wristPoses.getD x.1 []).getD x.2 1) (st (msCam x.1)) (st msTgt) = V3.smul r
        ((poseCalToEigen (st (msCam x.1)) * ((p.wristPoses.getD x.1 []).getD x.2 1 * poseCalToEigen (st msTgt))).apply k.inTarget) := by
      intro k hk
      have hfk := hfeat x hx k hk
      obtain ⟨intr, i1, i2⟩ := hintr _ hfk
      have h1 := pixel_still (by rw [i2]; exact (hf _ i1).1) (by rw [i2]; exact (hf _ i1).2) (hdep _ hfk) (hst hfk)
      rw [chainVel_field _ _ rM _ _ (hp _), chainPoint_apply] at h1
      exact ⟨_, h1⟩
    obtain ⟨ra, ka⟩ := key a ha
    obtain ⟨rb, kb⟩ := key b hb
    obtain ⟨rc, kc⟩ := key c hc
    obtain ⟨re, ke⟩ := key e he
    exact field_zero2 (chain_rigid rM (hp _) (hp msTgt)) hcam hq ka kb kc ke
  obtain ⟨hcz, htz⟩ := chain_still (P := fun x => x ∈ good) (same := fun x y => x.1 = y.1)
    (M := fun x : Nat × Nat => (p.wristPoses.getD x.1 []).getD x.2 1) (cam := fun x => st (msCam x.1)) (dc := fun x => d (msCam x.1))
    rw' (fun x => hp _) (hturn msTgt) (fun x => hturn _) (fun x y h => by rw [h]; exact ⟨rfl, rfl⟩)
    (fun b hb => hno b fun x hx y hy hxy => by
      show ((((p.wristPoses.getD y.1 []).getD y.2 1).R.tr * ((p.wristPoses.getD x.1 []).getD x.2 1).R)).mulVec b = b
      rw [M3.mulVec_mul, hb x hx y hy hxy, ← M3.mulVec_mul, (rw' y hy).1, M3.one_mulVec])
    (fun x hx => (hfield x hx).1) (fun x hx => (hfield x hx).2)
  obtain ⟨b, hb, k, hk, hne⟩ := hd
  obtain ⟨blk, hx, hb⟩ := mem_usedBlocks.1 hb
  obtain ⟨f, hf, rfl⟩ := List.mem_map.1 hx
  simp only [msBlock, List.mem_cons, List.not_mem_nil, or_false] at hb
  rcases hb with rfl | rfl
  · obtain ⟨i, hi⟩ := hcams f.cam (mem_byCamera hf).1
    exact hne (six_zero (hcz _ hi) hk)
  · exact hne (six_zero htz hk)

/-- If all images of all cameras show such points, the condition on the motions is necessary, too. -/
theorem C201_iff (p : MsProblem) (hw : ∀ wp ∈ p.wristPoses, ∀ w ∈ wp, Representable w)
    (hf : ∀ i ∈ p.intr, i.fx ≠ 0 ∧ i.fy ≠ 0) (st : Nat → Pose6) (hp : ∀ a, PlainPose (st a)) (hturn : ∀ a, ¬ FullTurns (st a).rot)
    (hdepth : NoZeroDepth ((List.range p.baseToCameraGuess.length).map fun c => (poseCalToEigen (st (msCam c))).inv)
      (fun c i => (p.wristPoses.getD c []).getD i 1 * poseCalToEigen (st msTgt))
      (byCamera p.observations p.baseToCameraGuess.length fun c => (p.wristPoses.getD c []).length))
    (hcams : p.baseToCameraGuess ≠ []) (himages : ∀ c < p.baseToCameraGuess.length, p.wristPoses.getD c [] ≠ [])
    (hsee : ∀ c < p.baseToCameraGuess.length, ∀ i < (p.wristPoses.getD c []).length,
      SeesQuadrangle ((p.observations.getD c []).getD i []) ∧
      (poseCalToEigen (st (msCam c)) * ((p.wristPoses.getD c []).getD i 1 * poseCalToEigen (st msTgt))).inv.t.z ≠ 0)
    (pb : List (ResBlock Pose6)) (hb : msBuild p = .ok pb) :
    FullRank Pose6.mem (fun _ => 6) pb st ↔ ∀ b : V3, (∀ c < p.baseToCameraGuess.length, ∀ w ∈ p.wristPoses.getD c [],
      ∀ w' ∈ p.wristPoses.getD c [], (w'.inv * w).R.mulVec b = b) → b = 0 := by
  constructor
  · intro h b hfix
    by_contra hb0
    have hblind : MsBlind p := MsBlind.camera hb0 fun f hf f' hf' hc => by
      obtain ⟨c1, g1, -⟩ := mem_byCamera hf
      obtain ⟨-, g2, -⟩ := mem_byCamera hf'
      rw [← hc] at g2 ⊢
      have m1 : (p.wristPoses.getD f.cam []).getD f.img 1 ∈ p.wristPoses.getD f.cam [] := by
        rw [getD_of_some (List.getElem?_eq_getElem g1)]; exact List.getElem_mem g1
      have m2 : (p.wristPoses.getD f.cam []).getD f'.img 1 ∈ p.wristPoses.getD f.cam [] := by
        rw [getD_of_some (List.getElem?_eq_getElem g2)]; exact List.getElem_mem g2
      obtain ⟨wp, h1, h2⟩ := msFeatures_wrist hf'
      rw [← hc] at h2
      exact same_direction (hw wp h1 _ h2).rigid (hfix _ c1 _ m1 _ m2)
    obtain ⟨dt, ⟨k, hk, hdk⟩, dc, hv⟩ := hblind st hp
    have hu : msTgt ∈ usedBlocks pb := by
      rw [msBuild_eq hb]
      have h0 : 0 < p.baseToCameraGuess.length := List.length_pos_iff.2 hcams
      have h1 : 0 < (p.wristPoses.getD 0 []).length := List.length_pos_iff.2 (himages 0 h0)
      obtain ⟨⟨a, ha, -⟩, -⟩ := hsee 0 h0 0 h1
      have hf : (⟨0, 0, a⟩ : Feature) ∈ msFeatures p :=
        List.mem_flatMap.2 ⟨0, List.mem_range.2 h0, List.mem_flatMap.2 ⟨0, List.mem_range.2 h1, List.mem_map.2 ⟨a, ha, rfl⟩⟩⟩
      exact used_first hf (by simp [msBlock])
    obtain ⟨i, v, hvne, hs⟩ := h (posesAlong (fun b => if b = msTgt then dt else dc b) st) _ (posesAlong_zero _ _)
      (posesAlong_straight _ _) ⟨msTgt, hu, k, hk, by simpa [hk] using hdk⟩
    rw [msBuild_eq hb] at hs
    have hs' := ((msBlock_pair p hw).deriv (fun b _ => hp b) (fun f hf => ?_) (posesAlong_zero _ _)
      (posesAlong_straight (fun b => if b = msTgt then dt else dc b) st)).speed i
    · apply hvne
      rw [HasDerivAt.unique hs hs']
      refine getD_zero (fun e he => ?_) i
      obtain ⟨f, hf, he⟩ := List.mem_flatMap.1 he
      have : chainVel (fun k => if k < 6 then (if msCam f.cam = msTgt then dt else dc (msCam f.cam)) k else 0)
          (fun k => if k < 6 then (if msTgt = msTgt then dt else dc msTgt) k else 0)
          ((p.wristPoses.getD f.cam []).getD f.img 1) f.corr.inTarget (st (msCam f.cam)) (st msTgt) = 0 := by
        rw [if_neg (by simp [msCam, msTgt]), if_pos rfl]
        exact hv f hf
      rw [this, pixelSpeed_zero] at he
      simp only [List.mem_cons, List.not_mem_nil, or_false] at he
      rcases he with rfl | rfl <;> rfl
    · have := hdepth f hf
      unfold staticDepth at this
      have hcam := (mem_byCamera hf).1
      have e : ((List.range p.baseToCameraGuess.length).map fun c => (poseCalToEigen (st (msCam c))).inv).getD f.cam 1 =
          (poseCalToEigen (st (msCam f.cam))).inv := by simp [List.getD_eq_getElem?_getD, hcam]
      rw [e, Iso.inv_inv (PlainPose.rigid (hp _))] at this
      simpa only [chainPoint, Iso.apply_mul] using this
  · intro h
    have hmem : ∀ x : Nat × Nat, x ∈ (List.range p.baseToCameraGuess.length).flatMap (fun c =>
        (List.range (p.wristPoses.getD c []).length).map fun i => (c, i)) ↔
        x.1 < p.baseToCameraGuess.length ∧ x.2 < (p.wristPoses.getD x.1 []).length := by
      rintro ⟨c, i⟩
      simp only [List.mem_flatMap, List.mem_range, List.mem_map]
      constructor
      · rintro ⟨c', h1, i', h2, h3⟩
        cases h3
        exact ⟨h1, h2⟩
      · rintro ⟨h1, h2⟩
        exact ⟨c, h1, i, h2, rfl⟩
    refine C201_full p hw hf st hp hturn hdepth _ (fun c hc => ⟨0, (hmem _).2 ⟨hc, List.length_pos_iff.2 (himages c hc)⟩⟩)
      (fun x hx => ?_) (fun b hb => h b fun c hc w hw w' hw' => ?_) pb hb
    · obtain ⟨h1, h2⟩ := (hmem x).1 hx
      exact ⟨h1, h2, hsee x.1 h1 x.2 h2⟩
    · obtain ⟨i, hi, rfl⟩ := List.mem_iff_getElem.1 hw
      obtain ⟨j, hj, rfl⟩ := List.mem_iff_getElem.1 hw'
      have : (((p.wristPoses.getD c []).getD j 1).inv * (p.wristPoses.getD c []).getD i 1).R.mulVec b = b :=
        hb (c, i) ((hmem _).2 ⟨hc, hi⟩) (c, j) ((hmem _).2 ⟨hc, hj⟩) rfl
      rw [getD_of_some (List.getElem?_eq_getElem hi), getD_of_some (List.getElem?_eq_getElem hj)] at this
      exact this

/-! ## Concrete cases -/

theorem fullTurns_zero : ¬ FullTurns 0 := fun h => h.1 rfl

/-- `C199_full_3d`: a triangle in three observations with quarter turns about two axes. -/
example : ∃ p : HandEyeProblem Corr3, (features p.observations).length = 12 ∧
    FullRank Pose6.mem (fun _ => 6) (heBuild3 p) fun _ => ⟨0, 0, 0, 1, 2, 3⟩ := by
  obtain ⟨ob, hob⟩ : ∃ ob : Iso → Obs Corr3, ob = squareObs3 quarterZ quarterX := ⟨_, rfl⟩
  obtain ⟨p, hp⟩ : ∃ p : HandEyeProblem Corr3, p = ⟨[ob 1, ob quarterX, ob quarterZ], ⟨1, 1, 0, 0⟩, 1, 1, "c", "t",
    labelsIsometry3d⟩ := ⟨_, rfl⟩
  have hpo : p.observations = [ob 1, ob quarterX, ob quarterZ] := by rw [hp]
  have hm : MountsRepresentable p.observations := by
    rw [hpo, hob]; intro o ho
    simp only [List.mem_cons, List.not_mem_nil, or_false] at ho
    rcases ho with rfl | rfl | rfl
    · exact ⟨.one, .one⟩
    · exact ⟨quarterX_rep, .one⟩
    · exact ⟨quarterZ_rep, .one⟩
  refine ⟨p, by rw [hpo, hob]; rfl, C199_full_3d p hm p.observations (by rw [hpo]; simp) (fun o ho => ⟨ho, ?_⟩) (fun a ha => ?_) _
    (fun _ => .inl rfl) (fun _ => fullTurns_zero)⟩
  · rw [hpo, hob] at ho
    simp only [List.mem_cons, List.not_mem_nil, or_false] at ho
    rcases ho with rfl | rfl | rfl <;> exact squareObs3_sees _ _ _
  · refine C199_axes p.observations hm (ob quarterX) (ob 1) (ob quarterZ) (ob 1) (fun o ho => ?_) (by rw [hob]; exact quarter_axes) a ha
    rw [hpo]
    simp only [List.mem_cons, List.not_mem_nil, or_false] at ho ⊢
    rcases ho with rfl | rfl | rfl | rfl <;> simp

/-- `C199_iff_3d`: without turns there is a change of the parameters that no residual shows. -/
example : ∃ p : HandEyeProblem Corr3, (features p.observations).length = 8 ∧
    ¬ FullRank Pose6.mem (fun _ => 6) (heBuild3 p) fun _ => ⟨0, 0, 0, 1, 2, 3⟩ := by
  obtain ⟨p, hp⟩ : ∃ p : HandEyeProblem Corr3, p = ⟨[squareObs3 1 1 1, squareObs3 1 1 quarterZ], ⟨1, 1, 0, 0⟩, 1, 1, "c", "t",
    labelsIsometry3d⟩ := ⟨_, rfl⟩
  have hpo : p.observations = [squareObs3 1 1 1, squareObs3 1 1 quarterZ] := by rw [hp]
  have hm : MountsRepresentable p.observations := by
    rw [hpo]; intro o ho
    simp only [List.mem_cons, List.not_mem_nil, or_false] at ho
    rcases ho with rfl | rfl
    · exact ⟨.one, .one⟩
    · exact ⟨quarterZ_rep, .one⟩
  refine ⟨p, by rw [hpo]; rfl, fun h => ?_⟩
  replace h := (C199_iff_3d p hm (by rw [hpo]; simp) (fun o ho => by
    rw [hpo] at ho
    simp only [List.mem_cons, List.not_mem_nil, or_false] at ho
    rcases ho with rfl | rfl <;> exact squareObs3_sees _ _ _) (fun _ => ⟨0, 0, 0, 1, 2, 3⟩) (fun _ => .inl rfl)
    (fun _ => fullTurns_zero)).1 h
  have := h ⟨0, 0, 1⟩ fun o ho o' ho' => by
    rw [hpo] at ho ho'
    simp only [List.mem_cons, List.not_mem_nil, or_false] at ho ho'
    rcases ho with rfl | rfl <;> rcases ho' with rfl | rfl <;>
      (ext <;> simp [squareObs3, mountMotion, Iso.inv, M3.mulVec, M3.tr, quarterZ, M3.mul_def, Iso.mul_def])
  simpa using congrArg V3.z this

/-- The target at `(10, 10, 10)`, cameras not turned. -/
noncomputable def tenState (b : Nat) : Nat → Pose6 := fun a => if a = b then ⟨0, 0, 0, 10, 10, 10⟩ else ⟨0, 0, 0, 0, 0, 0⟩

theorem tenState_plain (b a : Nat) : PlainPose (tenState b a) := by unfold tenState; split <;> exact .inl rfl
theorem tenState_turns (b a : Nat) : ¬ FullTurns (tenState b a).rot := by unfold tenState; split <;> exact fullTurns_zero
theorem tenState_tgt (b : Nat) : poseCalToEigen (tenState b b) = shiftBy 10 10 10 := by
  rw [poseCalToEigen_zero (by simp [tenState]; rfl)]
  simp [tenState, Pose6.trans, shiftBy]
theorem tenState_cam {a b : Nat} (h : a ≠ b) : poseCalToEigen (tenState b a) = 1 := by
  rw [poseCalToEigen_zero (by simp [tenState, h]; rfl)]
  simp [tenState, h, Pose6.trans, Iso.one_def]
  rfl

/-- `C199_full_2d`: three images of a square with quarter turns about two axes. -/
example : ∃ (p : HandEyeProblem Corr2) (pb : List (ResBlock Pose6)), heBuild2 p = .ok pb ∧ (features p.observations).length = 12 ∧
    FullRank Pose6.mem (fun _ => 6) pb (tenState heTgt) := by
  obtain ⟨p, res, hpo, hi, h, hm, -, -, -, hz, -, hq, hax⟩ := square_hand_eye
    (fun n => if n = 0 then 1 else if n = 1 then quarterX.inv else quarterZ.inv) (fun _ => 1)
    (fun n => by split_ifs; exacts [.one, quarterX_rep.inv, quarterZ_rep.inv]) (fun _ => .one)
    (by simp [Iso.inv_one, Iso.mul_one]) (by simp [Iso.mul_one, Iso.inv_inv quarterX_rep.rigid])
    (by simp [Iso.mul_one, Iso.inv_inv quarterZ_rep.rigid])
  unfold handEye2 at h
  rw [Res.bind_ok_iff] at h
  obtain ⟨pb, hb, -⟩ := h
  have e1 : poseCalToEigen (tenState heTgt heCam) = 1 := tenState_cam (by decide)
  refine ⟨p, pb, hb, by rw [hpo]; rfl, C199_full_2d p hm (by rw [hi]; norm_num) (by rw [hi]; norm_num) p.observations
    (by rw [hpo]; simp) _ (fun o ho => ⟨ho, ?_⟩) (fun f hf => ?_) (fun a ha => ?_) (tenState_plain _) (tenState_turns _) pb hb⟩
  · rw [e1, tenState_tgt, Iso.inv_one]
    rw [hpo] at ho
    simp only [List.mem_cons, List.not_mem_nil, or_false] at ho
    rcases ho with rfl | rfl | rfl
    · exact (hq 0 (by norm_num)).2
    · exact (hq 1 (by norm_num)).2
    · exact (hq 2 (by norm_num)).2
  · rw [e1, tenState_tgt, Iso.inv_one]
    exact (hz f hf).ne'
  · exact C199_axes p.observations hm _ _ _ _ (fun o ho => by
      simp only [List.mem_cons, List.not_mem_nil, or_false] at ho
      rcases ho with rfl | rfl | rfl | rfl
      · exact (hq 1 (by norm_num)).1
      · exact (hq 0 (by norm_num)).1
      · exact (hq 2 (by norm_num)).1
      · exact (hq 0 (by norm_num)).1) hax a ha

theorem one_norm : V3.norm ⟨1, 0, 0⟩ = 1 := by simp [V3.norm, V3.normSq, V3.dot]

theorem fullTurns_one : ¬ FullTurns ⟨1, 0, 0⟩ := by
  rintro ⟨-, n, hn⟩
  rw [one_norm] at hn
  have := Real.pi_gt_three
  rcases le_or_gt n 0 with h | h
  · have : (n : ℝ) ≤ 0 := by exact_mod_cast h
    nlinarith
  · have : (1 : ℝ) ≤ n := by exact_mod_cast h
    nlinarith

/-- A target turned by one radian, five units in front of the camera. -/
noncomputable def tiltState : Nat → V3 := fun a => if a = pnpTrans then ⟨0, 0, 5⟩ else ⟨1, 0, 0⟩

theorem tiltState_rot : tiltState pnpRot = ⟨1, 0, 0⟩ := by simp [tiltState, pnpRot, pnpTrans]

/-- `C200_full_3d`: three points of a square. -/
example (i : Intr) : FullRank vecElem (fun _ => 3) (pnpBuild3 ⟨i, [⟨⟨0, 0, 1⟩, ⟨0, 0, 0⟩⟩, ⟨⟨1, 0, 1⟩, ⟨1, 0, 0⟩⟩, ⟨⟨1, 1, 1⟩, ⟨1, 1, 0⟩⟩], 1, "a"⟩)
    tiltState := by
  refine C200_full_3d _ ⟨⟨0, 0, 1⟩, ⟨0, 0, 0⟩⟩ ⟨⟨1, 0, 1⟩, ⟨1, 0, 0⟩⟩ ⟨⟨1, 1, 1⟩, ⟨1, 1, 0⟩⟩ (by simp) (by simp) (by simp)
    square_quadrangle.abc _ ?_ ?_
  · rw [tiltState_rot]; intro h; simpa using congrArg V3.x h
  · rw [tiltState_rot]; exact fullTurns_one

/-- `C200_full_2d`: an image of a square. -/
example (T : Iso) : FullRank vecElem (fun _ => 3) (pnpBuild2 ⟨⟨1, 1, 0, 0⟩, squareImage ⟨1, 1, 0, 0⟩ T, 1, "a"⟩) tiltState := by
  have hne : (⟨1, 0, 0⟩ : V3) ≠ 0 := fun h => by simpa using congrArg V3.x h
  have hR : (pnpTransform (tiltState pnpRot) (tiltState pnpTrans)) =
      ⟨⟨1, 0, 0, 0, Real.cos 1, -Real.sin 1, 0, Real.sin 1, Real.cos 1⟩, ⟨0, 0, 5⟩⟩ := by
    rw [tiltState_rot]
    have e : V3.normalized ⟨1, 0, 0⟩ = ⟨1, 0, 0⟩ := by
      rw [V3.normalized_of_ne hne, one_norm]; simp [V3.smul]
    unfold pnpTransform
    simp only [one_norm, e]
    ext <;> simp [AngleAxis.toMat, tiltState]
  refine C200_full_2d _ one_ne_zero one_ne_zero (squareImage_sees _ T) _ ?_ ?_ (fun k hk => ?_) ?_
  · rw [tiltState_rot]; exact hne
  · rw [tiltState_rot]; exact fullTurns_one
  · rw [hR]
    obtain ⟨q, hq, rfl⟩ := List.mem_map.1 hk
    have h1 := Real.neg_one_le_sin 1
    simp only [squarePoints, List.mem_cons, List.not_mem_nil, or_false] at hq
    rcases hq with rfl | rfl | rfl | rfl <;> simp [Iso.apply, M3.mulVec] <;> linarith
  · rw [hR]
    have := Real.cos_one_pos
    simp only [Iso.inv, M3.tr, M3.mulVec]
    simp
    positivity

/-- `C201_full`: two cameras, each with a quarter turn of the wrist, about different axes. -/
example : ∃ (p : MsProblem) (pb : List (ResBlock Pose6)), msBuild p = .ok pb ∧ pb.length = 16 ∧
    FullRank Pose6.mem (fun _ => 6) pb (tenState msTgt) := by
  obtain ⟨im, him⟩ : ∃ im : List Corr2, im = squareImage ⟨1, 1, 0, 0⟩ 1 := ⟨_, rfl⟩
  obtain ⟨p, hp⟩ : ∃ p : MsProblem, p = ⟨[⟨1, 1, 0, 0⟩, ⟨1, 1, 0, 0⟩], [[1, quarterX], [1, quarterZ]], [[im, im], [im, im]], 1, [1, 1], "t", "c"⟩ :=
    ⟨_, rfl⟩
  obtain ⟨pb, hb⟩ := C41_built p (by rw [hp]; rfl) (by rw [hp]; rfl) (by rw [hp]; rfl) (by
    rw [hp]
    intro c oc wp h1 h2
    match c with
    | 0 => simp at h1 h2; simp [← h1, ← h2]
    | 1 => simp at h1 h2; simp [← h1, ← h2]
    | n + 2 => simp at h2)
  have hcam : ∀ c, poseCalToEigen (tenState msTgt (msCam c)) = 1 := fun c => tenState_cam (by simp [msCam, msTgt])
  have hlen : p.baseToCameraGuess.length = 2 := by rw [hp]; rfl
  have hwr : ∀ c < 2, ∀ i < (p.wristPoses.getD c []).length, (p.wristPoses.getD c []).getD i 1 ∈ [1, quarterX, quarterZ] ∧
      (p.observations.getD c []).getD i [] = im := by
    rw [hp]
    intro c hc i hi
    interval_cases c <;> simp at hi <;> interval_cases i <;> simp
  refine ⟨p, pb, hb, ?_, C201_full p (fun wp h1 w h2 => ?_) (fun i hi => ?_) _ (tenState_plain _) (tenState_turns _) (fun f hf => ?_)
    [(0, 0), (0, 1), (1, 0), (1, 1)] (fun c hc => ⟨0, ?_⟩) (fun x hx => ?_) (fun b hb => ?_) pb hb⟩
  · rw [msBuild_eq hb, List.length_map]
    unfold msFeatures
    rw [hp, him]
    rfl
  · have : w ∈ [1, quarterX, quarterZ] := by
      rw [hp] at h1
      simp only [List.mem_cons, List.not_mem_nil, or_false] at h1 ⊢
      rcases h1 with rfl | rfl <;> simp only [List.mem_cons, List.not_mem_nil, or_false] at h2 <;> tauto
    simp only [List.mem_cons, List.not_mem_nil, or_false] at this
    rcases this with rfl | rfl | rfl
    exacts [.one, quarterX_rep, quarterZ_rep]
  · have : i = ⟨1, 1, 0, 0⟩ := by rw [hp] at hi; simpa using hi
    rw [this]; norm_num
  · obtain ⟨h1, h2, h3⟩ := mem_byCamera hf
    rw [hlen] at h1
    obtain ⟨k1, k2⟩ := hwr f.cam h1 f.img h2
    rw [k2, him] at h3
    obtain ⟨q, hq, hqf⟩ := List.mem_map.1 h3
    have e : ((List.range p.baseToCameraGuess.length).map fun c => (poseCalToEigen (tenState msTgt (msCam c))).inv).getD f.cam 1 = 1 := by
      simp only [hcam, Iso.inv_one, hlen]
      rw [List.getD_eq_getElem?_getD, List.getElem?_map, List.getElem?_range h1]
      rfl
    rw [e, tenState_tgt]
    unfold staticDepth
    rw [← hqf, Iso.inv_one, Iso.one_mul]
    beta_reduce
    generalize (p.wristPoses.getD f.cam []).getD f.img 1 = w at k1 ⊢
    simp only [squarePoints, List.mem_cons, List.not_mem_nil, or_false] at hq k1
    rcases k1 with rfl | rfl | rfl <;> rcases hq with rfl | rfl | rfl | rfl <;>
      norm_num [Iso.one_mul, M3.mulVec, quarterX, quarterZ, shiftBy, Iso.mul_def, M3.mul_def, Iso.apply, M3.one_def]
  · rw [hlen] at hc
    interval_cases c <;> simp
  · have hx' : x.1 < 2 ∧ x.2 < (p.wristPoses.getD x.1 []).length := by
      rw [hp]
      simp only [List.mem_cons, List.not_mem_nil, or_false] at hx
      rcases hx with rfl | rfl | rfl | rfl <;> simp
    obtain ⟨k1, k2⟩ := hwr x.1 hx'.1 x.2 hx'.2
    refine ⟨by rw [hlen]; exact hx'.1, hx'.2, by rw [k2, him]; exact squareImage_sees _ _, ?_⟩
    rw [hcam, tenState_tgt]
    generalize (p.wristPoses.getD x.1 []).getD x.2 1 = w at k1 ⊢
    simp only [List.mem_cons, List.not_mem_nil, or_false] at k1
    rcases k1 with rfl | rfl | rfl <;>
      norm_num [Iso.inv, M3.tr, M3.mulVec, quarterX, quarterZ, shiftBy, Iso.mul_def, M3.mul_def, Iso.one_def, M3.one_def]
  · have e1 := hb (0, 1) (by simp) (0, 0) (by simp) rfl
    have e2 := hb (1, 1) (by simp) (1, 0) (by simp) rfl
    rw [hp] at e1 e2
    have y1 := congrArg V3.y e1; have z1 := congrArg V3.z e1
    have x2 := congrArg V3.x e2; have y2 := congrArg V3.y e2
    simp [Iso.inv_one, Iso.one_mul, quarterX, quarterZ, M3.mulVec] at y1 z1 x2 y2
    ext <;> simp <;> linarith

/-- Two cameras with two images of a square each, for each camera with the wrist at one place. -/
noncomputable def stillCameras : MsProblem :=
  ⟨[⟨1, 1, 0, 0⟩, ⟨1, 1, 0, 0⟩], [[1, 1], [quarterX, quarterX]],
    [[squareImage ⟨1, 1, 0, 0⟩ 1, squareImage ⟨1, 1, 0, 0⟩ 1], [squareImage ⟨1, 1, 0, 0⟩ 1, squareImage ⟨1, 1, 0, 0⟩ 1]],
    shiftBy 10 10 10, [1, 1], "t", "c"⟩

theorem stillCameras_images : ∀ c < 2, ∀ i < (stillCameras.wristPoses.getD c []).length,
    (stillCameras.wristPoses.getD c []).getD i 1 ∈ [1, quarterX] ∧
      (stillCameras.observations.getD c []).getD i [] = squareImage ⟨1, 1, 0, 0⟩ 1 := by
  unfold stillCameras
  intro c hc i hi
  interval_cases c <;> simp at hi <;> interval_cases i <;> simp

theorem stillCameras_depth {f : Feature} (hf : f ∈ msFeatures stillCameras) :
    f.cam < 2 ∧ staticDepth 1 ((stillCameras.wristPoses.getD f.cam []).getD f.img 1 * shiftBy 10 10 10) f.corr ≠ 0 := by
  obtain ⟨h1, h2, h3⟩ := mem_byCamera hf
  replace h1 : f.cam < 2 := h1
  obtain ⟨k1, k2⟩ := stillCameras_images f.cam h1 f.img h2
  rw [k2] at h3
  obtain ⟨q, hq, hqf⟩ := List.mem_map.1 h3
  refine ⟨h1, ?_⟩
  unfold staticDepth
  rw [← hqf, Iso.inv_one, Iso.one_mul]
  generalize (stillCameras.wristPoses.getD f.cam []).getD f.img 1 = w at k1 ⊢
  simp only [squarePoints, List.mem_cons, List.not_mem_nil, or_false] at hq k1
  rcases k1 with rfl | rfl <;> rcases hq with rfl | rfl | rfl | rfl <;>
    norm_num [Iso.one_mul, M3.mulVec, quarterX, shiftBy, Iso.mul_def, M3.mul_def, Iso.apply, M3.one_def]

theorem stillCameras_wrist : ∀ wp ∈ stillCameras.wristPoses, ∀ w ∈ wp, Representable w := by
  intro wp h1 w h2
  simp only [stillCameras, List.mem_cons, List.not_mem_nil, or_false] at h1
  rcases h1 with rfl | rfl <;> simp only [List.mem_cons, List.not_mem_nil, or_false, or_self] at h2 <;> rw [h2]
  exacts [.one, quarterX_rep]

theorem stillCameras_fix : ∀ wp ∈ stillCameras.wristPoses, ∀ w ∈ wp, ∀ w' ∈ wp, w'.inv * w = 1 := by
  intro wp h1 w h2 w' h3
  have e : w' = w := by
    simp only [stillCameras, List.mem_cons, List.not_mem_nil, or_false] at h1
    rcases h1 with rfl | rfl <;> simp only [List.mem_cons, List.not_mem_nil, or_false, or_self] at h2 h3 <;> rw [h2, h3]
  rw [e, Iso.inv_mul (stillCameras_wrist wp h1 w h2).rigid]

theorem stillCameras_intr : ∀ i ∈ stillCameras.intr, i.fx ≠ 0 ∧ i.fy ≠ 0 := by
  intro i hi
  have : i = ⟨1, 1, 0, 0⟩ := by simpa [stillCameras] using hi
  rw [this]; norm_num

/-- `C195_camera`: the wrist turns between the images of the two cameras, but not between images of the same camera. -/
example : ∀ res, multiStatic poseRank stillCameras ≠ .ok res := by
  intro res h
  have hc : ∀ g ∈ stillCameras.baseToCameraGuess, Representable g := fun g hg => by
    have : g = 1 := by simpa [stillCameras] using hg
    rw [this]; exact .one
  obtain ⟨r1, r2⟩ := C34_multi_static poseRank stillCameras res (fun _ _ => rfl) (shiftBy_rep _ _ _) hc h
  refine C195_camera poseRank poseRank_plain poseRank_rejects stillCameras stillCameras_wrist hc (shiftBy_rep _ _ _)
    (fun i hi => (stillCameras_intr i hi).1) ?_ ⟨0, 0, 1⟩ (fun h => by simpa using congrArg V3.z h)
    (fun wp h1 w h2 w' h3 => by rw [stillCameras_fix wp h1 w h2 w' h3]; exact M3.one_mulVec _) res h (fun f hf => ?_)
  · show 9 ≤ 16
    norm_num
  · obtain ⟨h1, h2⟩ := stillCameras_depth hf
    rw [r1, r2]
    have e : stillCameras.baseToCameraGuess.getD f.cam 1 = 1 := by
      generalize f.cam = c at h1
      interval_cases c <;> rfl
    rw [e]
    exact h2

/-- `C201_iff`: with the same data there is a change of the parameters that no residual shows. -/
example : ∃ pb, msBuild stillCameras = .ok pb ∧ ¬ FullRank Pose6.mem (fun _ => 6) pb (tenState msTgt) := by
  obtain ⟨pb, hb⟩ := C41_built stillCameras rfl rfl rfl (by
    intro c oc wp h1 h2
    match c with
    | 0 => simp [stillCameras] at h1 h2; simp [← h1, ← h2]
    | 1 => simp [stillCameras] at h1 h2; simp [← h1, ← h2]
    | n + 2 => simp [stillCameras] at h2)
  have hcam : ∀ c, poseCalToEigen (tenState msTgt (msCam c)) = 1 := fun c => tenState_cam (by simp [msCam, msTgt])
  refine ⟨pb, hb, fun h => ?_⟩
  replace h := (C201_iff stillCameras stillCameras_wrist stillCameras_intr _ (tenState_plain _) (tenState_turns _) (fun f hf => ?_)
    (by simp [stillCameras]) (fun c hc => ?_) (fun c hc i hi => ?_) pb hb).1 h
  · have := congrArg V3.z (h ⟨0, 0, 1⟩ fun c hc w h1 w' h2 => by
      replace hc : c < stillCameras.wristPoses.length := hc
      rw [getD_of_some (List.getElem?_eq_getElem hc)] at h1 h2
      rw [stillCameras_fix _ (List.getElem_mem hc) w h1 w' h2]
      exact M3.one_mulVec _)
    simp at this
  · obtain ⟨h1, h2⟩ := stillCameras_depth hf
    have e : ((List.range stillCameras.baseToCameraGuess.length).map fun c => (poseCalToEigen (tenState msTgt (msCam c))).inv).getD f.cam 1 = 1 := by
      simp only [hcam, Iso.inv_one]
      rw [List.getD_eq_getElem?_getD, List.getElem?_map, List.getElem?_range (show f.cam < stillCameras.baseToCameraGuess.length from h1)]
      rfl
    rw [e, tenState_tgt]
    exact h2
  · replace hc : c < 2 := hc
    unfold stillCameras
    interval_cases c <;> simp
  · obtain ⟨k1, k2⟩ := stillCameras_images c hc i hi
    refine ⟨by rw [k2]; exact squareImage_sees _ _, ?_⟩
    rw [hcam, tenState_tgt]
    generalize (stillCameras.wristPoses.getD c []).getD i 1 = w at k1 ⊢
    simp only [List.mem_cons, List.not_mem_nil, or_false] at k1
    rcases k1 with rfl | rfl <;>
      norm_num [Iso.inv, M3.tr, M3.mulVec, quarterX, shiftBy, Iso.mul_def, M3.mul_def, Iso.one_def, M3.one_def]

end RCT
