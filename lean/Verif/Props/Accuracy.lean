import Verif.Model.Accuracy
import Verif.Lemmas.Kinematic
import Verif.Props.PnP
import Verif.Spec.Statistics
import Verif.Props.Reports

/-!
# Virtual targets, intrinsic accuracy and noise statistics: C57, C58, C59, C60
-/

namespace RCT
open Spec

/-! ## C57 Virtual targets -/

/-- An accepted fit of a list of correspondences: converged, with mean cost not above the threshold. -/
def AcceptedFit (s : Ceres V3) (intr : Intr) (guess : Iso) (threshold : ℝ) (corrs : List Corr2) (T : Iso) : Prop :=
  ∃ r : PnPResult, pnp2 s ⟨intr, corrs, guess, "camera_to_target"⟩ = .ok r ∧ r.converged = true ∧
    (∃ c, r.finalCost = some c ∧ c ≤ threshold) ∧ r.cameraToTarget = T

theorem pnp2_cost {s : Ceres V3} {p : PnPProblem Corr2} {r : PnPResult} (h : pnp2 s p = .ok r) :
    ∃ c, r.finalCost = some c := by
  have hne : p.correspondences ≠ [] := fun h0 => (C90_pnp s p ⟨p.intr, [], 1, ""⟩).1 h0 r h
  obtain ⟨-, -, h3⟩ := pnpFinish_ok h
  rw [h3]
  unfold costPerObs
  rw [if_neg]
  · exact ⟨_, rfl⟩
  · cases hc : p.correspondences with
    | nil => exact absurd hc hne
    | cons c l =>
      intro h0
      simp [pnpBuild2, hc, residuals, ResBlock.residual, evalV2, pnpCost2] at h0

theorem virtualPnp_ok (s : Ceres V3) (intr : Intr) (guess : Iso) (threshold : ℝ) (corrs : List Corr2) (T : Iso) :
    virtualPnp s intr guess threshold corrs = .ok T ↔ AcceptedFit s intr guess threshold corrs T := by
  unfold virtualPnp AcceptedFit
  rw [Res.bind_ok_iff]
  constructor
  · rintro ⟨r, h, h2⟩
    split at h2
    · cases h2
    · rename_i hc
      push Not at hc
      obtain ⟨c, hcc⟩ := pnp2_cost h
      refine ⟨r, h, by simpa using hc.1, ⟨c, hcc, ?_⟩, by cases h2; rfl⟩
      have := hc.2
      rw [hcc] at this
      simpa [costAbove] using this
  · rintro ⟨r, h, hc, ⟨c, hcc, hle⟩, rfl⟩
    refine ⟨r, h, ?_⟩
    rw [if_neg]
    simp [hc, hcc, costAbove, hle]

/-- The two halves partition the correspondences; a result is returned exactly if both fits are accepted. -/
theorem C57_halves (s : Ceres V3) (corrs : List Corr2) (intr : Intr) (guess : Iso) (threshold : ℝ) :
    ∃ first second, first ++ second = corrs ∧ first.length = corrs.length / 2 ∧
      ∀ r, virtualTargetDiff s corrs intr guess threshold = .ok r ↔
        ∃ T1 T2, AcceptedFit s intr guess threshold first T1 ∧ AcceptedFit s intr guess threshold second T2 ∧
          r.t1ToT2 = T1.inv * T2 ∧ r.positionalError = (T2.t - T1.t).norm ∧
          r.angularError = rotAngle (T1.inv * T2).R := by
  refine ⟨corrs.take (corrs.length / 2), corrs.drop (corrs.length / 2), List.take_append_drop _ _, by simp; omega, ?_⟩
  intro r
  have rig : ∀ {l T}, AcceptedFit s intr guess threshold l T → T.IsRigid := by
    rintro l T ⟨r, h, -, -, rfl⟩
    exact (rigid_iff _).2 (C35_rigid s _ r h)
  have pos : ∀ {A B : Iso}, A.IsRigid → (A.inv * B).t.norm = (B.t - A.t).norm := by
    intro A B hA
    have : (A.inv * B).t = A.R.tr.mulVec (B.t - A.t) := by
      rw [M3.mulVec_sub]
      ext <;> simp [Iso.inv] <;> ring
    rw [this, (M3.IsRot.tr hA).norm]
  have ang : ∀ {A B : Iso}, A.IsRigid → B.IsRigid →
      A.R.toQuat.angularDistance B.R.toQuat = rotAngle (A.inv * B).R := by
    intro A B hA hB
    rw [angularDistance_eq hA hB]
    unfold rotAngle
    congr 1
    simp only [Iso.mul_R, Iso.inv, M3.mul_def, M3.tr]
    ring
  unfold virtualTargetDiff
  simp only [Res.bind_ok_iff, virtualPnp_ok]
  constructor
  · rintro ⟨T1, h1, T2, h2, h⟩
    simp only [Res.ok.injEq] at h
    subst h
    exact ⟨T1, T2, h1, h2, rfl, pos (rig h1), ang (rig h1) (rig h2)⟩
  · rintro ⟨T1, T2, h1, h2, e1, e2, e3⟩
    refine ⟨T1, h1, T2, h2, ?_⟩
    simp only [Res.ok.injEq]
    rw [pos (rig h1), ang (rig h1) (rig h2), ← e1, ← e2, e1, ← e3, ← e1]

/-- Both errors are zero exactly when the two fits agree. -/
theorem C57_agree (s : Ceres V3) (corrs : List Corr2) (intr : Intr) (guess : Iso) (threshold : ℝ) (r : VirtualTargetResult)
    (h : virtualTargetDiff s corrs intr guess threshold = .ok r) :
    ∃ first second T1 T2, first ++ second = corrs ∧ first.length = corrs.length / 2 ∧
      AcceptedFit s intr guess threshold first T1 ∧ AcceptedFit s intr guess threshold second T2 ∧
      (r.positionalError = 0 ∧ r.angularError = 0 ↔ T1 = T2) := by
  obtain ⟨f, g, h1, h2, h3⟩ := C57_halves s corrs intr guess threshold
  obtain ⟨T1, T2, a1, a2, -, e2, e3⟩ := (h3 r).1 h
  refine ⟨f, g, T1, T2, h1, h2, a1, a2, ?_⟩
  have r1 : T1.IsRigid := by
    obtain ⟨r, h, -, -, rfl⟩ := a1
    exact (rigid_iff _).2 (C35_rigid s _ r h)
  have r2 : T2.IsRigid := by
    obtain ⟨r, h, -, -, rfl⟩ := a2
    exact (rigid_iff _).2 (C35_rigid s _ r h)
  have e3' : rotAngle (T1.inv * T2).R = rotAngle (T1.R * T2.R.tr) := by
    unfold rotAngle
    congr 1
    simp only [Iso.mul_R, Iso.inv, M3.mul_def, M3.tr]
    ring
  rw [e2, e3, e3', rotAngle_eq_zero_iff r1 r2, V3.norm_eq_zero, V3.sub_eq_zero]
  constructor
  · rintro ⟨a, b⟩
    exact Iso.ext b a.symm
  · rintro rfl
    exact ⟨rfl, rfl⟩

/-- At least one correspondence is needed in each half. -/
theorem C57_two (s : Ceres V3) (corrs : List Corr2) (intr : Intr) (guess : Iso) (threshold : ℝ) (r : VirtualTargetResult)
    (h : virtualTargetDiff s corrs intr guess threshold = .ok r) : 2 ≤ corrs.length := by
  obtain ⟨f, g, T1, T2, h1, h2, a1, a2, -⟩ := C57_agree s corrs intr guess threshold r h
  have hf : f ≠ [] := by
    rintro rfl
    obtain ⟨r, h, -⟩ := a1
    exact (C90_pnp s ⟨intr, [], guess, "camera_to_target"⟩ ⟨intr, [], 1, ""⟩).1 rfl r h
  have := List.length_pos_of_ne_nil hf
  omega

/-- Two features at the guess: both fits are accepted. -/
theorem virtualTargetDiff_example : ∃ r, virtualTargetDiff (idCeres V3) [⟨⟨0, 0⟩, ⟨0, 0, 1⟩⟩, ⟨⟨0, 0⟩, ⟨0, 0, 1⟩⟩] ⟨1, 1, 0, 0⟩ 1 1 = .ok r := by
  obtain ⟨f, g, h1, h2, h3⟩ := C57_halves (idCeres V3) [⟨⟨0, 0⟩, ⟨0, 0, 1⟩⟩, ⟨⟨0, 0⟩, ⟨0, 0, 1⟩⟩] ⟨1, 1, 0, 0⟩ 1 1
  obtain ⟨p, hp⟩ : ∃ r, pnp2 (idCeres V3) ⟨⟨1, 1, 0, 0⟩, [⟨⟨0, 0⟩, ⟨0, 0, 1⟩⟩], 1, "camera_to_target"⟩ = .ok r :=
    pnpFinish_returns _ _ [(⟨⟨0, 0⟩, ⟨0, 0, 1⟩⟩ : Corr2)] (by simp)
      (fun c => ⟨[pnpRot, pnpTrans], evalV2 (pnpCost2 ⟨1, 1, 0, 0⟩ c.inTarget c.inImage)⟩) (fun _ _ => rfl) rfl rfl
  have hT : p.cameraToTarget = 1 :=
    C34_pnp (idCeres V3) ⟨⟨1, 1, 0, 0⟩, [⟨⟨0, 0⟩, ⟨0, 0, 1⟩⟩], 1, "camera_to_target"⟩ p (fun _ _ => rfl)
      (by exact (rigid_iff 1).1 Iso.IsRigid.one) hp
  have hres := C35_residuals (idCeres V3) _ p hp (by
    intro c hc
    simp only [List.mem_cons, List.not_mem_nil, or_false] at hc
    subst hc
    rw [hT, Iso.apply_one]
    norm_num)
  have hfit : AcceptedFit (idCeres V3) ⟨1, 1, 0, 0⟩ 1 1 [⟨⟨0, 0⟩, ⟨0, 0, 1⟩⟩] 1 := by
    refine ⟨p, hp, ?_, ⟨0, ?_, by norm_num⟩, hT⟩
    · unfold pnp2 pnpFinish at hp
      simp only [Res.bind_ok_iff, Res.ok.injEq] at hp
      obtain ⟨cov, -, rfl⟩ := hp
      rfl
    · obtain ⟨-, -, h3⟩ := pnpFinish_ok hp
      rw [h3]
      unfold costPerObs cost
      rw [hres, hT]
      simp [pinhole, diff2]
  have hf : f.length = 1 := by rw [h2]; rfl
  match f, hf with
  | [a], _ =>
    simp only [List.cons_append, List.nil_append, List.cons.injEq] at h1
    obtain ⟨rfl, rfl⟩ := h1
    exact ⟨⟨(1 : Iso).inv * 1, ((1 : Iso).t - (1 : Iso).t).norm, rotAngle ((1 : Iso).inv * 1).R⟩,
      (h3 _).2 ⟨1, 1, hfit, hfit, rfl, rfl, rfl⟩⟩

example : ∃ r, virtualTargetDiff (idCeres V3) [⟨⟨0, 0⟩, ⟨0, 0, 1⟩⟩, ⟨⟨0, 0⟩, ⟨0, 0, 1⟩⟩] ⟨1, 1, 0, 0⟩ 1 1 = .ok r :=
  virtualTargetDiff_example

/-! ## C58 Intrinsic accuracy -/

/-- Neighbouring observations have equally many correspondences. -/
def SizesAgree (obs : List (Obs Corr2)) : Prop :=
  ∀ (i : Nat) (o1 o2 : Obs Corr2), obs[i]? = some o1 → obs[i + 1]? = some o2 → o1.corrs.length = o2.corrs.length

theorem foldRange_check (obs : List (Obs Corr2)) (l : List Nat) (hl : ∀ i ∈ l, i + 1 < obs.length) :
    ((∀ i ∈ l, ∀ o1 o2, obs[i]? = some o1 → obs[i + 1]? = some o2 → o1.corrs.length = o2.corrs.length) ∧
      Res.foldList (fun _ i => (Res.idxList obs i).bind fun o1 => (Res.idxList obs (i + 1)).bind fun o2 =>
        if o1.corrs.length ≠ o2.corrs.length then .throw .optimization else .ok ()) () l = .ok ()) ∨
    ((∃ i ∈ l, ∃ o1 o2, obs[i]? = some o1 ∧ obs[i + 1]? = some o2 ∧ o1.corrs.length ≠ o2.corrs.length) ∧
      Res.foldList (fun _ i => (Res.idxList obs i).bind fun o1 => (Res.idxList obs (i + 1)).bind fun o2 =>
        if o1.corrs.length ≠ o2.corrs.length then .throw .optimization else .ok ()) () l = .throw .optimization) := by
  induction l with
  | nil => left; simp
  | cons i l ih =>
    have hi := hl i (by simp)
    have e1 : obs[i]? = some (obs[i]'(by omega)) := List.getElem?_eq_getElem _
    have e2 : obs[i + 1]? = some (obs[i + 1]'hi) := List.getElem?_eq_getElem _
    rw [Res.foldList_cons, Res.idxList_ok e1, Res.ok_bind, Res.idxList_ok e2, Res.ok_bind]
    by_cases hc : (obs[i]'(by omega)).corrs.length = (obs[i + 1]'hi).corrs.length
    · rw [if_neg (by simp [hc]), Res.ok_bind]
      rcases ih fun j hj => hl j (List.mem_cons_of_mem _ hj) with ⟨h1, h2⟩ | ⟨⟨j, hj, h1⟩, h2⟩
      · left
        refine ⟨?_, h2⟩
        intro j hj o1 o2 g1 g2
        rcases List.mem_cons.1 hj with rfl | hj
        · rw [e1] at g1; rw [e2] at g2
          cases g1; cases g2
          exact hc
        · exact h1 j hj o1 o2 g1 g2
      · right
        exact ⟨⟨j, List.mem_cons_of_mem _ hj, h1⟩, h2⟩
    · right
      rw [if_pos hc, Res.throw_bind]
      exact ⟨⟨i, by simp, _, _, e1, e2, hc⟩, rfl⟩

theorem sizeCheck_nonempty (obs : List (Obs Corr2)) (hne : obs ≠ []) (hlen : obs.length < 2 ^ 64) :
    (SizesAgree obs ∧ sizeCheck obs = .ok ()) ∨ (¬ SizesAgree obs ∧ sizeCheck obs = .throw .optimization) := by
  have h0 := List.length_pos_of_ne_nil hne
  have hs : szSub obs.length 1 = obs.length - 1 := by unfold szSub; omega
  unfold sizeCheck
  rw [hs]
  rcases foldRange_check obs (List.range (obs.length - 1)) (by intro i hi; rw [List.mem_range] at hi; omega) with
    ⟨h1, h2⟩ | ⟨⟨i, hi, o1, o2, g1, g2, g3⟩, h2⟩
  · left
    refine ⟨?_, h2⟩
    intro i o1 o2 g1 g2
    refine h1 i ?_ o1 o2 g1 g2
    rw [List.mem_range]
    have := (List.getElem?_eq_some_iff.1 g2).1
    omega
  · right
    exact ⟨fun h => g3 (h i o1 o2 g1 g2), h2⟩

/-- The measurement of one observation: the guess is the pose of the target seen from the camera, i.e. the motion that
takes target coordinates to the base through the target mount and from there to the camera. -/
def IsGuess (mc mt bb : Iso) (o : Obs Corr2) (G : Iso) : Prop :=
  ∀ p : V3, (o.toCameraMount * mc).apply (G.apply p) = bb.apply (o.toTargetMount.apply (mt.apply p))

theorem Iso.ext_apply {A B : Iso} (h : ∀ p, A.apply p = B.apply p) : A = B := by
  have h0 := h ⟨0, 0, 0⟩
  have h1 := h ⟨1, 0, 0⟩
  have h2 := h ⟨0, 1, 0⟩
  have h3 := h ⟨0, 0, 1⟩
  simp only [Iso.apply, M3.mulVec, V3.ext_iff, V3.add_x, V3.add_y, V3.add_z, mul_zero, zero_add, add_zero] at h0 h1 h2 h3
  ext <;> grind

theorem isGuess_iff {mc : Iso} (mt bb : Iso) {o : Obs Corr2} (hmc : mc.IsRigid) (ho : o.toCameraMount.IsRigid) (G : Iso) :
    IsGuess mc mt bb o G ↔ G = (o.toCameraMount * mc).inv * (bb * o.toTargetMount * mt) := by
  have hr : (o.toCameraMount * mc).IsRigid := ho.mul hmc
  constructor
  · intro h
    apply Iso.ext_apply
    intro p
    rw [Iso.apply_mul, Iso.apply_mul, Iso.apply_mul, ← h p, Iso.inv_apply_apply hr]
  · rintro rfl p
    rw [Iso.apply_mul _ (bb * o.toTargetMount * mt), Iso.apply_inv_apply hr, Iso.apply_mul, Iso.apply_mul]

theorem accMean_iff {l : List ℝ} (hl : l ≠ []) (m d : Option ℝ) :
    (∃ m' d', m = some m' ∧ d = some d' ∧ MeanStdev l m' d') ↔ m = accMean l ∧ d = (accVar l).map Real.sqrt := by
  have hn : (l.length : ℝ) ≠ 0 := by
    have := List.length_pos_of_ne_nil hl
    positivity
  have hn0 : l.length ≠ 0 := by exact_mod_cast hn
  have hpos : (0 : ℝ) ≤ l.length := by positivity
  unfold accVar accMean
  rw [if_neg hn0]
  simp only [Option.map_some]
  have hv : 0 ≤ (l.map fun x => (x - l.sum / l.length) * (x - l.sum / l.length)).sum / l.length := by
    apply div_nonneg _ hpos
    apply List.sum_nonneg
    intro y hy
    obtain ⟨x, -, rfl⟩ := List.mem_map.1 hy
    exact mul_self_nonneg _
  constructor
  · rintro ⟨m, d, rfl, rfl, h1, h2, h3⟩
    have hm : m = l.sum / l.length := by rw [← h1]; field_simp
    refine ⟨by rw [hm], ?_⟩
    rw [← hm]
    congr 1
    have : (l.map fun x => (x - m) * (x - m)).sum / l.length = d ^ 2 := by
      rw [div_eq_iff hn, h3]
      congr 2
      funext x
      ring
    rw [this, Real.sqrt_sq h2]
  · rintro ⟨rfl, rfl⟩
    refine ⟨_, _, rfl, rfl, by field_simp, Real.sqrt_nonneg _, ?_⟩
    rw [Real.sq_sqrt hv, div_mul_cancel₀ _ hn]
    congr 2
    funext x
    ring

/-- On a nonempty list, a pair of neighbours of different sizes gives an exception; otherwise every observation is
evaluated exactly once, in order, and the report is made of these evaluations. Missing with respect to C58: the empty list
(see `C58_negation`). -/
theorem C58_partial (s : Ceres V3) (obs : List (Obs Corr2)) (intr : Intr) (mc mt bb : Iso) (thr : ℝ)
    (hne : obs ≠ []) (hlen : obs.length < 2 ^ 64) (hmc : mc.IsRigid) (hrig : ∀ o ∈ obs, o.toCameraMount.IsRigid) :
    (¬ SizesAgree obs → intrinsicAccuracy s obs intr mc mt bb thr = .throw .optimization) ∧
    (SizesAgree obs → ∀ r, intrinsicAccuracy s obs intr mc mt bb thr = .ok r ↔
      ∃ evals : List VirtualTargetResult,
        List.Forall₂ (fun o e => ∃ G, IsGuess mc mt bb o G ∧ virtualTargetDiff s o.corrs intr G thr = .ok e) obs evals ∧
        (∃ m d, r.posMean = some m ∧ r.posStdev = some d ∧ MeanStdev (evals.map (·.positionalError)) m d) ∧
        ∃ m d, r.angMean = some m ∧ r.angStdev = some d ∧ MeanStdev (evals.map (·.angularError)) m d) := by
  rcases sizeCheck_nonempty obs hne hlen with ⟨h1, h2⟩ | ⟨h1, h2⟩
  · refine ⟨fun h => absurd h1 h, fun hsz r => ?_⟩
    unfold intrinsicAccuracy
    rw [h2, Res.ok_bind, Res.bind_ok_iff]
    have key : ∀ evals : List VirtualTargetResult,
        List.Forall₂ (fun o e => ∃ G, IsGuess mc mt bb o G ∧ virtualTargetDiff s o.corrs intr G thr = .ok e) obs evals ↔
        Res.mapList (fun obs : Obs Corr2 =>
          let baseToCamera := obs.toCameraMount * mc
          let baseToTarget := bb * obs.toTargetMount * mt
          let cameraToTarget := baseToCamera.inv * baseToTarget
          virtualTargetDiff s obs.corrs intr cameraToTarget thr) obs = .ok evals := by
      intro evals
      rw [Res.mapList_ok_iff]
      clear h1 h2 hne hlen hsz
      induction obs generalizing evals with
      | nil => cases evals <;> simp
      | cons o l ih =>
        cases evals with
        | nil => simp
        | cons e es =>
          rw [List.forall₂_cons, List.forall₂_cons, ih (fun o ho => hrig o (List.mem_cons_of_mem _ ho))]
          simp only [isGuess_iff mt bb hmc (hrig o (by simp)), exists_eq_left]
    have hnil : ∀ evals : List VirtualTargetResult, Res.mapList (fun obs : Obs Corr2 =>
          let baseToCamera := obs.toCameraMount * mc
          let baseToTarget := bb * obs.toTargetMount * mt
          let cameraToTarget := baseToCamera.inv * baseToTarget
          virtualTargetDiff s obs.corrs intr cameraToTarget thr) obs = .ok evals → evals ≠ [] := by
      rintro evals h rfl
      have := Res.mapList_ok_length h
      exact hne (List.length_eq_zero_iff.1 this.symm)
    constructor
    · rintro ⟨rs, h, hr⟩
      have hrs := hnil rs h
      simp only [Res.ok.injEq] at hr
      subst hr
      exact ⟨rs, (key rs).2 h, (accMean_iff (by simpa using hrs) _ _).2 ⟨rfl, rfl⟩,
        (accMean_iff (by simpa using hrs) _ _).2 ⟨rfl, rfl⟩⟩
    · rintro ⟨rs, h, hp, ha⟩
      have h' := (key rs).1 h
      have hrs := hnil rs h'
      obtain ⟨p1, p2⟩ := (accMean_iff (by simpa using hrs) _ _).1 hp
      obtain ⟨a1, a2⟩ := (accMean_iff (by simpa using hrs) _ _).1 ha
      refine ⟨rs, h', ?_⟩
      simp only [Res.ok.injEq]
      rw [← p1, ← p2, ← a1, ← a2]
  · refine ⟨fun _ => ?_, fun h => absurd h h1⟩
    unfold intrinsicAccuracy
    rw [h2, Res.throw_bind]

theorem mapList_ub {α β} {f : α → Res β} {l : List α} (h : Res.mapList f l = .ub) : ∃ a ∈ l, f a = .ub := by
  induction l with
  | nil => cases h
  | cons a l ih =>
    cases hfa : f a with
    | ub => exact ⟨a, by simp, hfa⟩
    | ok b =>
      cases hl : Res.mapList f l with
      | ub =>
        obtain ⟨c, hc, h'⟩ := ih hl
        exact ⟨c, List.mem_cons_of_mem _ hc, h'⟩
      | ok bs => simp [Res.mapList, hfa, hl] at h
      | throw e => simp [Res.mapList, hfa, hl] at h
      | abort => simp [Res.mapList, hfa, hl] at h
    | throw e => simp [Res.mapList, hfa] at h
    | abort => simp [Res.mapList, hfa] at h

/-- On a nonempty list the function itself never reads out of range. Missing with respect to C58: the empty list. -/
theorem C58_range_partial (s : Ceres V3) (obs : List (Obs Corr2)) (intr : Intr) (mc mt bb : Iso) (thr : ℝ)
    (hne : obs ≠ []) (hlen : obs.length < 2 ^ 64) (hfit : ∀ o ∈ obs, ∀ G, virtualTargetDiff s o.corrs intr G thr ≠ .ub) :
    intrinsicAccuracy s obs intr mc mt bb thr ≠ .ub := by
  unfold intrinsicAccuracy
  rcases sizeCheck_nonempty obs hne hlen with ⟨h1, h2⟩ | ⟨h1, h2⟩
  · rw [h2, Res.ok_bind]
    intro h
    cases hm : Res.mapList (fun obs : Obs Corr2 =>
          let baseToCamera := obs.toCameraMount * mc
          let baseToTarget := bb * obs.toTargetMount * mt
          let cameraToTarget := baseToCamera.inv * baseToTarget
          virtualTargetDiff s obs.corrs intr cameraToTarget thr) obs with
    | ub =>
      obtain ⟨o, ho, h'⟩ := mapList_ub hm
      exact hfit o ho _ h'
    | ok v => rw [hm] at h; cases h
    | throw e => rw [hm] at h; cases h
    | abort => rw [hm] at h; cases h
  · rw [h2, Res.throw_bind]
    simp

/-- Full C58 fails: without observations `size() - 1` wraps around and the first element of an empty vector is read. -/
theorem C58_negation (s : Ceres V3) (intr : Intr) (mc mt bb : Iso) (thr : ℝ) :
    intrinsicAccuracy s [] intr mc mt bb thr = .ub := by
  have h : szSub 0 1 = (2 ^ 64 - 2) + 1 := by unfold szSub; norm_num
  unfold intrinsicAccuracy sizeCheck
  rw [List.length_nil, h, List.range_succ_eq_map, Res.foldList_cons]
  simp [Res.idxList]

/-- Two observations with one and two features: not of equal size. -/
example : ¬ SizesAgree [⟨[⟨⟨0, 0⟩, ⟨0, 0, 1⟩⟩], 1, 1⟩, ⟨[⟨⟨0, 0⟩, ⟨0, 0, 1⟩⟩, ⟨⟨1, 0⟩, ⟨1, 0, 1⟩⟩], 1, 1⟩] := by
  intro h
  simpa using h 0 _ _ rfl rfl

/-- Two observations of equal size. -/
example : SizesAgree [⟨[⟨⟨0, 0⟩, ⟨0, 0, 1⟩⟩], 1, 1⟩, ⟨[⟨⟨1, 0⟩, ⟨1, 0, 1⟩⟩], 1, 1⟩] := by
  intro i o1 o2 h1 h2
  match i with
  | 0 => simp at h1 h2; subst h1; subst h2; rfl
  | i + 1 => simp at h2

/-! ## C59 Positions of the noise report -/

/-- The poses of the converged runs, in order. -/
def ConvergedPoses {π : Type} (run : π → Res PnPResult) (params : List π) (ts : List Iso) : Prop :=
  ∃ results, List.Forall₂ (fun p r => run p = .ok r) params results ∧
    ts = (results.filter fun r => r.converged).map fun r => r.cameraToTarget

theorem noiseFold_ok {π : Type} (run : π → Res PnPResult) (params : List π) (acc ts : List Iso) :
    Res.foldList (fun (acc : List Iso) prob =>
      (run prob).bind fun r => if r.converged then .ok (acc ++ [r.cameraToTarget]) else .ok acc) acc params = .ok ts ↔
    ∃ us, ConvergedPoses run params us ∧ ts = acc ++ us := by
  induction params generalizing acc with
  | nil =>
    simp only [Res.foldList_nil, Res.ok.injEq]
    constructor
    · rintro rfl
      exact ⟨[], ⟨[], .nil, rfl⟩, by simp⟩
    · rintro ⟨us, ⟨rs, h, rfl⟩, rfl⟩
      cases h
      simp
  | cons p l ih =>
    rw [Res.foldList_cons]
    simp only [Res.bind_ok_iff]
    constructor
    · rintro ⟨acc', ⟨r, hr, h1⟩, h2⟩
      obtain ⟨us, ⟨rs, hrs, rfl⟩, rfl⟩ := (ih acc').1 h2
      refine ⟨_, ⟨r :: rs, .cons hr hrs, rfl⟩, ?_⟩
      split at h1
      · rename_i hc
        cases h1
        simp [hc]
      · rename_i hc
        cases h1
        simp [hc]
    · rintro ⟨us, ⟨rs, hrs, rfl⟩, rfl⟩
      cases hrs with
      | cons hr hrs =>
        rename_i r rs
        by_cases hc : r.converged = true
        · exact ⟨acc ++ [r.cameraToTarget], ⟨r, hr, by simp [hc]⟩, (ih _).2 ⟨_, ⟨rs, hrs, rfl⟩, by simp [hc]⟩⟩
        · exact ⟨acc, ⟨r, hr, by simp [hc]⟩, (ih _).2 ⟨_, ⟨rs, hrs, rfl⟩, by simp [hc]⟩⟩

/-- A component report: mean and deviation of the sample; NaN and zero for an empty sample. -/
def ComponentReport (l : List ℝ) (m d : Option ℝ) : Prop :=
  (l = [] → m = none ∧ d = some 0) ∧ (l ≠ [] → ∃ m' d', m = some m' ∧ d = some d' ∧ MeanStdev l m' d')

theorem componentReport (l : List ℝ) : ComponentReport l (accMean l) ((accVar l).map Real.sqrt) := by
  refine ⟨?_, fun h => (accMean_iff h _ _).2 ⟨rfl, rfl⟩⟩
  rintro rfl
  simp [accVar, accMean]

theorem qualifyNoise_ok {π : Type} {run : π → Res PnPResult} {svd : SvdU0} {params : List π} {r : NoiseStat} :
    qualifyNoise run svd params = .ok r ↔ ∃ ts, ConvergedPoses run params ts ∧
      r = ⟨accMean (ts.map (·.t.x)), accMean (ts.map (·.t.y)), accMean (ts.map (·.t.z)),
        (accVar (ts.map (·.t.x))).map Real.sqrt, (accVar (ts.map (·.t.y))).map Real.sqrt,
        (accVar (ts.map (·.t.z))).map Real.sqrt, quatStats svd (ts.map (·.R.toQuat))⟩ := by
  unfold qualifyNoise
  simp only [Res.bind_ok_iff, noiseFold_ok, List.nil_append, exists_eq_right', Res.ok.injEq]
  constructor
  · rintro ⟨ts, h, rfl⟩
    exact ⟨ts, h, rfl⟩
  · rintro ⟨ts, h, rfl⟩
    exact ⟨ts, h, rfl⟩

theorem C59_core {π : Type} {run : π → Res PnPResult} {svd : SvdU0} {params : List π} {r : NoiseStat}
    (h : qualifyNoise run svd params = .ok r) : ∃ ts, ConvergedPoses run params ts ∧
      ComponentReport (ts.map (·.t.x)) r.meanX r.stdevX ∧ ComponentReport (ts.map (·.t.y)) r.meanY r.stdevY ∧
      ComponentReport (ts.map (·.t.z)) r.meanZ r.stdevZ := by
  obtain ⟨ts, hts, rfl⟩ := qualifyNoise_ok.1 h
  exact ⟨ts, hts, componentReport _, componentReport _, componentReport _⟩

/-- The position statistics are those of the converged solutions. -/
theorem C59_positions (s : Ceres V3) (svd : SvdU0) (params : List (PnPProblem Corr2)) (r : NoiseStat)
    (h : qualifyNoise2 s svd params = .ok r) : ∃ ts, ConvergedPoses (pnp2 s) params ts ∧
      ComponentReport (ts.map (·.t.x)) r.meanX r.stdevX ∧ ComponentReport (ts.map (·.t.y)) r.meanY r.stdevY ∧
      ComponentReport (ts.map (·.t.z)) r.meanZ r.stdevZ := C59_core h

theorem C59_positions_3d (s : Ceres V3) (svd : SvdU0) (params : List (PnPProblem Corr3)) (r : NoiseStat)
    (h : qualifyNoise3 s svd params = .ok r) : ∃ ts, ConvergedPoses (pnp3 s) params ts ∧
      ComponentReport (ts.map (·.t.x)) r.meanX r.stdevX ∧ ComponentReport (ts.map (·.t.y)) r.meanY r.stdevY ∧
      ComponentReport (ts.map (·.t.z)) r.meanZ r.stdevZ := C59_core h

/-- The mean of a sample lies in any interval that contains the sample. -/
theorem Spec.MeanStdev.range {l : List ℝ} {m d lo hi : ℝ} (hl : l ≠ []) (h : MeanStdev l m d)
    (hx : ∀ x ∈ l, lo ≤ x ∧ x ≤ hi) : lo ≤ m ∧ m ≤ hi := by
  have hn : (0 : ℝ) < l.length := by
    have := List.length_pos_of_ne_nil hl
    positivity
  have h1 : lo * l.length ≤ l.sum ∧ l.sum ≤ hi * l.length := by
    clear h hl hn
    induction l with
    | nil => simp
    | cons a l ih =>
      have ha := hx a (by simp)
      have := ih fun x hx' => hx x (List.mem_cons_of_mem _ hx')
      simp only [List.sum_cons, List.length_cons, Nat.cast_add, Nat.cast_one]
      constructor <;> linarith
  rw [← h.1] at h1
  exact ⟨le_of_mul_le_mul_right h1.1 hn, le_of_mul_le_mul_right h1.2 hn⟩

theorem C59_range_core {π : Type} {run : π → Res PnPResult} {svd : SvdU0} {params : List π} {r : NoiseStat}
    (h : qualifyNoise run svd params = .ok r) (f : Iso → ℝ) (m : NoiseStat → Option ℝ) {lo hi : ℝ}
    (hf : (f = (·.t.x) ∧ m = (·.meanX)) ∨ (f = (·.t.y) ∧ m = (·.meanY)) ∨ (f = (·.t.z) ∧ m = (·.meanZ)))
    (hconv : ∃ p ∈ params, ∃ res, run p = .ok res ∧ res.converged = true)
    (hb : ∀ p ∈ params, ∀ res, run p = .ok res → res.converged = true → lo ≤ f res.cameraToTarget ∧ f res.cameraToTarget ≤ hi) :
    ∃ v, m r = some v ∧ lo ≤ v ∧ v ≤ hi := by
  obtain ⟨ts, ⟨rs, h2, rfl⟩, hX, hY, hZ⟩ := C59_core h
  have hmem : ∀ T ∈ (rs.filter fun r => r.converged).map fun r => r.cameraToTarget, lo ≤ f T ∧ f T ≤ hi := by
    intro T hT
    obtain ⟨res, hres, rfl⟩ := List.mem_map.1 hT
    obtain ⟨hres, hc⟩ := List.mem_filter.1 hres
    obtain ⟨i, hi', e⟩ := List.getElem_of_mem hres
    have hlen := h2.length_eq
    have := (List.forall₂_iff_get.1 h2).2 i (by omega) hi'
    simp only [List.get_eq_getElem, e] at this
    exact hb _ (List.getElem_mem _) res this hc
  have hne : (rs.filter fun r => r.converged).map (fun r => r.cameraToTarget) ≠ [] := by
    obtain ⟨p, hp, res, hr, hc⟩ := hconv
    obtain ⟨i, hi', e⟩ := List.getElem_of_mem hp
    have hlen := h2.length_eq
    have := (List.forall₂_iff_get.1 h2).2 i hi' (by omega)
    simp only [List.get_eq_getElem, e, hr, Res.ok.injEq] at this
    apply List.ne_nil_of_mem (a := res.cameraToTarget)
    exact List.mem_map.2 ⟨res, List.mem_filter.2 ⟨this ▸ List.getElem_mem _, hc⟩, rfl⟩
  have fin : ∀ {d : Option ℝ}, ComponentReport (((rs.filter fun r => r.converged).map fun r => r.cameraToTarget).map f) (m r) d →
      ∃ v, m r = some v ∧ lo ≤ v ∧ v ≤ hi := by
    intro d hd
    have hne' : ((rs.filter fun r => r.converged).map fun r => r.cameraToTarget).map f ≠ [] := by simpa using hne
    obtain ⟨m', d', e, -, hms⟩ := hd.2 hne'
    refine ⟨m', e, hms.range hne' ?_⟩
    intro x hx
    obtain ⟨T, hT, rfl⟩ := List.mem_map.1 hx
    exact hmem T hT
  rcases hf with ⟨rfl, rfl⟩ | ⟨rfl, rfl⟩ | ⟨rfl, rfl⟩
  · exact fin hX
  · exact fin hY
  · exact fin hZ

/-- If some run converged, each mean component lies between any bounds of that component over the converged solutions. -/
theorem C59_range (s : Ceres V3) (svd : SvdU0) (params : List (PnPProblem Corr2)) (r : NoiseStat)
    (h : qualifyNoise2 s svd params = .ok r) (f : Iso → ℝ) (m : NoiseStat → Option ℝ) {lo hi : ℝ}
    (hf : (f = (·.t.x) ∧ m = (·.meanX)) ∨ (f = (·.t.y) ∧ m = (·.meanY)) ∨ (f = (·.t.z) ∧ m = (·.meanZ)))
    (hconv : ∃ p ∈ params, ∃ res, pnp2 s p = .ok res ∧ res.converged = true)
    (hb : ∀ p ∈ params, ∀ res, pnp2 s p = .ok res → res.converged = true →
      lo ≤ f res.cameraToTarget ∧ f res.cameraToTarget ≤ hi) :
    ∃ v, m r = some v ∧ lo ≤ v ∧ v ≤ hi := C59_range_core h f m hf hconv hb

theorem C59_range_3d (s : Ceres V3) (svd : SvdU0) (params : List (PnPProblem Corr3)) (r : NoiseStat)
    (h : qualifyNoise3 s svd params = .ok r) (f : Iso → ℝ) (m : NoiseStat → Option ℝ) {lo hi : ℝ}
    (hf : (f = (·.t.x) ∧ m = (·.meanX)) ∨ (f = (·.t.y) ∧ m = (·.meanY)) ∨ (f = (·.t.z) ∧ m = (·.meanZ)))
    (hconv : ∃ p ∈ params, ∃ res, pnp3 s p = .ok res ∧ res.converged = true)
    (hb : ∀ p ∈ params, ∀ res, pnp3 s p = .ok res → res.converged = true →
      lo ≤ f res.cameraToTarget ∧ f res.cameraToTarget ≤ hi) :
    ∃ v, m r = some v ∧ lo ≤ v ∧ v ≤ hi := C59_range_core h f m hf hconv hb

/-- The report exists as soon as every problem is solved without an exception. -/
theorem C59_returns (s : Ceres V3) (svd : SvdU0) (params : List (PnPProblem Corr2))
    (h : ∀ p ∈ params, ∃ res, pnp2 s p = .ok res) : ∃ r, qualifyNoise2 s svd params = .ok r := by
  have : ∃ rs, List.Forall₂ (fun p r => pnp2 s p = .ok r) params rs := by
    induction params with
    | nil => exact ⟨[], .nil⟩
    | cons p l ih =>
      obtain ⟨r, hr⟩ := h p (by simp)
      obtain ⟨rs, hrs⟩ := ih fun q hq => h q (List.mem_cons_of_mem _ hq)
      exact ⟨r :: rs, .cons hr hrs⟩
  obtain ⟨rs, hrs⟩ := this
  exact ⟨_, qualifyNoise_ok.2 ⟨_, ⟨rs, hrs, rfl⟩, rfl⟩⟩

/-! ## C60 Orientations of the noise report -/

/-- Everything the statistics read of a quaternion. -/
def Quat.outer (q : Quat) : Fin 4 → Fin 4 → ℝ := fun i j => q.coeff i * q.coeff j

theorem quatMoment_sum (qs : List Quat) (i j : Fin 4) :
    quatMomentMatrix qs i j = ((qs.map Quat.outer).map fun o => o i j).sum := by
  have : ∀ (M : Fin 4 → Fin 4 → ℝ), qs.foldl (fun M q => fun i j => M i j + q.coeff i * q.coeff j) M i j =
      M i j + ((qs.map Quat.outer).map fun o => o i j).sum := by
    induction qs with
    | nil => simp
    | cons q l ih =>
      intro M
      rw [List.foldl_cons, ih]
      simp [Quat.outer]
      ring
  unfold quatMomentMatrix
  rw [this, zero_add]

theorem angularDistance_outer (m : Quat) {q q' : Quat} (h : q.outer = q'.outer) :
    m.angularDistance q = m.angularDistance q' := by
  have e : ∀ i j, q.coeff i * q.coeff j = q'.coeff i * q'.coeff j := fun i j => congrFun (congrFun h i) j
  have exx := e 0 0
  have exy := e 0 1
  have exz := e 0 2
  have exw := e 0 3
  have eyy := e 1 1
  have eyz := e 1 2
  have eyw := e 1 3
  have ezz := e 2 2
  have ezw := e 2 3
  have eww := e 3 3
  simp only [Quat.coeff] at exx exy exz exw eyy eyz eyw ezz ezw eww
  unfold Quat.angularDistance
  have hw : |(m * q.conj).w| = |(m * q'.conj).w| := by
    rw [abs_eq_abs, ← sq_eq_sq_iff_eq_or_eq_neg]
    simp only [Quat.mul_def, Quat.conj]
    linear_combination m.x ^ 2 * exx + m.y ^ 2 * eyy + m.z ^ 2 * ezz + m.w ^ 2 * eww + 2 * m.x * m.y * exy +
      2 * m.x * m.z * exz + 2 * m.x * m.w * exw + 2 * m.y * m.z * eyz + 2 * m.y * m.w * eyw + 2 * m.z * m.w * ezw
  have hv : (m * q.conj).vec.norm = (m * q'.conj).vec.norm := by
    unfold V3.norm
    congr 1
    simp only [Quat.mul_def, Quat.conj, Quat.vec, V3.normSq, V3.dot]
    clear h e hw
    grind
  simp only [hw, hv]

theorem quatStats_outer (svd : SvdU0) {qs qs' : List Quat} (h : (qs.map Quat.outer).Perm (qs'.map Quat.outer)) :
    quatStats svd qs = quatStats svd qs' := by
  have hM : quatMomentMatrix qs = quatMomentMatrix qs' := by
    funext i j
    rw [quatMoment_sum, quatMoment_sum]
    exact (h.map _).sum_eq
  have hm : quatMean svd qs = quatMean svd qs' := by unfold quatMean; rw [hM]
  have hlen : qs.length = qs'.length := by simpa using h.length_eq
  have hsum : ∀ (m : Quat) (l : List Quat) (v : ℝ), l.foldl (fun v q => v + m.angularDistance q ^ 2) v =
      v + ((l.map Quat.outer).map fun o => (Function.extend Quat.outer m.angularDistance 0 o) ^ 2).sum := by
    intro m l
    induction l with
    | nil => simp
    | cons q l ih =>
      intro v
      have hfac : Function.FactorsThrough m.angularDistance Quat.outer := fun a b hab => angularDistance_outer m hab
      rw [List.foldl_cons, ih, List.map_cons, List.map_cons, List.sum_cons, hfac.extend_apply]
      ring
  unfold quatStats
  simp only [hm, hlen, hsum, (h.map _).sum_eq]

theorem Quat.neg_def (q : Quat) : -q = ⟨-q.w, -q.x, -q.y, -q.z⟩ := rfl

theorem Quat.outer_neg (q : Quat) : (-q).outer = q.outer := by
  funext i j
  unfold Quat.outer
  fin_cases i <;> fin_cases j <;> simp only [Quat.coeff, Quat.neg_def] <;> ring


/-- Order: any two orders of the same orientations give the same statistics. -/
theorem C60_order (svd : SvdU0) {qs qs' : List Quat} (h : qs.Perm qs') : quatStats svd qs = quatStats svd qs' :=
  quatStats_outer svd (h.map _)

/-- Signs: replacing any of the quaternions by its negative does not change the statistics. -/
theorem C60_sign (svd : SvdU0) {qs qs' : List Quat} (h : List.Forall₂ (fun a b => b = a ∨ b = -a) qs qs') :
    quatStats svd qs = quatStats svd qs' := by
  apply quatStats_outer
  have : qs.map Quat.outer = qs'.map Quat.outer := by
    induction h with
    | nil => rfl
    | cons hab _ ih =>
      rw [List.map_cons, List.map_cons, ih]
      rcases hab with rfl | rfl
      · rfl
      · rw [Quat.outer_neg]
  rw [this]

theorem Quat.outer_of_toMat {a b : Quat} (ha : a.IsUnit) (hb : b.IsUnit) (h : a.toMat = b.toMat) : a.outer = b.outer := by
  unfold Quat.IsUnit Quat.normSq at ha hb
  simp only [Quat.toMat, M3.mk.injEq] at h
  obtain ⟨h0, h1, h2, h3, h4, h5, h6, h7, h8⟩ := h
  funext i j
  unfold Quat.outer
  fin_cases i <;> fin_cases j <;> simp only [Quat.coeff] <;> grind

/-- Both together, in terms of the orientations: the statistics depend only on the multiset of rotation matrices. -/
theorem C60_rotations (svd : SvdU0) {qs qs' : List Quat} (hu : ∀ q ∈ qs, q.IsUnit) (hu' : ∀ q ∈ qs', q.IsUnit)
    (h : (qs.map Quat.toMat).Perm (qs'.map Quat.toMat)) : quatStats svd qs = quatStats svd qs' := by
  apply quatStats_outer
  have e : ∀ l : List Quat, (∀ q ∈ l, q.IsUnit) → l.map Quat.outer = (l.map Quat.toMat).map fun R =>
      (Function.extend (fun q : {q : Quat // q.IsUnit} => q.1.toMat) (fun q => q.1.outer) 0 R) := by
    intro l hl
    rw [List.map_map]
    apply List.map_congr_left
    intro q hq
    have hfac : Function.FactorsThrough (fun q : {q : Quat // q.IsUnit} => q.1.outer) (fun q => q.1.toMat) :=
      fun a b hab => Quat.outer_of_toMat a.2 b.2 hab
    exact (hfac.extend_apply 0 ⟨q, hl q hq⟩).symm
  rw [e qs hu, e qs' hu']
  exact h.map _

/-- What the decomposition promises for its first left singular vector `u` of `M`: with a singular value `k`, the largest,
and a unit right singular vector `v`. -/
def TopSingular (M : Fin 4 → Fin 4 → ℝ) (u : Quat) : Prop :=
  ∃ (k : ℝ) (v : Quat), 0 ≤ k ∧ u.normSq = 1 ∧ v.normSq = 1 ∧
    (∀ i, ∑ j, M i j * v.coeff j = k * u.coeff i) ∧ (∀ j, ∑ i, M i j * u.coeff i = k * v.coeff j) ∧
    ∀ p : Quat, ∑ i, (∑ j, M i j * p.coeff j) ^ 2 ≤ k ^ 2 * p.normSq

theorem quatMoment_form (qs : List Quat) (a b : Quat) :
    ∑ i, a.coeff i * ∑ j, quatMomentMatrix qs i j * b.coeff j = (qs.map fun q => qdot a q * qdot b q).sum := by
  simp only [quatMoment_sum, Fin.sum_univ_four]
  induction qs with
  | nil => simp
  | cons q l ih =>
    simp only [List.map_cons, List.sum_cons]
    rw [← ih]
    simp only [Quat.outer, Quat.coeff, qdot]
    ring

theorem quatMoment_symm (qs : List Quat) (i j : Fin 4) : quatMomentMatrix qs i j = quatMomentMatrix qs j i := by
  simp only [quatMoment_sum, List.map_map]
  congr 2
  funext q
  simp [Quat.outer, mul_comm]

/-- The reported mean is the average of Markley et al. -/
theorem C60_average (svd : SvdU0) (qs : List Quat) (h : TopSingular (quatMomentMatrix qs) (svd (quatMomentMatrix qs))) :
    IsQuatAverage qs (quatStats svd qs).mean := by
  show IsQuatAverage qs (svd (quatMomentMatrix qs))
  obtain ⟨u, hu⟩ : ∃ u, u = svd (quatMomentMatrix qs) := ⟨_, rfl⟩
  rw [← hu] at h ⊢
  obtain ⟨k, v, hk, hnu, hnv, hMv, hMu, hmax⟩ := h
  have hMu' : ∀ i, ∑ j, quatMomentMatrix qs i j * u.coeff j = k * v.coeff i := by
    intro i
    rw [← hMu i]
    exact Finset.sum_congr rfl fun j _ => by rw [quatMoment_symm]
  have uu : (qs.map fun q => qdot u q * qdot u q).sum = k * qdot u v := by
    rw [← quatMoment_form]
    simp only [hMu']
    simp only [Fin.sum_univ_four, Quat.coeff, qdot]
    ring
  have vv : (qs.map fun q => qdot v q * qdot v q).sum = k * qdot u v := by
    rw [← quatMoment_form]
    simp only [hMv]
    simp only [Fin.sum_univ_four, Quat.coeff, qdot]
    ring
  have uv : (qs.map fun q => qdot u q * qdot v q).sum = k := by
    rw [← quatMoment_form]
    simp only [hMv]
    simp only [Fin.sum_univ_four, Quat.coeff]
    unfold Quat.normSq at hnu
    linear_combination k * hnu
  have hpsd : 0 ≤ (qs.map fun q => (qdot u q - qdot v q) * (qdot u q - qdot v q)).sum := by
    apply List.sum_nonneg
    intro y hy
    obtain ⟨x, -, rfl⟩ := List.mem_map.1 hy
    exact mul_self_nonneg _
  have hexp : (qs.map fun q => (qdot u q - qdot v q) * (qdot u q - qdot v q)).sum =
      (qs.map fun q => qdot u q * qdot u q).sum + (qs.map fun q => qdot v q * qdot v q).sum -
        2 * (qs.map fun q => qdot u q * qdot v q).sum := by
    clear uu vv uv hpsd hMv hMu hMu' hmax hu
    induction qs with
    | nil => simp
    | cons q l ih => simp only [List.map_cons, List.sum_cons, ih]; ring
  rw [hexp, uu, vv, uv] at hpsd
  refine ⟨hnu, fun p hp => ?_⟩
  have hle : (qs.map fun q => qdot p q * qdot p q).sum ≤ k := by
    rw [← quatMoment_form]
    have hm := hmax p
    rw [hp, mul_one] at hm
    obtain ⟨w, hw⟩ : ∃ w : Fin 4 → ℝ, w = fun i => ∑ j, quatMomentMatrix qs i j * p.coeff j := ⟨_, rfl⟩
    have hw' : ∀ i, ∑ j, quatMomentMatrix qs i j * p.coeff j = w i := fun i => by rw [hw]
    simp only [hw'] at hm ⊢
    simp only [Fin.sum_univ_four, Quat.coeff] at hm ⊢
    unfold Quat.normSq at hp
    apply le_of_sq_le_sq _ hk
    have cs : (p.x * w 0 + p.y * w 1 + p.z * w 2 + p.w * w 3) ^ 2 =
        (p.w * p.w + p.x * p.x + p.y * p.y + p.z * p.z) * (w 0 ^ 2 + w 1 ^ 2 + w 2 ^ 2 + w 3 ^ 2) -
        ((p.x * w 1 - p.y * w 0) ^ 2 + (p.x * w 2 - p.z * w 0) ^ 2 + (p.x * w 3 - p.w * w 0) ^ 2 +
         (p.y * w 2 - p.z * w 1) ^ 2 + (p.y * w 3 - p.w * w 1) ^ 2 + (p.z * w 3 - p.w * w 2) ^ 2) := by ring
    rw [cs, hp, one_mul]
    have : 0 ≤ (p.x * w 1 - p.y * w 0) ^ 2 + (p.x * w 2 - p.z * w 0) ^ 2 + (p.x * w 3 - p.w * w 0) ^ 2 +
         (p.y * w 2 - p.z * w 1) ^ 2 + (p.y * w 3 - p.w * w 1) ^ 2 + (p.z * w 3 - p.w * w 2) ^ 2 := by positivity
    linarith
  simp only [pow_two]
  rw [uu]
  linarith

/-- A set of equal orientations has that orientation as its mean. -/
theorem C60_constant (svd : SvdU0) (qs : List Quat) (q : Quat) (hne : qs ≠ []) (hq : q.IsUnit)
    (hqs : ∀ p ∈ qs, p = q ∨ p = -q) (h : TopSingular (quatMomentMatrix qs) (svd (quatMomentMatrix qs))) :
    (quatStats svd qs).mean = q ∨ (quatStats svd qs).mean = -q := by
  obtain ⟨hm, hmax⟩ := C60_average svd qs h
  obtain ⟨m, hmm⟩ : ∃ m, m = (quatStats svd qs).mean := ⟨_, rfl⟩
  rw [← hmm] at hm hmax ⊢
  have hsum : ∀ p : Quat, (qs.map fun q => qdot p q ^ 2).sum = qs.length * qdot p q ^ 2 := by
    intro p
    clear hne h hmax hmm
    induction qs with
    | nil => simp
    | cons a l ih =>
      rw [List.map_cons, List.sum_cons, ih fun p hp => hqs p (List.mem_cons_of_mem _ hp)]
      have : qdot p a ^ 2 = qdot p q ^ 2 := by
        rcases hqs a (by simp) with rfl | rfl
        · rfl
        · simp only [qdot, Quat.neg_def]; ring
      rw [this]
      push_cast [List.length_cons]
      ring
  have hpos : (0 : ℝ) < qs.length := by
    have := List.length_pos_of_ne_nil hne
    positivity
  have h1 := hmax q hq
  rw [hsum, hsum] at h1
  have h2 := le_of_mul_le_mul_left h1 hpos
  unfold Quat.IsUnit at hq
  unfold Quat.normSq at hq hm
  have hqq : qdot q q = 1 := hq
  rw [hqq] at h2
  have lag : (m.w * q.x - m.x * q.w) ^ 2 + (m.w * q.y - m.y * q.w) ^ 2 + (m.w * q.z - m.z * q.w) ^ 2 +
      (m.x * q.y - m.y * q.x) ^ 2 + (m.x * q.z - m.z * q.x) ^ 2 + (m.y * q.z - m.z * q.y) ^ 2 =
      (m.w * m.w + m.x * m.x + m.y * m.y + m.z * m.z) * (q.w * q.w + q.x * q.x + q.y * q.y + q.z * q.z) -
        qdot m q ^ 2 := by unfold qdot; ring
  rw [hm, hq] at lag
  have hd1 : qdot m q ^ 2 = 1 := by
    have : 0 ≤ (m.w * q.x - m.x * q.w) ^ 2 + (m.w * q.y - m.y * q.w) ^ 2 + (m.w * q.z - m.z * q.w) ^ 2 +
      (m.x * q.y - m.y * q.x) ^ 2 + (m.x * q.z - m.z * q.x) ^ 2 + (m.y * q.z - m.z * q.y) ^ 2 := by positivity
    linarith
  have hsq : ∀ k : ℝ, k = qdot m q → k ^ 2 = 1 → (m.w - k * q.w) ^ 2 + (m.x - k * q.x) ^ 2 + (m.y - k * q.y) ^ 2 + (m.z - k * q.z) ^ 2 = 0 := by
    intro k hk hk2
    unfold qdot at hk
    linear_combination hm + k ^ 2 * hq - hk2 + 2 * k * hk
  have fin : ∀ k : ℝ, k = qdot m q → k ^ 2 = 1 → m.w = k * q.w ∧ m.x = k * q.x ∧ m.y = k * q.y ∧ m.z = k * q.z := by
    intro k hk hk2
    have := hsq k hk hk2
    have a := sq_nonneg (m.w - k * q.w)
    have b := sq_nonneg (m.x - k * q.x)
    have c := sq_nonneg (m.y - k * q.y)
    have d := sq_nonneg (m.z - k * q.z)
    refine ⟨?_, ?_, ?_, ?_⟩ <;> rw [← sub_eq_zero] <;> apply pow_eq_zero_iff (two_ne_zero) |>.1 <;> linarith
  rcases (sq_eq_sq_iff_eq_or_eq_neg.1 (hd1.trans (one_pow 2).symm)) with hk | hk
  · obtain ⟨a, b, c, d⟩ := fin _ rfl hd1
    left; rw [hk] at a b c d; ext <;> linarith
  · obtain ⟨a, b, c, d⟩ := fin _ rfl hd1
    right; rw [hk] at a b c d
    rw [Quat.neg_def]
    ext <;> simp only <;> linarith

/-- Two descriptions of the same orientation with opposite signs: a decomposition with the promise exists. -/
example : TopSingular (quatMomentMatrix [⟨1, 0, 0, 0⟩, ⟨-1, 0, 0, 0⟩]) ⟨1, 0, 0, 0⟩ := by
  refine ⟨2, ⟨1, 0, 0, 0⟩, by norm_num, by norm_num [Quat.normSq], by norm_num [Quat.normSq], ?_, ?_, ?_⟩
  · intro i
    fin_cases i <;> simp [quatMomentMatrix, Fin.sum_univ_four, Quat.coeff] <;> norm_num
  · intro i
    fin_cases i <;> simp [quatMomentMatrix, Fin.sum_univ_four, Quat.coeff] <;> norm_num
  · intro p
    simp [quatMomentMatrix, Fin.sum_univ_four, Quat.coeff, Quat.normSq]
    nlinarith [sq_nonneg p.x, sq_nonneg p.y, sq_nonneg p.z]

/-! ### C59, order -/

theorem convergedPoses_perm {π : Type} {run : π → Res PnPResult} {params params' : List π} (hp : params.Perm params')
    {ts : List Iso} (h : ConvergedPoses run params ts) : ∃ ts', ConvergedPoses run params' ts' ∧ ts.Perm ts' := by
  obtain ⟨rs, hrs, rfl⟩ := h
  obtain ⟨rs', h1, h2⟩ := (List.perm_comp_forall₂ hp.symm hrs)
  exact ⟨_, ⟨rs', h1, rfl⟩, (h2.symm.filter _).map _⟩

theorem accMean_perm {l l' : List ℝ} (h : l.Perm l') : accMean l = accMean l' := by
  unfold accMean; rw [h.length_eq, h.sum_eq]

theorem accVar_perm {l l' : List ℝ} (h : l.Perm l') : accVar l = accVar l' := by
  unfold accVar; rw [accMean_perm h, h.length_eq]
  congr 1
  funext m
  rw [(h.map _).sum_eq]

theorem qualifyNoise_perm {π : Type} {run : π → Res PnPResult} {svd : SvdU0} {params params' : List π}
    (hp : params.Perm params') {r : NoiseStat} (h : qualifyNoise run svd params = .ok r) :
    qualifyNoise run svd params' = .ok r := by
  obtain ⟨ts, hts, rfl⟩ := qualifyNoise_ok.1 h
  obtain ⟨ts', h', hperm⟩ := convergedPoses_perm hp hts
  refine qualifyNoise_ok.2 ⟨ts', h', ?_⟩
  rw [accMean_perm (hperm.map _), accMean_perm (hperm.map _), accMean_perm (hperm.map _), accVar_perm (hperm.map _),
    accVar_perm (hperm.map _), accVar_perm (hperm.map _), C60_order svd (hperm.map _)]

/-- The order of the problems is irrelevant for the whole report. -/
theorem C59_order (s : Ceres V3) (svd : SvdU0) {params params' : List (PnPProblem Corr2)} (hp : params.Perm params')
    (r : NoiseStat) : qualifyNoise2 s svd params = .ok r ↔ qualifyNoise2 s svd params' = .ok r :=
  ⟨qualifyNoise_perm hp, qualifyNoise_perm hp.symm⟩

theorem C59_order_3d (s : Ceres V3) (svd : SvdU0) {params params' : List (PnPProblem Corr3)} (hp : params.Perm params')
    (r : NoiseStat) : qualifyNoise3 s svd params = .ok r ↔ qualifyNoise3 s svd params' = .ok r :=
  ⟨qualifyNoise_perm hp, qualifyNoise_perm hp.symm⟩

/-- One solvable problem gives a report. -/
example (svd : SvdU0) : ∃ r, qualifyNoise2 (idCeres V3) svd [⟨⟨1, 1, 0, 0⟩, [⟨⟨0, 0⟩, ⟨0, 0, 1⟩⟩], 1, "camera_to_target"⟩] = .ok r := by
  apply C59_returns
  intro p hp
  simp only [List.mem_singleton] at hp
  subst hp
  exact pnpFinish_returns _ _ [(⟨⟨0, 0⟩, ⟨0, 0, 1⟩⟩ : Corr2)] (by simp)
      (fun c => ⟨[pnpRot, pnpTrans], evalV2 (pnpCost2 ⟨1, 1, 0, 0⟩ c.inTarget c.inImage)⟩) (fun _ _ => rfl) rfl rfl

end RCT
