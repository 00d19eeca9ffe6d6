import Verif.Spec.Repeat
import Verif.Props.Unit
import Verif.Props.Pixels

/-!
# C228 Data given several times
-/

namespace RCT

open Spec

/-! ## Problems with proportional costs -/

theorem replicate_append_perm {α : Type} (n : Nat) (a b : List α) :
    ((List.replicate n (a ++ b)).flatten).Perm ((List.replicate n a).flatten ++ (List.replicate n b).flatten) := by
  induction n with
  | zero => simp
  | succ n ih =>
    simp only [List.replicate_succ, List.flatten_cons, List.append_assoc]
    refine List.Perm.append_left a ?_
    refine (List.Perm.append_left b ih).trans ?_
    rw [← List.append_assoc, ← List.append_assoc]
    exact List.Perm.append_right _ List.perm_append_comm

theorem Repeated.map {α β : Type} {n : Nat} {l l' : List α} (h : Repeated n l l') (f : α → β) : Repeated n (l.map f) (l'.map f) := by
  refine ⟨h.1, (h.2.map f).trans ?_⟩
  rw [List.map_flatten, List.map_replicate]

theorem Repeated.nil {α : Type} {n : Nat} (hn : 1 ≤ n) : Repeated n ([] : List α) [] := by
  refine ⟨hn, ?_⟩
  rw [List.flatten_replicate_nil]

theorem Repeated.append {α : Type} {n : Nat} {a a' b b' : List α} (h : Repeated n a a') (k : Repeated n b b') :
    Repeated n (a ++ b) (a' ++ b') := ⟨h.1, (h.2.append k.2).trans (replicate_append_perm n a b).symm⟩

theorem Repeated.flatMap {ι α : Type} {n : Nat} (hn : 1 ≤ n) {l : List ι} {g g' : ι → List α} (h : ∀ i ∈ l, Repeated n (g i) (g' i)) :
    Repeated n (l.flatMap g) (l.flatMap g') := by
  induction l with
  | nil => exact Repeated.nil hn
  | cons i l ih =>
    rw [List.flatMap_cons, List.flatMap_cons]
    exact Repeated.append (h i (by simp)) (ih fun j hj => h j (by simp [hj]))

/-- The same parameters, proportional costs, the same cost per residual. -/
structure CostAlike {β : Type} (pb pb' : List (ResBlock β)) : Prop where
  used : (usedBlocks pb).Perm (usedBlocks pb')
  factor : ∃ c : ℝ, 0 < c ∧ ∀ st, cost pb' st = c * cost pb st
  per : ∀ st, costPerObs pb' st = costPerObs pb st

theorem CostAlike.symm {β : Type} {pb pb' : List (ResBlock β)} (h : CostAlike pb pb') : CostAlike pb' pb := by
  obtain ⟨c, hc, e⟩ := h.factor
  refine ⟨h.used.symm, ⟨c⁻¹, inv_pos.2 hc, fun st => ?_⟩, fun st => (h.per st).symm⟩
  rw [e, inv_mul_cancel_left₀ hc.ne']

theorem CostAlike.refl {β : Type} (pb : List (ResBlock β)) : CostAlike pb pb :=
  ⟨.refl _, ⟨1, one_pos, fun _ => (one_mul _).symm⟩, fun _ => rfl⟩

theorem cost_replicate {β : Type} (n : Nat) (pb : List (ResBlock β)) (st : Nat → β) :
    cost ((List.replicate n pb).flatten) st = n * cost pb st ∧
      (residuals ((List.replicate n pb).flatten) st).length = n * (residuals pb st).length := by
  induction n with
  | zero => simp [cost, residuals]
  | succ n ih =>
    have e : residuals (List.replicate (n + 1) pb).flatten st = residuals pb st ++ residuals (List.replicate n pb).flatten st := by
      unfold residuals
      rw [List.replicate_succ, List.flatten_cons, List.flatMap_append]
    refine ⟨?_, ?_⟩
    · have h1 := ih.1
      unfold cost at h1 ⊢
      rw [e, List.map_append, List.sum_append, add_div, h1]
      push_cast
      ring
    · rw [e, List.length_append, ih.2]; ring

/-- Every residual block several times. -/
theorem CostAlike.of_repeated {β : Type} {n : Nat} {pb pb' : List (ResBlock β)} (h : Repeated n pb pb') : CostAlike pb pb' := by
  obtain ⟨hn, h⟩ := h
  refine ⟨?_, ⟨n, by exact_mod_cast hn, fun st => ?_⟩, fun st => ?_⟩
  · refine (List.perm_ext_iff_of_nodup (List.nodup_dedup _) (List.nodup_dedup _)).2 fun a => ?_
    refine Iff.trans ?_ (usedBlocks_perm h).mem_iff.symm
    unfold usedBlocks
    simp only [List.mem_dedup, List.mem_flatMap, List.mem_flatten, List.mem_replicate]
    constructor
    · rintro ⟨b, hb, ha⟩; exact ⟨b, ⟨pb, ⟨by omega, rfl⟩, hb⟩, ha⟩
    · rintro ⟨b, ⟨l, ⟨-, rfl⟩, hb⟩, ha⟩; exact ⟨b, hb, ha⟩
  · rw [cost_perm h, (cost_replicate n pb st).1]
  · rw [costPerObs_perm h]
    unfold costPerObs
    rw [(cost_replicate n pb st).1, (cost_replicate n pb st).2]
    by_cases h0 : (residuals pb st).length = 0
    · rw [if_pos h0, if_pos (by rw [h0, mul_zero])]
    · rw [if_neg h0, if_neg (Nat.mul_ne_zero (by omega) h0)]
      congr 1
      push_cast
      exact mul_div_mul_left _ _ (by positivity)

theorem Ceres.WF.throughAlike {β : Type} {s : Ceres β} (hs : s.WF) {φ : List (ResBlock β) → List (ResBlock β)} (h : ∀ q, CostAlike (φ q) q) :
    (s.through φ).WF where
  frame := fun q st a ha => hs.frame (φ q) st a fun hm => ha ((h q).used.subset hm)
  descent := fun q st => by
    obtain ⟨c, hc, e⟩ := (h q).factor
    show cost q (s.solve (φ q) st) ≤ cost q st
    rw [e, e]
    exact mul_le_mul_of_nonneg_left (hs.descent (φ q) st) hc.le
  order_perm := fun q => (hs.order_perm (φ q)).trans (h q).used
  compute_no_throw := fun q => hs.compute_no_throw (φ q)

theorem instead_alike {β : Type} {pb' pb : List (ResBlock β)} (h : CostAlike pb pb') (q : List (ResBlock β)) : CostAlike (instead pb' pb q) q := by
  unfold instead
  split
  · rename_i e; rw [e]; exact h
  · exact .refl _

theorem covSolver_throughAlike {β : Type} (s : Ceres β) {pb' pb : List (ResBlock β)} {φ : List (ResBlock β) → List (ResBlock β)}
    (h : CostAlike pb pb') (e : φ pb' = pb) (st : Nat → β) (n : Nat) : (s.through φ).covSolver pb' st n = s.covSolver pb st n := by
  have hm : ∀ a, a ∈ usedBlocks pb' ↔ a ∈ usedBlocks pb := fun a => h.used.symm.mem_iff
  unfold Ceres.covSolver Ceres.through
  simp only [e, hm]

theorem covSolverF_throughAlike {β : Type} (s : Ceres β) {pb' pb : List (ResBlock β)} {φ : List (ResBlock β) → List (ResBlock β)}
    (h : CostAlike pb pb') (e : φ pb' = pb) (st : Nat → β) (n : Nat → Nat) : (s.through φ).covSolverF pb' st n = s.covSolverF pb st n := by
  have hm : ∀ a, a ∈ usedBlocks pb' ↔ a ∈ usedBlocks pb := fun a => h.used.symm.mem_iff
  unfold Ceres.covSolverF Ceres.through
  simp only [e, hm]

/-! ## PnP and circle fit -/

theorem pnpFinish_alike {κ : Type} (s : Ceres V3) (p p' : PnPProblem κ) (hg : p.guess = p'.guess) (hl : p.label = p'.label)
    {pb' pb : List (ResBlock V3)} (h : CostAlike pb pb') {φ : List (ResBlock V3) → List (ResBlock V3)} (e : φ pb' = pb) :
    pnpFinish (s.through φ) p' pb' = pnpFinish s p pb := by
  unfold pnpFinish
  simp only [covSolver_throughAlike s h e, h.per, ← hg, ← hl]
  simp only [Ceres.through, e]

theorem pnpFinish_repeat {κ : Type} {p p' : PnPProblem κ} (hg : p.guess = p'.guess) (hl : p.label = p'.label)
    {pb' pb : List (ResBlock V3)} (h : CostAlike pb pb') {r : PnPResult} (hr : Reaches (fun s => pnpFinish s p pb) r) :
    ∃ r', Reaches (fun s => pnpFinish s p' pb') r' ∧ PnPResult.Alike r r' := by
  obtain ⟨s, hs, hr⟩ := hr
  exact ⟨r, ⟨_, hs.throughAlike (instead_alike h), (pnpFinish_alike s p p' hg hl h (instead_self pb' pb)).trans hr⟩, rfl, rfl, rfl, rfl⟩

/-- PnP: giving every correspondence several times adds no possible result and removes none. -/
theorem C228_pnp (p : PnPProblem Corr2) (n : Nat) (cs : List Corr2) (h : Repeated n p.correspondences cs) (r : PnPResult) :
    (Reaches (fun s => pnp2 s p) r → ∃ r', Reaches (fun s => pnp2 s { p with correspondences := cs }) r' ∧ PnPResult.Alike r r') ∧
    (Reaches (fun s => pnp2 s { p with correspondences := cs }) r → ∃ r', Reaches (fun s => pnp2 s p) r' ∧ PnPResult.Alike r r') := by
  have hp : CostAlike (pnpBuild2 p) (pnpBuild2 { p with correspondences := cs }) := .of_repeated (Repeated.map h _)
  exact ⟨fun hr => pnpFinish_repeat (p' := { p with correspondences := cs }) rfl rfl hp hr,
    fun hr => pnpFinish_repeat (p := { p with correspondences := cs }) (p' := p) rfl rfl hp.symm hr⟩

theorem C228_pnp_3d (p : PnPProblem Corr3) (n : Nat) (cs : List Corr3) (h : Repeated n p.correspondences cs) (r : PnPResult) :
    (Reaches (fun s => pnp3 s p) r → ∃ r', Reaches (fun s => pnp3 s { p with correspondences := cs }) r' ∧ PnPResult.Alike r r') ∧
    (Reaches (fun s => pnp3 s { p with correspondences := cs }) r → ∃ r', Reaches (fun s => pnp3 s p) r' ∧ PnPResult.Alike r r') := by
  have hp : CostAlike (pnpBuild3 p) (pnpBuild3 { p with correspondences := cs }) := .of_repeated (Repeated.map h _)
  exact ⟨fun hr => pnpFinish_repeat (p' := { p with correspondences := cs }) rfl rfl hp hr,
    fun hr => pnpFinish_repeat (p := { p with correspondences := cs }) (p' := p) rfl rfl hp.symm hr⟩

theorem circleFit_repeat {p p' : CircleFitProblem} (hi : circleInit p = circleInit p') (h : CostAlike (circleBuild p) (circleBuild p'))
    {r : CircleFitResult} (hr : Reaches (fun s => circleFit s p) r) : ∃ r', Reaches (fun s => circleFit s p') r' ∧ CircleFitResult.Alike r r' := by
  obtain ⟨s, hs, hr⟩ := hr
  have e := instead_self (circleBuild p') (circleBuild p)
  refine ⟨r, ⟨_, hs.throughAlike (instead_alike h), ?_⟩, rfl, rfl, rfl, rfl, rfl, rfl⟩
  beta_reduce at hr ⊢
  rw [← hr]
  unfold circleFit
  simp only [covSolver_throughAlike s h e, h.per, ← hi]
  simp only [Ceres.through, e]

/-- Circle fit: every point several times. -/
theorem C228_circle (p : CircleFitProblem) (n : Nat) (obs : List V2) (h : Repeated n p.observations obs) (r : CircleFitResult) :
    (Reaches (fun s => circleFit s p) r → ∃ r', Reaches (fun s => circleFit s { p with observations := obs }) r' ∧ CircleFitResult.Alike r r') ∧
    (Reaches (fun s => circleFit s { p with observations := obs }) r → ∃ r', Reaches (fun s => circleFit s p) r' ∧ CircleFitResult.Alike r r') := by
  have hp : CostAlike (circleBuild p) (circleBuild { p with observations := obs }) := .of_repeated (Repeated.map h _)
  exact ⟨fun hr => circleFit_repeat (p := p) (p' := { p with observations := obs }) rfl hp hr,
    fun hr => circleFit_repeat (p := { p with observations := obs }) (p' := p) rfl hp.symm hr⟩

/-! ## Hand-eye calibration -/

theorem heFinish_repeat {κ : Type} {p p' : HandEyeProblem κ} (hi : heInit p = heInit p') (hc : p.labelCamera = p'.labelCamera)
    (ht : p.labelTarget = p'.labelTarget) (hl : p.labels = p'.labels) {pb' pb : List (ResBlock Pose6)} (h : CostAlike pb pb')
    {r : HandEyeResult} (hr : Reaches (fun s => heFinish s p pb) r) : ∃ r', Reaches (fun s => heFinish s p' pb') r' ∧ HandEyeResult.Alike r r' := by
  obtain ⟨s, hs, hr⟩ := hr
  have e := instead_self pb' pb
  refine ⟨r, ⟨_, hs.throughAlike (instead_alike h), ?_⟩, rfl, rfl, rfl, rfl, rfl⟩
  beta_reduce at hr ⊢
  rw [← hr]
  unfold heFinish
  simp only [covSolver_throughAlike s h e, h.per, ← hi, ← hc, ← ht, ← hl]
  simp only [Ceres.through, e]

/-- Hand-eye calibration from points: every correspondence with its poses several times, divided into observations in any way. -/
theorem C228_hand_eye_3d (p : HandEyeProblem Corr3) (n : Nat) (obs : List (Obs Corr3)) (h : Repeated n (samples p.observations) (samples obs))
    (r : HandEyeResult) :
    (Reaches (fun s => handEye3 s p) r → ∃ r', Reaches (fun s => handEye3 s { p with observations := obs }) r' ∧ HandEyeResult.Alike r r') ∧
    (Reaches (fun s => handEye3 s { p with observations := obs }) r → ∃ r', Reaches (fun s => handEye3 s p) r' ∧ HandEyeResult.Alike r r') := by
  have hp : CostAlike (heBuild3 p) (heBuild3 { p with observations := obs }) := by
    refine .of_repeated (n := n) ?_
    rw [heBuild3_eq, heBuild3_eq]
    have e := fun l => features_samples (fun t : Iso × Iso × Corr3 =>
      (⟨[heCam, heTgt], eval2 (handEyeCost3 t.2.2.inImage t.1.inv t.2.1 t.2.2.inTarget)⟩ : ResBlock Pose6)) l
    exact (e p.observations ▸ e obs ▸ Repeated.map h _)
  exact ⟨fun hr => heFinish_repeat (p' := { p with observations := obs }) rfl rfl rfl rfl hp hr,
    fun hr => heFinish_repeat (p := { p with observations := obs }) (p' := p) rfl rfl rfl rfl hp.symm hr⟩

theorem heVisible_same {p : HandEyeProblem Corr2} {obs obs' : List (Obs Corr2)} (h : ∀ t, t ∈ samples obs' → t ∈ samples obs)
    (hv : ∀ f ∈ features obs, heVisible p f) : ∀ f ∈ features obs', heVisible p f := by
  intro f hf
  have key : ∀ l : List (Obs Corr2), (features l).map (fun f => (f.1.toCameraMount, f.1.toTargetMount, f.2)) = samples l := by
    intro l
    have := features_samples (fun t : Iso × Iso × Corr2 => t) l
    rwa [List.map_id'] at this
  have hs := h (f.1.toCameraMount, f.1.toTargetMount, f.2) (key obs' ▸ List.mem_map.2 ⟨f, hf, rfl⟩)
  rw [← key obs] at hs
  obtain ⟨f₀, hf₀, e⟩ := List.mem_map.1 hs
  simp only [Prod.mk.injEq] at e
  have := hv f₀ hf₀
  unfold heVisible at this ⊢
  rw [← e.1, ← e.2.1, ← e.2.2]
  exact this

theorem handEye2_repeat {p p' : HandEyeProblem Corr2} (hq : p' = { p with observations := p'.observations })
    (hm : ∀ t, t ∈ samples p'.observations → t ∈ samples p.observations)
    (hp : CostAlike ((features p.observations).map (heBlock2 p.intr)) ((features p'.observations).map (heBlock2 p.intr)))
    {r : HandEyeResult} (hr : Reaches (fun s => handEye2 s p) r) : ∃ r', Reaches (fun s => handEye2 s p') r' ∧ HandEyeResult.Alike r r' := by
  obtain ⟨s, hs, hr⟩ := hr
  simp only [handEye2] at hr
  rcases heBuild2_cases p with ⟨hv, hb⟩ | ⟨-, hb⟩
  swap
  · rw [hb] at hr; cases hr
  rw [hb, Res.ok_bind] at hr
  have hv' : ∀ f ∈ features p'.observations, heVisible p' f := by
    intro f hf
    have := heVisible_same hm hv f hf
    rw [hq]
    exact this
  have hi : p'.intr = p.intr := by rw [hq]
  have hb' : heBuild2 p' = .ok ((features p'.observations).map (heBlock2 p'.intr)) := by
    rcases heBuild2_cases p' with ⟨-, hb'⟩ | ⟨⟨f, hf, hn⟩, -⟩
    · exact hb'
    · exact absurd (hv' f hf) hn
  obtain ⟨r', ⟨s', hs', hr'⟩, hrr⟩ := heFinish_repeat (p := p) (p' := p') (by rw [hq]; rfl) (by rw [hq]) (by rw [hq]) (by rw [hq]) hp ⟨s, hs, hr⟩
  refine ⟨r', ⟨s', hs', ?_⟩, hrr⟩
  simp only [handEye2]
  rw [hb', Res.ok_bind, hi]
  exact hr'

theorem Repeated.mem {α : Type} {n : Nat} {l l' : List α} (h : Repeated n l l') (t : α) : t ∈ l' ↔ t ∈ l := by
  rw [h.2.mem_iff]
  have := h.1
  simp only [List.mem_flatten, List.mem_replicate]
  constructor
  · rintro ⟨x, ⟨-, rfl⟩, hx⟩; exact hx
  · intro hx; exact ⟨l, ⟨by omega, rfl⟩, hx⟩

/-- The same from pixels. -/
theorem C228_hand_eye (p : HandEyeProblem Corr2) (n : Nat) (obs : List (Obs Corr2)) (h : Repeated n (samples p.observations) (samples obs))
    (r : HandEyeResult) :
    (Reaches (fun s => handEye2 s p) r → ∃ r', Reaches (fun s => handEye2 s { p with observations := obs }) r' ∧ HandEyeResult.Alike r r') ∧
    (Reaches (fun s => handEye2 s { p with observations := obs }) r → ∃ r', Reaches (fun s => handEye2 s p) r' ∧ HandEyeResult.Alike r r') := by
  have hp : CostAlike ((features p.observations).map (heBlock2 p.intr)) ((features obs).map (heBlock2 p.intr)) := by
    refine .of_repeated (n := n) ?_
    have e := fun l => features_samples (fun t : Iso × Iso × Corr2 =>
      (⟨[heCam, heTgt], eval2 (handEyeCost2 t.2.2.inImage t.1.inv t.2.1 t.2.2.inTarget p.intr)⟩ : ResBlock Pose6)) l
    exact (e p.observations ▸ e obs ▸ Repeated.map h _)
  exact ⟨fun hr => handEye2_repeat (p' := { p with observations := obs }) rfl (fun t ht => (Repeated.mem h t).1 ht) hp hr,
    fun hr => handEye2_repeat (p := { p with observations := obs }) (p' := p) rfl (fun t ht => (Repeated.mem h t).2 ht) hp.symm hr⟩

/-! ## Several static cameras -/

theorem multiStatic_repeat {p p' : MsProblem} {pb pb' : List (ResBlock Pose6)} (hb : msBuild p = .ok pb) (hb' : msBuild p' = .ok pb')
    (ha : CostAlike pb pb') (hc : p.baseToCameraGuess = p'.baseToCameraGuess) (ht : p.wristToTargetGuess = p'.wristToTargetGuess)
    (hl : p.labelTarget = p'.labelTarget) (hL : p.labelCamera = p'.labelCamera) {r : MsResult} (hr : Reaches (fun s => multiStatic s p) r) :
    ∃ r', Reaches (fun s => multiStatic s p') r' ∧ MsResult.Alike r r' := by
  obtain ⟨s, hs, hr⟩ := hr
  have hinit : msInit p' = msInit p := by unfold msInit; rw [ht, hc]
  have hnames : msNames p' = msNames p := by unfold msNames; rw [hc, hl, hL]
  refine ⟨r, ⟨_, hs.throughAlike (instead_alike ha), ?_⟩, rfl, rfl, rfl, rfl, rfl⟩
  have e := instead_self pb' pb
  beta_reduce at hr ⊢
  unfold multiStatic at hr ⊢
  rw [hb, Res.ok_bind] at hr
  rw [hb', Res.ok_bind, ← hr, ← hc, hinit, hnames]
  simp only [covSolver_throughAlike s ha e, ha.per]
  simp only [Ceres.through, e]

/-- Several static cameras and a target on the wrist: every correspondence with its wrist pose several times. -/
theorem C228_static (p : MsProblem) (n : Nat) (hn : 1 ≤ n) (wrist : List (List Iso)) (obs : List (List (List Corr2))) (hp : MsSizes p)
    (hp' : MsSizes { p with wristPoses := wrist, observations := obs })
    (h : ∀ c, c < p.baseToCameraGuess.length → Repeated n (wristSamples (p.wristPoses.getD c []) (p.observations.getD c []))
      (wristSamples (wrist.getD c []) (obs.getD c []))) (r : MsResult) :
    (Reaches (fun s => multiStatic s p) r →
      ∃ r', Reaches (fun s => multiStatic s { p with wristPoses := wrist, observations := obs }) r' ∧ MsResult.Alike r r') ∧
    (Reaches (fun s => multiStatic s { p with wristPoses := wrist, observations := obs }) r →
      ∃ r', Reaches (fun s => multiStatic s p) r' ∧ MsResult.Alike r r') := by
  obtain ⟨pb, hb⟩ := C41_built p hp.wrist hp.obs hp.intr hp.images
  obtain ⟨pb', hb'⟩ := C41_built _ hp'.wrist hp'.obs hp'.intr hp'.images
  have ha : CostAlike pb pb' := by
    refine .of_repeated (n := n) ?_
    rw [msBuild_eq hb, msBuild_eq hb', msBlocks_samples hp, msBlocks_samples hp']
    exact Repeated.flatMap hn fun c hc => Repeated.map (h c (List.mem_range.1 hc)) _
  exact ⟨fun hr => multiStatic_repeat hb hb' ha rfl rfl rfl rfl hr, fun hr => multiStatic_repeat hb' hb ha.symm rfl rfl rfl rfl hr⟩

theorem wristOnly_repeat {p p' : WoProblem} {pb pb' : List (ResBlock Pose6)} (hb : woBuild p = .ok pb) (hb' : woBuild p' = .ok pb')
    (ha : CostAlike pb pb') (hc : p.baseToCameraGuess = p'.baseToCameraGuess) (ht : p.wristToTargetGuess = p'.wristToTargetGuess)
    {r : WoResult} (hr : Reaches (fun s => wristOnly s p) r) : Reaches (fun s => wristOnly s p') r := by
  obtain ⟨s, hs, hr⟩ := hr
  have hinit : woInit p' = woInit p := by unfold woInit; rw [ht]
  refine ⟨_, hs.throughAlike (instead_alike ha), ?_⟩
  have e := instead_self pb' pb
  beta_reduce at hr ⊢
  unfold wristOnly at hr ⊢
  rw [hb, Res.ok_bind] at hr
  rw [hb', Res.ok_bind, ← hr, ← hc, hinit]
  simp only [ha.per]
  simp only [Ceres.through, e]

/-- One correction of all cameras. -/
theorem C228_wrist_only (p : WoProblem) (n : Nat) (hn : 1 ≤ n) (wrist : List Iso) (obs : List (List (List Corr2))) (hp : WoSizes p)
    (hp' : WoSizes { p with wristPoses := wrist, observations := obs })
    (h : ∀ c, c < p.baseToCameraGuess.length → Repeated n (wristSamples p.wristPoses (p.observations.getD c []))
      (wristSamples wrist (obs.getD c []))) (r : WoResult) :
    Reaches (fun s => wristOnly s p) r ↔ Reaches (fun s => wristOnly s { p with wristPoses := wrist, observations := obs }) r := by
  obtain ⟨pb, hb⟩ := hp.built
  obtain ⟨pb', hb'⟩ := hp'.built
  have ha : CostAlike pb pb' := by
    refine .of_repeated (n := n) ?_
    rw [woBuild_eq hb, woBuild_eq hb', woBlocks_samples hp, woBlocks_samples hp']
    exact Repeated.flatMap hn fun c hc => Repeated.map (h c (List.mem_range.1 hc)) _
  exact ⟨wristOnly_repeat hb hb' ha rfl rfl, wristOnly_repeat hb' hb ha.symm rfl rfl⟩

theorem cameraOnly_repeat {p : CoProblem} {obs obs' : List (List (List Corr2))} {pb pb' : List (ResBlock Pose6)}
    (hb : coBuild { p with observations := obs } = .ok pb) (hb' : coBuild { p with observations := obs' } = .ok pb') (ha : CostAlike pb pb')
    {r : CoResult} (hr : Reaches (fun s => cameraOnly s { p with observations := obs }) r) :
    Reaches (fun s => cameraOnly s { p with observations := obs' }) r := by
  obtain ⟨s, hs, hr⟩ := hr
  refine ⟨_, hs.throughAlike (instead_alike ha), ?_⟩
  have e := instead_self pb' pb
  beta_reduce at hr ⊢
  unfold cameraOnly at hr ⊢
  rw [hb, Res.ok_bind] at hr
  rw [hb', Res.ok_bind, ← hr]
  simp only [ha.per]
  simp only [Ceres.through, e]
  rfl

/-- Cameras without wrist poses: the correspondences of every image several times. -/
theorem C228_camera_only (p : CoProblem) (n : Nat) (hn : 1 ≤ n) (obs : List (List (List Corr2))) (hp : CoSizes p)
    (hp' : CoSizes { p with observations := obs })
    (h : ∀ c, c < p.baseToCameraGuess.length → ∀ i, i < p.baseToTargetGuess.length →
      Repeated n ((p.observations.getD c []).getD i []) ((obs.getD c []).getD i [])) (r : CoResult) :
    Reaches (fun s => cameraOnly s p) r ↔ Reaches (fun s => cameraOnly s { p with observations := obs }) r := by
  obtain ⟨pb, hb⟩ := hp.built
  obtain ⟨pb', hb'⟩ := hp'.built
  have ha : CostAlike pb pb' := by
    refine .of_repeated (n := n) ?_
    rw [coBuild_eq hb, coBuild_eq hb']
    refine Repeated.map ?_ _
    unfold byImage
    refine Repeated.flatMap hn fun i hi => Repeated.flatMap hn fun c hc => ?_
    exact Repeated.map (h c (List.mem_range.1 hc) i (List.mem_range.1 hi)) _
  exact ⟨cameraOnly_repeat (p := p) (obs := p.observations) hb hb' ha, cameraOnly_repeat (p := p) (obs' := p.observations) hb' hb ha.symm⟩

theorem mcPnp_repeat {p : McPnpProblem} {obs obs' : List (List Corr2)} {pb pb' : List (ResBlock Pose6)}
    (hb : mcPnpBuild { p with observations := obs } = .ok pb) (hb' : mcPnpBuild { p with observations := obs' } = .ok pb') (ha : CostAlike pb pb')
    {r : McPnpResult} (hr : Reaches (fun s => mcPnp s { p with observations := obs }) r) :
    Reaches (fun s => mcPnp s { p with observations := obs' }) r := by
  obtain ⟨s, hs, hr⟩ := hr
  refine ⟨_, hs.throughAlike (instead_alike ha), ?_⟩
  have e := instead_self pb' pb
  beta_reduce at hr ⊢
  unfold mcPnp at hr ⊢
  rw [hb, Res.ok_bind] at hr
  rw [hb', Res.ok_bind, ← hr]
  simp only [ha.per]
  simp only [Ceres.through, e]

/-- Multi camera PnP: the correspondences of every camera several times. -/
theorem C228_multi_pnp (p : McPnpProblem) (n : Nat) (hn : 1 ≤ n) (obs : List (List Corr2)) (h1 : p.baseToCamera.length ≤ p.intr.length)
    (h2 : p.baseToCamera.length ≤ p.observations.length) (h3 : p.baseToCamera.length ≤ obs.length)
    (h : ∀ c, c < p.baseToCamera.length → Repeated n (p.observations.getD c []) (obs.getD c [])) (r : McPnpResult) :
    Reaches (fun s => mcPnp s p) r ↔ Reaches (fun s => mcPnp s { p with observations := obs }) r := by
  obtain ⟨pb, hb⟩ := mcPnp_built h1 h2
  obtain ⟨pb', hb'⟩ := mcPnp_built (p := { p with observations := obs }) h1 h3
  have ha : CostAlike pb pb' := by
    refine .of_repeated (n := n) ?_
    rw [mcPnpBuild_eq hb, mcPnpBuild_eq hb']
    refine Repeated.map ?_ _
    unfold oneImage
    exact Repeated.flatMap hn fun c hc => Repeated.map (h c (List.mem_range.1 hc)) _
  exact ⟨mcPnp_repeat (p := p) (obs := p.observations) hb hb' ha, mcPnp_repeat (p := p) (obs' := p.observations) hb' hb ha.symm⟩

/-! ## Intrinsic calibration -/

/-- The problem of which `q` is the `n`-fold repetition. -/
noncomputable def once {β : Type} (n : Nat) (q : List (ResBlock β)) : List (ResBlock β) := by
  classical
  exact if (List.replicate n (q.take (q.length / n))).flatten = q then q.take (q.length / n) else q

theorem once_replicate {β : Type} {n : Nat} (hn : 1 ≤ n) (q : List (ResBlock β)) : once n (List.replicate n q).flatten = q := by
  obtain ⟨m, rfl⟩ : ∃ m, n = m + 1 := ⟨n - 1, by omega⟩
  have hl : (List.replicate (m + 1) q).flatten.length / (m + 1) = q.length := by
    rw [List.length_flatten, List.map_replicate, List.sum_replicate, smul_eq_mul]
    exact Nat.mul_div_cancel_left _ (by omega)
  have ht : (List.replicate (m + 1) q).flatten.take q.length = q := by
    rw [List.replicate_succ, List.flatten_cons, List.take_left]
  unfold once
  rw [hl, ht, if_pos rfl]

theorem replicate_alike {β : Type} {n : Nat} (hn : 1 ≤ n) (q : List (ResBlock β)) : CostAlike q (List.replicate n q).flatten :=
  .of_repeated ⟨hn, .refl _⟩

theorem once_alike {β : Type} {n : Nat} (hn : 1 ≤ n) (q : List (ResBlock β)) : CostAlike (once n q) q := by
  unfold once
  split
  · rename_i h
    have := replicate_alike hn (q.take (q.length / n))
    rwa [h] at this
  · exact .refl _

/-- Every image with each of its correspondences `n` times. -/
def eachRepeated (n : Nat) (p : IntrinsicProblem) : IntrinsicProblem :=
  { p with observations := p.observations.map fun im => (List.replicate n im).flatten }

theorem intrSolvePnP_repeat {n : Nat} (hn : 1 ≤ n) (s : Ceres V3) (intr : Intr) (im : List Corr2) (g : Pose6) :
    intrSolvePnP (s.through (once n)) intr (List.replicate n im).flatten g = intrSolvePnP s intr im g ∧
    intrSolvePnP (s.through fun q => (List.replicate n q).flatten) intr im g = intrSolvePnP s intr (List.replicate n im).flatten g := by
  obtain ⟨P, hP⟩ : ∃ P : PnPProblem Corr2, P = ⟨intr, im, poseCalToEigen g, "camera_to_target"⟩ := ⟨_, rfl⟩
  obtain ⟨P', hP'⟩ : ∃ P' : PnPProblem Corr2, P' = ⟨intr, (List.replicate n im).flatten, poseCalToEigen g, "camera_to_target"⟩ := ⟨_, rfl⟩
  have e : pnpBuild2 P' = (List.replicate n (pnpBuild2 P)).flatten := by
    rw [hP, hP']
    unfold pnpBuild2
    simp only
    rw [List.map_flatten, List.map_replicate]
  have hg : P.guess = P'.guess := by rw [hP, hP']
  have hl : P.label = P'.label := by rw [hP, hP']
  have ha : CostAlike (pnpBuild2 P) (pnpBuild2 P') := by rw [e]; exact replicate_alike hn _
  unfold intrSolvePnP
  rw [← hP, ← hP']
  have h1 : pnp2 (s.through (once n)) P' = pnp2 s P :=
    pnpFinish_alike s P P' hg hl ha (by rw [e]; exact once_replicate hn _)
  have h2 : pnp2 (s.through fun q => (List.replicate n q).flatten) P = pnp2 s P' :=
    pnpFinish_alike s P' P hg.symm hl.symm ha.symm e.symm
  rw [h1, h2]
  exact ⟨rfl, rfl⟩

theorem intrinsic_alike {p p' : IntrinsicProblem} {s3 s3' : Ceres V3} (hp : intrPoses s3' p' = intrPoses s3 p) (hg : p.guess = p'.guess)
    (hl : p.labelExtr = p'.labelExtr) (hn : p.observations.length = p'.observations.length)
    (ha : ∀ poses, CostAlike (intrBuild p poses) (intrBuild p' poses)) (h3 : s3'.WF) {s : Ceres Mem} (hs : s.WF) {r : IntrinsicResult}
    (hr : intrinsic s3 s p = .ok r) : ∃ r', ReachesIntrinsic p' r' ∧ IntrinsicResult.Alike r r' := by
  unfold intrinsic at hr
  obtain ⟨poses, hq, hr⟩ := (Res.bind_ok_iff _ _ _).1 hr
  have e := instead_self (intrBuild p' poses) (intrBuild p poses)
  have hinit : intrInit p' poses = intrInit p poses := by unfold intrInit; rw [hg]
  have hnames : intrNames p' = intrNames p := by unfold intrNames; rw [hl, hn]
  refine ⟨r, ⟨s3', _, h3, hs.throughAlike (instead_alike (ha poses)), ?_⟩, rfl, rfl, rfl, rfl, rfl⟩
  unfold intrinsic
  rw [hp, hq, Res.ok_bind, ← hr, hinit, hnames, ← hn]
  simp only [covSolverF_throughAlike s (ha poses) e, (ha poses).per]
  simp only [Ceres.through, e]

theorem intrBuild_repeat {n : Nat} (hn : 1 ≤ n) (p : IntrinsicProblem) (poses : List (Option Pose6)) :
    CostAlike (intrBuild p poses) (intrBuild (eachRepeated n p) poses) := by
  refine .of_repeated (n := n) ?_
  unfold intrBuild
  refine Repeated.flatMap hn fun i _ => Repeated.map ?_ _
  refine ⟨hn, ?_⟩
  have : (eachRepeated n p).observations.getD i [] = (List.replicate n (p.observations.getD i [])).flatten := by
    unfold eachRepeated
    simp only [List.getD_eq_getElem?_getD, List.getElem?_map]
    cases p.observations[i]? <;> simp
  rw [this]

/-- Intrinsic calibration: the correspondences of every image several times. -/
theorem C228_intrinsic (p : IntrinsicProblem) (n : Nat) (hn : 1 ≤ n) (r : IntrinsicResult) :
    (ReachesIntrinsic p r → ∃ r', ReachesIntrinsic { p with observations := p.observations.map fun im => (List.replicate n im).flatten } r' ∧
      IntrinsicResult.Alike r r') ∧
    (ReachesIntrinsic { p with observations := p.observations.map fun im => (List.replicate n im).flatten } r →
      ∃ r', ReachesIntrinsic p r' ∧ IntrinsicResult.Alike r r') := by
  have hm : ∀ {α β γ : Type} (f : α → β) (g : β → Res γ) (l : List α), Res.mapList g (l.map f) = Res.mapList (fun a => g (f a)) l := by
    intro α β γ f g l
    induction l with
    | nil => rfl
    | cons a l ih => simp only [List.map_cons, Res.mapList, ih]
  show (_ → ∃ r', ReachesIntrinsic (eachRepeated n p) r' ∧ _) ∧ (ReachesIntrinsic (eachRepeated n p) r → _)
  constructor
  · rintro ⟨s3, s, h3, hs, hr⟩
    refine intrinsic_alike (p := p) (p' := eachRepeated n p) (s3' := s3.through (once n)) ?_ rfl rfl (by simp [eachRepeated]) (intrBuild_repeat hn p) (h3.throughAlike (once_alike hn)) hs hr
    unfold intrPoses eachRepeated
    simp only [hm, (intrSolvePnP_repeat hn s3 _ _ _).1]
  · rintro ⟨s3, s, h3, hs, hr⟩
    refine intrinsic_alike (p := eachRepeated n p) (p' := p) (s3' := s3.through fun q => (List.replicate n q).flatten) ?_ rfl rfl (by simp [eachRepeated])
      (fun poses => (intrBuild_repeat hn p poses).symm) (h3.throughAlike fun q => (replicate_alike hn q).symm) hs hr
    unfold intrPoses eachRepeated
    simp only [hm, (intrSolvePnP_repeat hn s3 _ _ _).2]

/-- Every correspondence twice, and a result that is reached. -/
example : ∃ (p : PnPProblem Corr2) (cs : List Corr2) (r : PnPResult), Repeated 2 p.correspondences cs ∧ p.correspondences ≠ cs ∧
    Reaches (fun s => pnp2 s p) r := by
  obtain ⟨r, h⟩ : ∃ r, pnp2 (idCeres V3) ⟨⟨1, 1, 0, 0⟩, [⟨⟨0, 0⟩, ⟨1, 0, 2⟩⟩, ⟨⟨1, 0⟩, ⟨0, 0, 2⟩⟩], 1, "camera_to_target"⟩ = .ok r :=
    pnpFinish_returns _ _ [(⟨⟨0, 0⟩, ⟨1, 0, 2⟩⟩ : Corr2), ⟨⟨1, 0⟩, ⟨0, 0, 2⟩⟩] (by simp)
      (fun c => ⟨[pnpRot, pnpTrans], evalV2 (pnpCost2 ⟨1, 1, 0, 0⟩ c.inTarget c.inImage)⟩) (fun _ _ => rfl) rfl rfl
  refine ⟨_, [⟨⟨0, 0⟩, ⟨1, 0, 2⟩⟩, ⟨⟨0, 0⟩, ⟨1, 0, 2⟩⟩, ⟨⟨1, 0⟩, ⟨0, 0, 2⟩⟩, ⟨⟨1, 0⟩, ⟨0, 0, 2⟩⟩], r, ⟨by norm_num, ?_⟩, by simp, idCeres V3, idCeres_wf V3, h⟩
  exact .cons _ (.swap _ _ _)

/-- One observation with one correspondence, and three observations of it. -/
example (c t : Iso) (k : Corr2) : Repeated 3 (samples [⟨[k], c, t⟩]) (samples [⟨[k], c, t⟩, ⟨[k, k], c, t⟩]) := ⟨by norm_num, .refl _⟩

/-- An image of a camera used twice together with its wrist pose. -/
example (w : Iso) (a : List Corr2) : Repeated 2 (wristSamples [w] [a]) (wristSamples [w, w] [a, a]) := by
  refine ⟨by norm_num, ?_⟩
  simp [wristSamples]

end RCT
