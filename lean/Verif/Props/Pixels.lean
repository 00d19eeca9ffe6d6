import Verif.Spec.Pixels
import Verif.Props.Unit
import Verif.Props.IdentifyIntrinsic

/-!
# C226 Where pixels are counted from and how fine they are does not matter
-/

namespace RCT

open Spec

/-! ## Problems with all residuals multiplied -/

/-- All residuals of a block multiplied by `k`. -/
def ResBlock.times {β : Type} (k : ℝ) (b : ResBlock β) : ResBlock β := ⟨b.blocks, fun xs => (b.eval xs).map fun x => k * x⟩

theorem times_times {β : Type} {k : ℝ} (hk : k ≠ 0) (pb : List (ResBlock β)) :
    (pb.map (ResBlock.times k)).map (ResBlock.times k⁻¹) = pb := by
  rw [List.map_map]
  refine (List.map_congr_left fun b _ => ?_).trans (List.map_id pb)
  cases b
  simp [ResBlock.times, hk]

theorem times_one {β : Type} (pb : List (ResBlock β)) : pb.map (ResBlock.times 1) = pb := by
  refine (List.map_congr_left fun b _ => ?_).trans (List.map_id pb)
  cases b
  simp [ResBlock.times]

theorem usedBlocks_times {β : Type} (k : ℝ) (pb : List (ResBlock β)) : usedBlocks (pb.map (ResBlock.times k)) = usedBlocks pb := by
  unfold usedBlocks
  rw [List.flatMap_map]
  rfl

theorem residuals_times {β : Type} (k : ℝ) (pb : List (ResBlock β)) (st : Nat → β) :
    residuals (pb.map (ResBlock.times k)) st = (residuals pb st).map fun x => k * x := by
  have := residuals_map_scaled pb id (ResBlock.times k) st st k fun _ _ => rfl
  rwa [List.map_id] at this

/-- The solver that first divides the residuals by `k`. -/
noncomputable def Ceres.dividing {β : Type} (s : Ceres β) (k : ℝ) : Ceres β := s.through fun q => q.map (ResBlock.times k⁻¹)

theorem Ceres.WF.dividing {β : Type} {s : Ceres β} (hs : s.WF) {k : ℝ} (hk : k ≠ 0) : (s.dividing k).WF where
  frame := fun q st a ha => hs.frame _ st a (by rw [usedBlocks_times]; exact ha)
  descent := fun q st => by
    have := hs.descent (q.map (ResBlock.times k⁻¹)) st
    rw [cost_scaled (residuals_times _ _ _), cost_scaled (residuals_times _ _ _)] at this
    exact le_of_mul_le_mul_left this (pow_pos (by positivity : (0 : ℝ) < k⁻¹ ^ 2) 1 |>.trans_eq (pow_one _))
  order_perm := fun q => by
    have := hs.order_perm (q.map (ResBlock.times k⁻¹))
    rwa [usedBlocks_times] at this
  compute_no_throw := fun q => hs.compute_no_throw _

theorem dividing_solve {β : Type} (s : Ceres β) {k : ℝ} (hk : k ≠ 0) (pb : List (ResBlock β)) :
    (s.dividing k).solve (pb.map (ResBlock.times k)) = s.solve pb ∧ (s.dividing k).converged (pb.map (ResBlock.times k)) = s.converged pb ∧
      (s.dividing k).order (pb.map (ResBlock.times k)) = s.order pb ∧
      (∀ st n, (s.dividing k).covSolver (pb.map (ResBlock.times k)) st n = s.covSolver pb st n) ∧
      ∀ st f, (s.dividing k).covSolverF (pb.map (ResBlock.times k)) st f = s.covSolverF pb st f := by
  refine ⟨?_, ?_, ?_, fun st n => ?_, fun st f => ?_⟩
  · simp only [Ceres.dividing, Ceres.through, times_times hk]
  · simp only [Ceres.dividing, Ceres.through, times_times hk]
  · simp only [Ceres.dividing, Ceres.through, times_times hk]
  · simp only [Ceres.dividing, Ceres.through, Ceres.covSolver, times_times hk, usedBlocks_times]
  · simp only [Ceres.dividing, Ceres.through, Ceres.covSolverF, times_times hk, usedBlocks_times]

theorem costPerObs_times {β : Type} (k : ℝ) (pb : List (ResBlock β)) (st : Nat → β) :
    costPerObs (pb.map (ResBlock.times k)) st = times (k ^ 2) (costPerObs pb st) := costPerObs_scaled (residuals_times k pb st)

/-! ## Projections -/

theorem projectPoint_pixels (g : Pixels) (i : Intr) (p : V3) : projectPoint (g.intr i) p = g.point (projectPoint i p) := by
  unfold projectPoint Pixels.intr Pixels.point
  ext <;> simp only <;> ring

theorem projectPointE_pixels (g : Pixels) (i : Intr) (p : V3) : projectPointE (g.intr i) p = g.point (projectPointE i p) := by
  unfold projectPointE Pixels.intr Pixels.point
  simp only [M3.mulVec]
  split <;> ext <;> simp only <;> ring

theorem point_diff (g : Pixels) (a b : V2) : [(g.point a).x - (g.point b).x, (g.point a).y - (g.point b).y] =
    [a.x - b.x, a.y - b.y].map fun x => g.k * x := by
  simp only [Pixels.point, List.map_cons, List.map_nil, List.cons.injEq, and_true]
  constructor <;> ring

theorem times_block2 {α : Type} (k : ℝ) (bl : List Nat) (e : (α → α → List ℝ) → List α → List ℝ)
    (he : ∀ f (h : List ℝ → List ℝ), h [] = [] → ∀ xs, e (fun a b => h (f a b)) xs = h (e f xs)) (f f' : α → α → List ℝ)
    (h : ∀ a b, f' a b = (f a b).map fun x => k * x) : (⟨bl, e f'⟩ : ResBlock α) = ResBlock.times k ⟨bl, e f⟩ := by
  unfold ResBlock.times
  congr 1
  funext xs
  rw [← he f (fun l => l.map fun x => k * x) rfl xs]
  congr 1
  funext a b
  exact h a b

theorem times_eval2 (k : ℝ) (bl : List Nat) (f f' : Pose6 → Pose6 → List ℝ) (h : ∀ a b, f' a b = (f a b).map fun x => k * x) :
    (⟨bl, eval2 f'⟩ : ResBlock Pose6) = ResBlock.times k ⟨bl, eval2 f⟩ :=
  times_block2 k bl eval2 (fun f h h0 xs => by unfold eval2; split <;> simp [h0]) f f' h

theorem times_evalV2 (k : ℝ) (bl : List Nat) (f f' : V3 → V3 → List ℝ) (h : ∀ a b, f' a b = (f a b).map fun x => k * x) :
    (⟨bl, evalV2 f'⟩ : ResBlock V3) = ResBlock.times k ⟨bl, evalV2 f⟩ :=
  times_block2 k bl evalV2 (fun f h h0 xs => by unfold evalV2; split <;> simp [h0]) f f' h

theorem times_eval1 (k : ℝ) (bl : List Nat) (f f' : Pose6 → List ℝ) (h : ∀ a, f' a = (f a).map fun x => k * x) :
    (⟨bl, eval1 f'⟩ : ResBlock Pose6) = ResBlock.times k ⟨bl, eval1 f⟩ := by
  unfold ResBlock.times
  congr 1
  funext xs
  show eval1 f' xs = (eval1 f xs).map fun x => k * x
  unfold eval1
  split
  · exact h _
  · rfl

/-! ## PnP -/

theorem pnpBuild2_pixels (g : Pixels) (p : PnPProblem Corr2) : pnpBuild2 (g.pnp p) = (pnpBuild2 p).map (ResBlock.times g.k) := by
  unfold pnpBuild2 Pixels.pnp
  rw [List.map_map, List.map_map]
  refine List.map_congr_left fun c _ => times_evalV2 _ _ _ _ fun a b => ?_
  simp only [pnpCost2, projectPointE_pixels, Pixels.corr, point_diff]

theorem pnpFinish_pixels {κ : Type} (s : Ceres V3) {k : ℝ} (hk : k ≠ 0) {p p' : PnPProblem κ} (hg : p'.guess = p.guess) (hl : p'.label = p.label)
    (pb : List (ResBlock V3)) : pnpFinish (s.dividing k) p' (pb.map (ResBlock.times k)) =
      (pnpFinish s p pb).bind fun r => .ok { r with initialCost := times (k ^ 2) r.initialCost, finalCost := times (k ^ 2) r.finalCost } := by
  obtain ⟨h1, h2, -, h4, -⟩ := dividing_solve s hk pb
  unfold pnpFinish
  simp only [hg, hl, h1, h2, h4, costPerObs_times, Res.bind_assoc, Res.ok_bind]

theorem pnp2_pixels (s : Ceres V3) (g : Pixels) (hk : g.k ≠ 0) (p : PnPProblem Corr2) : pnp2 (s.dividing g.k) (g.pnp p) =
    (pnp2 s p).bind fun r => .ok { r with initialCost := times (g.k ^ 2) r.initialCost, finalCost := times (g.k ^ 2) r.finalCost } := by
  unfold pnp2
  rw [pnpBuild2_pixels]
  exact pnpFinish_pixels s hk rfl rfl _


/-! ## Results -/

theorem dividing_dividing {β : Type} (s : Ceres β) {k : ℝ} (hk : k ≠ 0) : (s.dividing k⁻¹).dividing k = s := by
  have e : ∀ q : List (ResBlock β), (q.map (ResBlock.times k⁻¹)).map (ResBlock.times k⁻¹⁻¹) = q := fun q => times_times (inv_ne_zero hk) q
  cases s
  simp only [Ceres.dividing, Ceres.through, e]

theorem dividing_one {β : Type} (s : Ceres β) : s.dividing 1 = s := by
  have e : ∀ q : List (ResBlock β), q.map (ResBlock.times 1⁻¹) = q := fun q => by rw [inv_one, times_one]
  cases s
  simp only [Ceres.dividing, Ceres.through, e]

theorem times_one_pow (o : Option ℝ) : times (1 ^ 2) o = o := by
  cases o <;> simp [times]

theorem matching_of {β ρ : Type} {run run' : Ceres β → Res ρ} {F : ρ → ρ} {same : ρ → ρ → Prop} {k : ℝ} (hk : k ≠ 0)
    (h : ∀ s : Ceres β, run' (s.dividing k) = (run s).bind fun r => .ok (F r)) (hF : ∀ r, same r (F r)) : Matching run run' same := by
  constructor
  · rintro r ⟨s, hs, hr⟩
    exact ⟨F r, ⟨s.dividing k, hs.dividing hk, by rw [h, hr, Res.ok_bind]⟩, hF r⟩
  · rintro r' ⟨s, hs, hr⟩
    have := h (s.dividing k⁻¹)
    rw [dividing_dividing s hk, hr] at this
    obtain ⟨r, h1, h2⟩ := (Res.bind_ok_iff _ _ _).1 this.symm
    cases h2
    exact ⟨r, ⟨_, hs.dividing (inv_ne_zero hk), h1⟩, hF r⟩

theorem bind_ok_self {ρ : Type} (x : Res ρ) : (x.bind fun r => .ok r) = x := by cases x <;> rfl

/-! ## Building -/

theorem idxList_map' {α γ : Type} (f : α → γ) (l : List α) (i : Nat) : Res.idxList (l.map f) i = (Res.idxList l i).bind fun a => .ok (f a) := by
  unfold Res.idxList
  rw [List.getElem?_map]
  cases l[i]? <;> rfl

theorem mapList_over {α γ δ : Type} (g : γ → Res δ) (f : α → γ) (l : List α) : Res.mapList g (l.map f) = Res.mapList (fun a => g (f a)) l := by
  induction l with
  | nil => rfl
  | cons a l ih => simp only [List.map_cons, Res.mapList, ih]

theorem mapList_after {α β γ : Type} (f : α → Res β) (g : β → γ) (l : List α) :
    Res.mapList (fun a => (f a).bind fun b => .ok (g b)) l = (Res.mapList f l).bind fun bs => .ok (bs.map g) := by
  induction l with
  | nil => rfl
  | cons a l ih =>
    simp only [Res.mapList, ih]
    cases f a <;> simp [Res.bind_assoc]

theorem mapList_times {α β : Type} {k : ℝ} {f f' : α → Res (ResBlock β)} (h : ∀ a, f' a = (f a).bind fun b => .ok (b.times k)) (l : List α) :
    Res.mapList f' l = (Res.mapList f l).bind fun bs => .ok (bs.map (ResBlock.times k)) := by
  rw [← mapList_after f (ResBlock.times k) l]
  congr 1
  funext a
  exact h a

theorem flatMapList_times {α β : Type} {k : ℝ} {f f' : α → Res (List (ResBlock β))}
    (h : ∀ a, f' a = (f a).bind fun b => .ok (b.map (ResBlock.times k))) (l : List α) :
    Res.flatMapList f' l = (Res.flatMapList f l).bind fun bs => .ok (bs.map (ResBlock.times k)) := by
  have : f' = fun a => (f a).bind fun b => .ok (b.map (ResBlock.times k)) := funext h
  rw [this]
  unfold Res.flatMapList
  rw [mapList_after f (fun b => b.map (ResBlock.times k)) l]
  cases Res.mapList f l <;> simp [List.map_flatten]

theorem mcPnpBuild_pixels (g : Pixels) (p : McPnpProblem) :
    mcPnpBuild (g.multiPnp p) = (mcPnpBuild p).bind fun pb => .ok (pb.map (ResBlock.times g.k)) := by
  unfold mcPnpBuild Pixels.multiPnp
  refine flatMapList_times (fun c => ?_) _
  simp only [idxList_map', Res.bind_assoc, Res.ok_bind]
  cases Res.idxList p.observations c with
  | ok obs =>
    simp only [Res.ok_bind]
    rw [mapList_over]
    refine mapList_times (fun k => ?_) _
    simp only [Res.bind_assoc, Res.ok_bind]
    congr 1
    funext b
    congr 1
    funext i
    congr 1
    refine times_eval1 _ _ _ _ fun a => ?_
    simp only [mcPnpCost, projectPoint_pixels, Pixels.corr, point_diff]
  | throw e => rfl
  | abort => rfl
  | ub => rfl

theorem msBuild_pixels (g : Pixels) (p : MsProblem) :
    msBuild (g.static p) = (msBuild p).bind fun pb => .ok (pb.map (ResBlock.times g.k)) := by
  unfold msBuild Pixels.static
  refine flatMapList_times (fun c => ?_) _
  simp only [Res.bind_assoc]
  congr 1
  funext wp
  refine flatMapList_times (fun i => ?_) _
  simp only [idxList_map', Res.bind_assoc, Res.ok_bind]
  congr 1
  funext oc
  congr 1
  funext oci
  rw [mapList_over]
  refine mapList_times (fun k => ?_) _
  simp only [Res.bind_assoc, Res.ok_bind]
  congr 1
  funext b
  congr 1
  funext i
  congr 1
  refine times_eval2 _ _ _ _ fun a b => ?_
  simp only [msCost, projectPoint_pixels, Pixels.corr, point_diff]

theorem woBuild_pixels (g : Pixels) (p : WoProblem) :
    woBuild (g.wristOnly p) = (woBuild p).bind fun pb => .ok (pb.map (ResBlock.times g.k)) := by
  unfold woBuild Pixels.wristOnly
  refine flatMapList_times (fun c => ?_) _
  refine flatMapList_times (fun i => ?_) _
  simp only [idxList_map', Res.bind_assoc, Res.ok_bind]
  congr 1
  funext oc
  congr 1
  funext oci
  rw [mapList_over]
  refine mapList_times (fun k => ?_) _
  simp only [Res.bind_assoc, Res.ok_bind]
  congr 1
  funext b
  congr 1
  funext i
  congr 1
  funext i
  congr 1
  refine times_eval2 _ _ _ _ fun a b => ?_
  simp only [woCost, projectPoint_pixels, Pixels.corr, point_diff]

theorem coBuild_pixels (g : Pixels) (p : CoProblem) :
    coBuild (g.cameraOnly p) = (coBuild p).bind fun pb => .ok (pb.map (ResBlock.times g.k)) := by
  unfold coBuild Pixels.cameraOnly
  refine flatMapList_times (fun c => ?_) _
  refine flatMapList_times (fun i => ?_) _
  simp only [idxList_map', Res.bind_assoc, Res.ok_bind]
  congr 1
  funext oc
  congr 1
  funext oci
  rw [mapList_over]
  refine mapList_times (fun k => ?_) _
  simp only [Res.bind_assoc, Res.ok_bind]
  congr 1
  funext j
  split
  · simp only [Res.bind_assoc, Res.ok_bind]
    congr 1
    funext b
    congr 1
    refine times_eval1 _ _ _ _ fun a => ?_
    simp only [coFixedCost, projectPoint_pixels, Pixels.corr, point_diff]
  · rw [Res.ok_bind]
    congr 1
    refine times_eval2 _ _ _ _ fun a b => ?_
    simp only [coFreeCost, projectPoint_pixels, Pixels.corr, point_diff]

theorem heBuild2_pixels (g : Pixels) (p : HandEyeProblem Corr2) :
    heBuild2 (g.handEye p) = (heBuild2 p).bind fun pb => .ok (pb.map (ResBlock.times g.k)) := by
  have hf : features (g.handEye p).observations =
      (features p.observations).map fun x => ({ x.1 with corrs := x.1.corrs.map g.corr }, g.corr x.2) := by
    unfold features Pixels.handEye
    simp only [List.flatMap_map, List.map_map, List.map_flatMap]
    rfl
  have hv : ∀ x : Obs Corr2 × Corr2, heVisible (g.handEye p) ({ x.1 with corrs := x.1.corrs.map g.corr }, g.corr x.2) ↔ heVisible p x := fun _ => Iff.rfl
  have hb : (features (g.handEye p).observations).map (heBlock2 (g.handEye p).intr) =
      ((features p.observations).map (heBlock2 p.intr)).map (ResBlock.times g.k) := by
    rw [hf, List.map_map, List.map_map]
    refine List.map_congr_left fun f _ => times_eval2 _ _ _ _ fun a b => ?_
    simp only [handEyeCost2, Pixels.handEye, projectPoint_pixels, Pixels.corr, point_diff]
  rcases heBuild2_cases p with ⟨h1, h2⟩ | ⟨⟨f, h0, h1⟩, h2⟩ <;> rcases heBuild2_cases (g.handEye p) with ⟨g1, g2⟩ | ⟨⟨y, g0, g1⟩, g2⟩
  · rw [h2, g2, hb, Res.ok_bind]
  · rw [hf] at g0
    obtain ⟨x, hx, rfl⟩ := List.mem_map.1 g0
    exact absurd ((hv x).2 (h1 x hx)) g1
  · exact absurd ((hv f).1 (g1 _ (by rw [hf]; exact List.mem_map_of_mem h0))) h1
  · rw [h2, g2]; rfl

/-! ## Calls -/

theorem handEye2_pixels (s : Ceres Pose6) (g : Pixels) (hk : g.k ≠ 0) (p : HandEyeProblem Corr2) : handEye2 (s.dividing g.k) (g.handEye p) =
    (handEye2 s p).bind fun r => .ok { r with initialCost := times (g.k ^ 2) r.initialCost, finalCost := times (g.k ^ 2) r.finalCost } := by
  unfold handEye2
  rw [heBuild2_pixels, Res.bind_assoc, Res.bind_assoc]
  congr 1
  funext pb
  obtain ⟨h1, h2, h3, h4, -⟩ := dividing_solve s hk pb
  have hi : heInit (g.handEye p) = heInit p := rfl
  unfold heFinish
  simp only [hi, h1, h2, h3, h4, costPerObs_times, Res.bind_assoc, Res.ok_bind]
  rfl

theorem mcPnp_pixels (s : Ceres Pose6) (g : Pixels) (hk : g.k ≠ 0) (p : McPnpProblem) : mcPnp (s.dividing g.k) (g.multiPnp p) =
    (mcPnp s p).bind fun r => .ok { r with initialCost := times (g.k ^ 2) r.initialCost, finalCost := times (g.k ^ 2) r.finalCost } := by
  unfold mcPnp
  rw [mcPnpBuild_pixels, Res.bind_assoc, Res.bind_assoc]
  congr 1
  funext pb
  obtain ⟨h1, h2, h3, h4, -⟩ := dividing_solve s hk pb
  have hi : (g.multiPnp p).guess = p.guess := rfl
  simp only [hi, h1, h2, h3, h4, costPerObs_times, Res.bind_assoc, Res.ok_bind]

theorem multiStatic_pixels (s : Ceres Pose6) (g : Pixels) (hk : g.k ≠ 0) (p : MsProblem) : multiStatic (s.dividing g.k) (g.static p) =
    (multiStatic s p).bind fun r => .ok { r with initialCost := times (g.k ^ 2) r.initialCost, finalCost := times (g.k ^ 2) r.finalCost } := by
  unfold multiStatic
  rw [msBuild_pixels, Res.bind_assoc, Res.bind_assoc]
  congr 1
  funext pb
  obtain ⟨h1, h2, h3, h4, -⟩ := dividing_solve s hk pb
  have hi : msInit (g.static p) = msInit p := rfl
  have hn : msNames (g.static p) = msNames p := rfl
  have hl : (g.static p).baseToCameraGuess = p.baseToCameraGuess := rfl
  simp only [hi, hn, hl, h1, h2, h3, h4, costPerObs_times, Res.bind_assoc, Res.ok_bind]

theorem wristOnly_pixels (s : Ceres Pose6) (g : Pixels) (hk : g.k ≠ 0) (p : WoProblem) : wristOnly (s.dividing g.k) (g.wristOnly p) =
    (wristOnly s p).bind fun r => .ok { r with initialCost := times (g.k ^ 2) r.initialCost, finalCost := times (g.k ^ 2) r.finalCost } := by
  unfold wristOnly
  rw [woBuild_pixels, Res.bind_assoc, Res.bind_assoc]
  congr 1
  funext pb
  obtain ⟨h1, h2, h3, h4, -⟩ := dividing_solve s hk pb
  have hi : woInit (g.wristOnly p) = woInit p := rfl
  have hl : (g.wristOnly p).baseToCameraGuess = p.baseToCameraGuess := rfl
  simp only [hi, hl, h1, h2, h3, h4, costPerObs_times, Res.bind_assoc, Res.ok_bind]

theorem cameraOnly_pixels (s : Ceres Pose6) (g : Pixels) (hk : g.k ≠ 0) (p : CoProblem) : cameraOnly (s.dividing g.k) (g.cameraOnly p) =
    (cameraOnly s p).bind fun r => .ok { r with initialCost := times (g.k ^ 2) r.initialCost, finalCost := times (g.k ^ 2) r.finalCost } := by
  unfold cameraOnly
  rw [coBuild_pixels, Res.bind_assoc, Res.bind_assoc]
  congr 1
  funext pb
  obtain ⟨h1, h2, h3, h4, -⟩ := dividing_solve s hk pb
  have hi : coInit (g.cameraOnly p) = coInit p := rfl
  have hl : (g.cameraOnly p).baseToCameraGuess = p.baseToCameraGuess := rfl
  have hl' : (g.cameraOnly p).baseToTargetGuess = p.baseToTargetGuess := rfl
  simp only [hi, hl, hl', h1, h2, h3, h4, costPerObs_times, Res.bind_assoc, Res.ok_bind]

/-! ## The claims -/

theorem C226_hand_eye (g : Pixels) (hk : g.k ≠ 0) (p : HandEyeProblem Corr2) :
    Matching (fun s => handEye2 s p) (fun s => handEye2 s (g.handEye p)) (HandEyeResult.Same (g.k ^ 2)) :=
  matching_of hk (fun s => handEye2_pixels s g hk p) fun _ => ⟨rfl, rfl, rfl, rfl, rfl⟩

theorem C226_pnp (g : Pixels) (hk : g.k ≠ 0) (p : PnPProblem Corr2) :
    Matching (fun s => pnp2 s p) (fun s => pnp2 s (g.pnp p)) (PnPResult.Same (g.k ^ 2)) :=
  matching_of hk (fun s => pnp2_pixels s g hk p) fun _ => ⟨rfl, rfl, rfl, rfl⟩

theorem C226_multi_pnp (g : Pixels) (hk : g.k ≠ 0) (p : McPnpProblem) :
    Matching (fun s => mcPnp s p) (fun s => mcPnp s (g.multiPnp p)) (McPnpResult.Same (g.k ^ 2)) :=
  matching_of hk (fun s => mcPnp_pixels s g hk p) fun _ => ⟨rfl, rfl, rfl, rfl⟩

theorem C226_static (g : Pixels) (hk : g.k ≠ 0) (p : MsProblem) :
    Matching (fun s => multiStatic s p) (fun s => multiStatic s (g.static p)) (MsResult.Same (g.k ^ 2)) :=
  matching_of hk (fun s => multiStatic_pixels s g hk p) fun _ => ⟨rfl, rfl, rfl, rfl, rfl⟩

theorem C226_wrist_only (g : Pixels) (hk : g.k ≠ 0) (p : WoProblem) :
    Matching (fun s => wristOnly s p) (fun s => wristOnly s (g.wristOnly p)) (WoResult.Same (g.k ^ 2)) :=
  matching_of hk (fun s => wristOnly_pixels s g hk p) fun _ => ⟨rfl, rfl, rfl, rfl, rfl⟩

theorem C226_camera_only (g : Pixels) (hk : g.k ≠ 0) (p : CoProblem) :
    Matching (fun s => cameraOnly s p) (fun s => cameraOnly s (g.cameraOnly p)) (CoResult.Same (g.k ^ 2)) :=
  matching_of hk (fun s => cameraOnly_pixels s g hk p) fun _ => ⟨rfl, rfl, rfl, rfl, rfl⟩

/-- Only the origin moves: the outcome is the same with the same solver, whatever it is. -/
theorem C226_origin (u v : ℝ) :
    (∀ (s : Ceres Pose6) p, handEye2 s (Pixels.handEye ⟨1, u, v⟩ p) = handEye2 s p) ∧
    (∀ (s : Ceres V3) p, pnp2 s (Pixels.pnp ⟨1, u, v⟩ p) = pnp2 s p) ∧
    (∀ (s : Ceres Pose6) p, mcPnp s (Pixels.multiPnp ⟨1, u, v⟩ p) = mcPnp s p) ∧
    (∀ (s : Ceres Pose6) p, multiStatic s (Pixels.static ⟨1, u, v⟩ p) = multiStatic s p) ∧
    (∀ (s : Ceres Pose6) p, wristOnly s (Pixels.wristOnly ⟨1, u, v⟩ p) = wristOnly s p) ∧
    (∀ (s : Ceres Pose6) p, cameraOnly s (Pixels.cameraOnly ⟨1, u, v⟩ p) = cameraOnly s p) ∧
    ∀ (K : KCeres) p i obs, kinematic2 K p (Pixels.intr ⟨1, u, v⟩ i) (Pixels.kinematic ⟨1, u, v⟩ obs) = kinematic2 K p i obs := by
  refine ⟨fun s p => ?_, fun s p => ?_, fun s p => ?_, fun s p => ?_, fun s p => ?_, fun s p => ?_, fun K p i obs => ?_⟩
  · have := handEye2_pixels s ⟨1, u, v⟩ one_ne_zero p
    simp only [dividing_one, times_one_pow] at this
    exact this.trans (bind_ok_self _)
  · have := pnp2_pixels s ⟨1, u, v⟩ one_ne_zero p
    simp only [dividing_one, times_one_pow] at this
    exact this.trans (bind_ok_self _)
  · have := mcPnp_pixels s ⟨1, u, v⟩ one_ne_zero p
    simp only [dividing_one, times_one_pow] at this
    exact this.trans (bind_ok_self _)
  · have := multiStatic_pixels s ⟨1, u, v⟩ one_ne_zero p
    simp only [dividing_one, times_one_pow] at this
    exact this.trans (bind_ok_self _)
  · have := wristOnly_pixels s ⟨1, u, v⟩ one_ne_zero p
    simp only [dividing_one, times_one_pow] at this
    exact this.trans (bind_ok_self _)
  · have := cameraOnly_pixels s ⟨1, u, v⟩ one_ne_zero p
    simp only [dividing_one, times_one_pow] at this
    exact this.trans (bind_ok_self _)
  · unfold kinematic2
    congr 1
    unfold kinCosts2 Pixels.kinematic
    rw [List.flatMap_map]
    refine flatMap_congr' fun o _ => ?_
    rw [List.map_map]
    refine List.map_congr_left fun c _ => ?_
    funext m
    unfold kinCost2
    simp only [Function.comp]
    congr 1
    funext T
    simp only [projectPointE_pixels, Pixels.corr, point_diff, List.map_cons, List.map_nil, one_mul]

/-! ## Intrinsic calibration -/

theorem intrSolvePnP_pixels (s : Ceres V3) (g : Pixels) (hk : g.k ≠ 0) (i : Intr) (obs : List Corr2) (q : Pose6) :
    intrSolvePnP (s.dividing g.k) (g.intr i) (obs.map g.corr) q = intrSolvePnP s i obs q := by
  unfold intrSolvePnP
  have := pnp2_pixels s g hk ⟨i, obs, poseCalToEigen q, "camera_to_target"⟩
  unfold Pixels.pnp at this
  simp only at this
  rw [this]
  cases pnp2 s ⟨i, obs, poseCalToEigen q, "camera_to_target"⟩ <;> rfl

theorem intrPoses_pixels (s : Ceres V3) (g : Pixels) (hk : g.k ≠ 0) (p : IntrinsicProblem) :
    intrPoses (s.dividing g.k) (g.intrinsic p) = intrPoses s p := by
  unfold intrPoses Pixels.intrinsic
  simp only [mapList_over, intrSolvePnP_pixels s g hk]

/-- The parameters of the camera in the new pixels. -/
def Mem.inPixels (g : Pixels) (m : Mem) : Mem := fun o =>
  match o with
  | 0 => g.k * m 0
  | 1 => g.k * m 1
  | 2 => g.k * m 2 + g.u
  | 3 => g.k * m 3 + g.v
  | n + 4 => m (n + 4)

def stateInPixels (g : Pixels) (st : Nat → Mem) : Nat → Mem := fun a => if a = intrBlk then (st a).inPixels g else st a

theorem projectPoints2_pixels (g : Pixels) (m : Mem) (c : V3) : projectPoints2 (m.inPixels g).intr9 c = g.point (projectPoints2 m.intr9 c) := by
  unfold projectPoints2 Mem.intr9 Mem.inPixels Pixels.point
  simp only
  ext <;> simp only <;> ring

theorem intrBuild_pixels (g : Pixels) (p : IntrinsicProblem) (poses : List (Option Pose6)) (st : Nat → Mem) :
    residuals (intrBuild (g.intrinsic p) poses) (stateInPixels g st) = (residuals (intrBuild p poses) st).map fun x => g.k * x := by
  unfold intrBuild residuals
  simp only [List.flatMap_assoc, List.map_flatMap]
  refine flatMap_congr' fun i _ => ?_
  have e : (g.intrinsic p).observations.getD i [] = (p.observations.getD i []).map g.corr := by
    simp only [Pixels.intrinsic, List.getD_eq_getElem?_getD, List.getElem?_map]
    cases p.observations[i]? <;> rfl
  rw [e, List.map_map, List.flatMap_map, List.flatMap_map]
  refine flatMap_congr' fun c _ => ?_
  have h0 : stateInPixels g st (poseBlk i) = st (poseBlk i) := by simp [stateInPixels, poseBlk, intrBlk]
  have h1 : stateInPixels g st intrBlk = (st intrBlk).inPixels g := by simp [stateInPixels]
  simp only [Function.comp, ResBlock.residual, List.map_cons, List.map_nil, evalMem2, h0, h1, intrinsicCost, projectPoints2_pixels, Pixels.corr,
    point_diff]

theorem intrInit_pixels (g : Pixels) (p : IntrinsicProblem) (poses : List (Option Pose6)) :
    intrInit (g.intrinsic p) poses = stateInPixels g (intrInit p poses) := by
  funext a
  unfold intrInit stateInPixels
  split
  · rename_i ha
    simp only [ha, if_true]
    funext o
    match o with
    | 0 => rfl
    | 1 => rfl
    | 2 => rfl
    | 3 => rfl
    | n + 4 => rfl
  · rename_i ha
    simp only [ha, if_false]

theorem intrBuild_blocks (g : Pixels) (p : IntrinsicProblem) (poses : List (Option Pose6)) :
    (intrBuild (g.intrinsic p) poses).map (·.blocks) = (intrBuild p poses).map (·.blocks) := by
  unfold intrBuild
  simp only [List.map_flatMap]
  refine flatMap_congr' fun i _ => ?_
  have e : (g.intrinsic p).observations.getD i [] = (p.observations.getD i []).map g.corr := by
    simp only [Pixels.intrinsic, List.getD_eq_getElem?_getD, List.getElem?_map]
    cases p.observations[i]? <;> rfl
  rw [e, List.map_map, List.map_map, List.map_map]
  rfl

theorem intrinsic_inPixels (g : Pixels) (hk : g.k ≠ 0) (p : IntrinsicProblem) (r : IntrinsicResult) (h : ReachesIntrinsic p r) :
    ∃ r', ReachesIntrinsic (g.intrinsic p) r' ∧ IntrinsicResult.Same g r r' := by
  obtain ⟨s3, s, h3, hs, h⟩ := h
  unfold intrinsic at h
  obtain ⟨poses, hp, h⟩ := (Res.bind_ok_iff _ _ _).1 h
  obtain ⟨cov, hc, h⟩ := (Res.bind_ok_iff _ _ _).1 h
  cases h
  obtain ⟨s', hs', k1, k2, -, k4, k5, k6⟩ := carry hs g.k (intrBuild_blocks g p poses)
    (init := intrInit p poses) (init' := intrInit (g.intrinsic p) poses)
    (fin' := stateInPixels g (s.solve (intrBuild p poses) (intrInit p poses)))
    (fun a ha => by
      rw [intrInit_pixels]
      unfold stateInPixels
      rw [hs.frame _ _ a ha])
    (by rw [intrInit_pixels]; exact intrBuild_pixels g p poses _) (intrBuild_pixels g p poses _)
  have hu : usedBlocks (intrBuild (g.intrinsic p) poses) = usedBlocks (intrBuild p poses) := by
    unfold usedBlocks
    have := congrArg (fun l : List (List Nat) => l.flatten.dedup) (intrBuild_blocks g p poses)
    simpa only [List.flatMap_def] using this
  have kF : s'.covSolverF (intrBuild (g.intrinsic p) poses) (stateInPixels g (s.solve (intrBuild p poses) (intrInit p poses))) intrSize =
      s.covSolverF (intrBuild p poses) (s.solve (intrBuild p poses) (intrInit p poses)) intrSize := by
    have c1 := congrArg CovSolver.compute (k4 0)
    have c2 := congrArg CovSolver.matrix (k4 0)
    unfold Ceres.covSolverF
    unfold Ceres.covSolver at c1 c2
    simp only at c1 c2
    rw [hu, c1, c2]
  refine ⟨⟨s'.converged (intrBuild (g.intrinsic p) poses) (intrInit (g.intrinsic p) poses),
    costPerObs (intrBuild (g.intrinsic p) poses) (intrInit (g.intrinsic p) poses),
    costPerObs (intrBuild (g.intrinsic p) poses) (stateInPixels g (s.solve (intrBuild p poses) (intrInit p poses))),
    g.intr ⟨s.solve (intrBuild p poses) (intrInit p poses) intrBlk 0, s.solve (intrBuild p poses) (intrInit p poses) intrBlk 1,
      s.solve (intrBuild p poses) (intrInit p poses) intrBlk 2, s.solve (intrBuild p poses) (intrInit p poses) intrBlk 3⟩,
    [s.solve (intrBuild p poses) (intrInit p poses) intrBlk 4, s.solve (intrBuild p poses) (intrInit p poses) intrBlk 5,
      s.solve (intrBuild p poses) (intrInit p poses) intrBlk 6, s.solve (intrBuild p poses) (intrInit p poses) intrBlk 7,
      s.solve (intrBuild p poses) (intrInit p poses) intrBlk 8], [], cov⟩, ⟨s3.dividing g.k, s', h3.dividing hk, hs', ?_⟩, ?_⟩
  · unfold intrinsic
    rw [intrPoses_pixels s3 g hk, hp, Res.ok_bind]
    simp only [k1, kF]
    have e1 : (g.intrinsic p).observations.length = p.observations.length := by simp [Pixels.intrinsic]
    have e2 : intrNames (g.intrinsic p) = intrNames p := by
      unfold intrNames
      rw [e1]; rfl
    rw [e1, e2, hc, Res.ok_bind]
    rfl
  · exact ⟨k2, k5, k6, rfl, rfl⟩

/-- The change back. -/
noncomputable def Pixels.back (g : Pixels) : Pixels := ⟨g.k⁻¹, -(g.k⁻¹ * g.u), -(g.k⁻¹ * g.v)⟩

theorem back_intr {g : Pixels} (hk : g.k ≠ 0) (i : Intr) : (Pixels.back g).intr (g.intr i) = i := by
  cases i
  simp only [Pixels.back, Pixels.intr, Intr.mk.injEq]
  refine ⟨?_, ?_, ?_, ?_⟩ <;> field_simp <;> ring

theorem intr_back {g : Pixels} (hk : g.k ≠ 0) (i : Intr) : g.intr ((Pixels.back g).intr i) = i := by
  cases i
  simp only [Pixels.back, Pixels.intr, Intr.mk.injEq]
  refine ⟨?_, ?_, ?_, ?_⟩ <;> field_simp <;> ring

theorem back_corr {g : Pixels} (hk : g.k ≠ 0) (c : Corr2) : (Pixels.back g).corr (g.corr c) = c := by
  cases c
  simp only [Pixels.back, Pixels.corr, Pixels.point, Corr2.mk.injEq, and_true]
  ext <;> simp only <;> field_simp <;> ring

theorem back_intrinsic {g : Pixels} (hk : g.k ≠ 0) (p : IntrinsicProblem) : (Pixels.back g).intrinsic (g.intrinsic p) = p := by
  have e : (Pixels.back g).corr ∘ g.corr = id := funext fun c => back_corr hk c
  cases p
  simp only [Pixels.intrinsic, back_intr hk, IntrinsicProblem.mk.injEq, and_true]
  rw [List.map_map]
  refine (List.map_congr_left fun l _ => ?_).trans (List.map_id _)
  simp only [Function.comp, List.map_map, e, List.map_id, id]

theorem C226_intrinsic (g : Pixels) (hk : g.k ≠ 0) (p : IntrinsicProblem) :
    (∀ r, ReachesIntrinsic p r → ∃ r', ReachesIntrinsic (g.intrinsic p) r' ∧ IntrinsicResult.Same g r r') ∧
    ∀ r', ReachesIntrinsic (g.intrinsic p) r' → ∃ r, ReachesIntrinsic p r ∧ IntrinsicResult.Same g r r' := by
  refine ⟨intrinsic_inPixels g hk p, fun r' h => ?_⟩
  have hb : (Pixels.back g).k ≠ 0 := inv_ne_zero hk
  obtain ⟨r, hr, h1, h2, h3, h4, h5⟩ := intrinsic_inPixels (Pixels.back g) hb _ r' h
  rw [back_intrinsic hk] at hr
  have ht : ∀ o : Option ℝ, times (g.k ^ 2) (times ((Pixels.back g).k ^ 2) o) = o := by
    intro o
    cases o
    · rfl
    · simp only [times, Option.map_some, Pixels.back]
      congr 1
      field_simp
  exact ⟨r, hr, h1.symm, by rw [h2, ht], by rw [h3, ht], by rw [h4, intr_back hk], h5.symm⟩

/-- Calls that return, in pixels half as large counted from another corner. -/
example : (∃ r, Reaches (fun s => handEye2 s (Pixels.handEye ⟨2, 3, -1⟩ (exProblem 1 1 ⟨0, 0⟩ ⟨0, 0, 1⟩ 1 1))) r) ∧
    (∃ r, Reaches (fun s => multiStatic s (Pixels.static ⟨2, 3, -1⟩ ⟨[⟨1, 1, 0, 0⟩], [[1]], [[[⟨⟨0, 0⟩, ⟨0, 0, 1⟩⟩]]], 1, [1], "t", "c"⟩)) r) ∧
    ∃ r, ReachesIntrinsic (Pixels.intrinsic ⟨2, 3, -1⟩ ⟨[[⟨⟨0, 0⟩, ⟨0, 0, 1⟩⟩]], ⟨1, 1, 0, 0⟩, "pose"⟩) r := by
  have hk : (⟨2, 3, -1⟩ : Pixels).k ≠ 0 := two_ne_zero
  refine ⟨?_, ?_, ?_⟩
  · obtain ⟨r, h⟩ := exProblem_returns ⟨0, 0⟩
    obtain ⟨r', h', -⟩ := (C226_hand_eye ⟨2, 3, -1⟩ hk _).1 r ⟨_, idCeres_wf Pose6, h⟩
    exact ⟨r', h'⟩
  · obtain ⟨r, h⟩ := msEx_returns
    obtain ⟨r', h', -⟩ := (C226_static ⟨2, 3, -1⟩ hk _).1 r ⟨_, idCeres_wf Pose6, h⟩
    exact ⟨r', h'⟩
  · obtain ⟨r, h⟩ := intrinsic_returns [[⟨⟨0, 0⟩, ⟨0, 0, 1⟩⟩]] (by simp) (by simp) ⟨1, 1, 0, 0⟩
    obtain ⟨r', h', -⟩ := (C226_intrinsic ⟨2, 3, -1⟩ hk _).1 r ⟨_, _, idCeres_wf V3, idCeres_wf Mem, h⟩
    exact ⟨r', h'⟩

end RCT
