import Verif.Props.KinematicReport

/-! # C46: valid problems are accepted; C93, C94: what is printed and reported -/

namespace RCT

open Spec

theorem mem_kinBlocks {K : KCeres} (hK : K.WF) {p : KinProblem} {costs : List ((Nat → Mem) → Res (List ℝ))} (hne : costs ≠ [])
    {b : Block} (hb : b ∈ kinBlocks p (K.order (costs.map fun f => ⟨List.range 8, evalKin f⟩))) :
    ∃ a : Fin 8, b = ⟨a.val, kinSize p a.val,
      decide (a.val = 0 ∧ p.cameraChain.dof = 0) || decide (a.val = 1 ∧ p.targetChain.dof = 0), none⟩ ∧
      b.requested (kinMasks p) = p.masks a := by
  obtain ⟨x, hx, rfl⟩ := List.mem_map.1 hb
  rw [(hK.order_perm _).mem_iff, (usedBlocks_kin hne).mem_iff, List.mem_range] at hx
  refine ⟨⟨x, hx⟩, rfl, ?_⟩
  have := kinMasks_find p ⟨x, hx⟩
  simp only at this
  unfold Block.requested
  simp only
  rw [this]; rfl

theorem maskBlock_const {masks : SMap Nat (List Int)} {b b' : Block} (h : maskBlock masks b = (b', .ok ()))
    (hc : b.constant = true) : b'.constant = true := by
  unfold maskBlock at h
  split at h
  · cases h; exact hc
  · split at h
    · simp only at h
      split at h
      · cases h
      · split at h
        · cases h; rfl
        · split at h
          · cases h; exact hc
          · cases h
    · cases h; exact hc

theorem maskBlock_addr {masks : SMap Nat (List Int)} {b b' : Block} (h : maskBlock masks b = (b', .ok ())) :
    b'.addr = b.addr := (maskBlock_holds h).1

theorem kinNames_find (a : Fin 8) : ∃ n, kinNames.find a.val = some n := by
  fin_cases a <;> exact ⟨_, rfl⟩

theorem kinPrint_returns {p : KinProblem} {blocks : List Block} (h : ∀ b ∈ blocks, b.addr < 8) :
    ∃ l, kinPrint blocks (kinLabels p) (kinMasks p) = .ok l := by
  unfold kinPrint
  apply Res.mapList_returns
  intro b hb
  obtain ⟨l, hl, -⟩ := C46_label_count p ⟨b.addr, h b hb⟩
  have hm := kinMasks_find p ⟨b.addr, h b hb⟩
  obtain ⟨n, hn⟩ := kinNames_find ⟨b.addr, h b hb⟩
  simp only at hl hm hn
  have hs : ∃ sub, (if b.constant then (.ok [] : Res (List String)) else
      ((kinLabels p).at' b.addr).bind fun label => ((kinMasks p).at' b.addr).bind fun mask =>
        if mask.isEmpty then .ok label
        else (Res.mapList (fun j => Res.atList label j)
          ((List.range label.length).filter fun j => !(mask.any fun m => toSizeT m == j)))) = .ok sub := by
    split
    · exact ⟨_, rfl⟩
    · simp only [SMap.at', hl, hm, Res.ok_bind]
      split
      · exact ⟨_, rfl⟩
      · apply Res.mapList_returns
        intro j hj
        have hj' : j < l.length := List.mem_range.1 (List.mem_of_mem_filter hj)
        exact ⟨l[j], by simp [Res.atList, hj']⟩
  obtain ⟨sub, hs⟩ := hs
  exact ⟨(n, sub), by rw [hs, Res.ok_bind]; simp [SMap.at', hn]⟩

theorem kinPrior_returns {blocks : List Block} {a : Nat} {c : DHChain} {sd : ℝ} (h : ∃ b ∈ blocks, b.addr = a) :
    ∃ l, kinPrior blocks a c sd = .ok l := by
  unfold kinPrior
  split
  · obtain ⟨b, hb, hba⟩ := h
    have : ∃ b', blocks.find? (fun b => b.addr = a) = some b' := by
      cases hf : blocks.find? (fun b => decide (b.addr = a)) with
      | none =>
        rw [List.find?_eq_none] at hf
        exact absurd hba (by simpa using hf b hb)
      | some b' => exact ⟨b', rfl⟩
    obtain ⟨b', hb'⟩ := this
    have hc : isConstantBlock blocks a = .ok b'.constant := by unfold isConstantBlock; rw [hb']
    rw [hc, Res.ok_bind]
    split
    · exact ⟨_, rfl⟩
    · unfold MaxLik.make
      rw [if_neg (by simp)]
      exact ⟨_, rfl⟩
  · exact ⟨_, rfl⟩

/-- Problems with observations, joint values that fit the chains and masks of indices inside their groups are accepted:
if the covariance can be computed, the calibration returns a result. -/
theorem C46_accepts (K : KCeres) (hK : K.WF) (p : KinProblem) (hp : KinSane p)
    (costs : List ((Nat → Mem) → Res (List ℝ))) (hne : costs ≠ [])
    (hmask : ∀ a : Fin 8, ∀ k ∈ p.masks a, 0 ≤ k ∧ k < kinSize p a)
    (hev : ∀ f ∈ costs, ∃ l, f (kinInit p) = .ok l)
    (hcov : ∀ blocks pb st l, (K.run blocks).covCompute pb st l = .ok true ∧ ((K.run blocks).covMatrix pb st l).isSome) :
    ∃ r, kinOptimize K p costs = .ok r := by
  unfold kinOptimize
  simp only
  obtain ⟨pb0, hpb0⟩ : ∃ pb0, pb0 = costs.map fun f => (⟨List.range 8, evalKin f⟩ : ResBlock Mem) := ⟨_, rfl⟩
  have hmk : ∀ b ∈ kinBlocks p (K.order pb0), ∃ a : Fin 8, b = ⟨a.val, kinSize p a.val,
      decide (a.val = 0 ∧ p.cameraChain.dof = 0) || decide (a.val = 1 ∧ p.targetChain.dof = 0), none⟩ ∧
      b.requested (kinMasks p) = p.masks a := by
    intro b hb; rw [hpb0] at hb; exact mem_kinBlocks hK hne hb
  obtain ⟨blocks, hbl⟩ := C17_accepts (kinBlocks p (K.order pb0)) (kinMasks p) (fun b hb => by
      obtain ⟨a, rfl, hr⟩ := hmk b hb
      exact ⟨hp.size a, by rw [hr]; exact hp.int a⟩) (fun b hb => by
      obtain ⟨a, rfl, hr⟩ := hmk b hb
      rw [hr]; exact hmask a)
  rw [← hpb0, if_neg (by
    rintro ⟨-, h⟩
    rw [hpb0] at h
    simp at h
    exact hne h), hbl]
  simp only [Res.ok_bind]
  have hrel := hbl
  rw [addSubset_eq_loop, maskLoop_ok] at hrel
  have hex : ∀ a : Fin 8, ∃ b ∈ blocks, b.addr = a.val := by
    intro a
    have hmem : a.val ∈ K.order pb0 := by
      rw [(hK.order_perm pb0).mem_iff, hpb0, (usedBlocks_kin hne).mem_iff, List.mem_range]; exact a.2
    obtain ⟨b', hb', hm⟩ := Forall₂.mem_left hrel (List.mem_map.2 ⟨a.val, hmem, rfl⟩)
    exact ⟨b', hb', maskBlock_addr hm⟩
  have hlt : ∀ b ∈ blocks, b.addr < 8 := by
    intro b hb
    obtain ⟨b0, hb0, hm⟩ := Forall₂.mem_right hrel hb
    obtain ⟨a, rfl, -⟩ := hmk b0 hb0
    rw [maskBlock_addr hm]; exact a.2
  obtain ⟨prior0, h0⟩ := kinPrior_returns (a := 0) (c := p.cameraChain) (sd := p.cameraStdev) (hex 0)
  obtain ⟨prior1, h1⟩ := kinPrior_returns (a := 1) (c := p.targetChain) (sd := p.targetStdev) (hex 1)
  obtain ⟨pr, hpr⟩ := kinPrint_returns (p := p) hlt
  obtain ⟨ls, hls⟩ := Res.mapList_returns hev
  rw [h0, Res.ok_bind, h1, Res.ok_bind, hpr, Res.ok_bind, hls, Res.ok_bind]
  obtain ⟨pb, hpb⟩ : ∃ pb, pb = pb0 ++ prior0 ++ prior1 := ⟨_, rfl⟩
  have hused : (usedBlocks pb).Perm (List.range 8) := by
    rw [hpb, hpb0]; exact usedBlocks_kin_priors hne (kinPrior_cases h0) (kinPrior_cases h1)
  have hord : (K.order pb).Perm (List.range 8) := (hK.order_perm pb).trans hused
  obtain ⟨cov, hc⟩ := computeCovariance_returns
    (cs := (K.run blocks).covSolverF pb ((K.run blocks).solve pb (kinInit p)) (kinSize p)) (blocks := K.order pb)
    (names := kinLabels p) (masks := kinMasks p) (by rw [kinLabels_size, hord.length_eq]; rfl)
    (by
      intro b hb
      have hb8 : b < 8 := List.mem_range.1 (hord.mem_iff.1 hb)
      obtain ⟨l, hl, hll⟩ := C46_label_count p ⟨b, hb8⟩
      refine ⟨l, hl, ?_⟩
      have : b ∈ usedBlocks pb := hused.mem_iff.2 (List.mem_range.2 hb8)
      simp only [Ceres.covSolverF, this, if_true, hll])
    (hcov _ _ _ _).1 (hcov _ _ _ _).2
  rw [← hpb, hc, Res.ok_bind]
  exact ⟨_, rfl⟩

/-- A solver that stays at the initial values. -/
def idKCeres : KCeres := ⟨usedBlocks, fun _ => idCeres Mem⟩

theorem idKCeres_wf : idKCeres.WF :=
  ⟨fun _ => List.Perm.refl _, fun _ => idCeres_wf Mem, fun _ _ _ _ _ _ _ => rfl⟩

/-- A camera on a one-joint chain, a target without a chain, and a mask. -/
noncomputable def kinExProblem : KinProblem where
  cameraChain := kinExCamera
  targetChain := kinExTarget
  cmToC := 1
  tmToT := 1
  cbToTb := 1
  masks := fun a => if a = 0 then [1] else if a = 6 then [0, 1, 2] else []

theorem kinExProblem_sane : KinSane kinExProblem := by
  constructor
  · intro a k hk
    simp only [kinExProblem] at hk
    split at hk
    · simp at hk; subst hk; simp [IsInt]
    · split at hk
      · simp at hk; rcases hk with rfl | rfl | rfl <;> simp [IsInt]
      · cases hk
  · intro a
    unfold kinSize kinExProblem
    simp only [kinRows, DHChain.dof, kinExCamera, kinExTarget]
    split
    · simp
    · split <;> simp

/-- Non-vacuity: a run of this problem with one measurement returns. -/
theorem kinEx_returns (w q : ℝ) : ∃ r, kinematic6 idKCeres kinExProblem w [⟨1, [q], []⟩] = .ok r := by
  apply C46_accepts idKCeres idKCeres_wf _ kinExProblem_sane
  · simp
  · intro a k hk
    simp only [kinExProblem] at hk
    split at hk
    · rename_i h
      simp at hk; subst hk; subst h
      simp [kinSize, kinRows, kinExProblem, kinExCamera, DHChain.dof]
    · split at hk
      · rename_i h
        subst h
        simp at hk; rcases hk with rfl | rfl | rfl <;> simp [kinSize]
      · cases hk
  · intro f hf
    simp only [List.map_cons, List.map_nil, List.mem_singleton] at hf
    subst hf
    unfold kinCost6
    rw [kinCameraToTarget_eq, if_pos (by simp [kinExProblem, kinExCamera, kinExTarget, DHChain.dof]), Res.ok_bind]
    exact ⟨_, rfl⟩
  · intro _ _ _ _; exact ⟨rfl, rfl⟩

/-! ## C93 Printed labels -/

/-- The elements of group `a` that the optimisation may change. -/
def kinFree (p : KinProblem) (a : Fin 8) (k : Nat) : Bool :=
  decide ((k : Int) ∉ p.masks a) && !(decide (a = 0 ∧ p.cameraChain.transforms = [])) &&
    !(decide (a = 1 ∧ p.targetChain.transforms = []))

/-- Before optimising, the program lists, for every group once, the labels of exactly the parameters that are free. -/
theorem C93_printed (K : KCeres) (hK : K.WF) (p : KinProblem) (hp : KinSane p) (hnn : ∀ a, ∀ k ∈ p.masks a, 0 ≤ k)
    (costs : List ((Nat → Mem) → Res (List ℝ))) (r : KinResult) (h : kinOptimize K p costs = .ok r) :
    ∃ groups : List (Fin 8), groups.Perm (List.finRange 8) ∧
      List.Forall₂ (fun a (e : String × List String) => kinNames.find a.val = some e.1 ∧
        ∃ l, (kinLabels p).find a.val = some l ∧
          e.2 = ((List.range l.length).filter (kinFree p a)).map fun k => l.getD k "") groups r.printed := by
  obtain ⟨R⟩ := kinOptimize_ok hK h
  have hord : (K.order R.pb0).Perm (List.range 8) := (hK.order_perm R.pb0).trans R.used0
  have hrel := R.blocks_rel
  unfold kinBlocks at hrel
  rw [List.forall₂_map_left_iff] at hrel
  -- the groups in the order of the blocks
  obtain ⟨groups, hg⟩ : ∃ groups : List (Fin 8), groups.map (fun a => a.val) = K.order R.pb0 := by
    have : ∀ l : List Nat, (∀ a ∈ l, a < 8) → ∃ g : List (Fin 8), g.map (fun a => a.val) = l := by
      intro l
      induction l with
      | nil => intro _; exact ⟨[], rfl⟩
      | cons a l ih =>
        intro h
        obtain ⟨g, hg⟩ := ih fun x hx => h x (by simp [hx])
        exact ⟨⟨a, h a (by simp)⟩ :: g, by simp [hg]⟩
    exact this _ fun a ha => List.mem_range.1 (hord.mem_iff.1 ha)
  have hgp : groups.Perm (List.finRange 8) := by
    rw [List.perm_ext_iff_of_nodup ?_ (List.nodup_finRange 8)]
    · intro a
      simp only [List.mem_finRange, iff_true]
      have : a.val ∈ groups.map fun a => a.val := by rw [hg, hord.mem_iff, List.mem_range]; exact a.2
      obtain ⟨b, hb, e⟩ := List.mem_map.1 this
      rw [← Fin.ext e]; exact hb
    · apply List.Nodup.of_map (fun a : Fin 8 => a.val)
      rw [hg]; exact hord.nodup_iff.2 List.nodup_range
  refine ⟨groups, hgp, ?_⟩
  rw [← hg, List.forall₂_map_left_iff] at hrel
  have hpr := R.printed
  unfold kinPrint at hpr
  rw [Res.mapList_ok_iff] at hpr
  rw [List.forall₂_iff_get] at hrel hpr ⊢
  refine ⟨hrel.1.trans hpr.1, fun i h1 h2 => ?_⟩
  have hb := hrel.2 i h1 (by rw [← hrel.1]; exact h1)
  have he := hpr.2 i (by rw [← hrel.1]; exact h1) h2
  obtain ⟨a, ha⟩ : ∃ a, a = groups.get ⟨i, h1⟩ := ⟨_, rfl⟩
  obtain ⟨b, hbb⟩ : ∃ b, b = R.blocks.get ⟨i, by rw [← hrel.1]; exact h1⟩ := ⟨_, rfl⟩
  obtain ⟨e, hee⟩ : ∃ e, e = r.printed.get ⟨i, h2⟩ := ⟨_, rfl⟩
  rw [← ha] at hb ⊢
  rw [← hbb] at hb he
  rw [← hee] at he ⊢
  have haddr : b.addr = a.val := maskBlock_addr hb
  obtain ⟨l, hl, hll⟩ := C46_label_count p a
  obtain ⟨n, hn⟩ := kinNames_find a
  have hm := kinMasks_find p a
  rw [Res.bind_ok_iff] at he
  obtain ⟨sub, hsub, he⟩ := he
  rw [haddr] at hsub he
  simp only [SMap.at', hn, Res.ok_bind, Res.ok.injEq] at he
  subst he
  refine ⟨hn, l, hl, ?_⟩
  simp only
  -- effect of the masks
  have hreq : (⟨a.val, kinSize p a.val, decide (a.val = 0 ∧ p.cameraChain.dof = 0) ||
      decide (a.val = 1 ∧ p.targetChain.dof = 0), none⟩ : Block).requested (kinMasks p) = p.masks a := by
    unfold Block.requested; simp only; rw [hm]; rfl
  have heff := maskBlock_effect (kinMasks p) _ _ (fun x hx => by
    rw [hreq] at hx; exact ⟨hp.int a x hx, hnn a x hx⟩) hb
  obtain ⟨B, hB⟩ : ∃ B : Bool, B = (decide (a.val = 0 ∧ p.cameraChain.dof = 0) ||
      decide (a.val = 1 ∧ p.targetChain.dof = 0)) := ⟨_, rfl⟩
  rw [← hB] at hb heff hreq
  have e0 : a.val = 0 ↔ a = 0 := ⟨fun h => Fin.ext h, fun h => by rw [h]; rfl⟩
  have e1 : a.val = 1 ↔ a = 1 := ⟨fun h => Fin.ext h, fun h => by rw [h]; rfl⟩
  have hfree : ∀ k, kinFree p a k = (decide ((k : Int) ∉ p.masks a) && !B) := by
    intro k
    rw [hB]
    unfold kinFree DHChain.dof
    simp only [e0, e1, List.length_eq_zero_iff, Bool.not_or, Bool.and_assoc]
  obtain ⟨-, -, -, hheld, -, -⟩ := heff
  rw [hreq] at hheld
  by_cases hc : b.constant = true
  · rw [if_pos hc] at hsub
    cases hsub
    symm
    rw [List.map_eq_nil_iff, List.filter_eq_nil_iff]
    intro k hk
    rw [List.mem_range, hll] at hk
    rw [hfree]
    rcases (hheld rfl k hk).1 (Or.inl hc) with (h | ⟨s, h, -⟩) | h
    · simp only at h; simp [h]
    · cases h
    · simp [h]
  · rw [if_neg hc] at hsub
    have hBf : B = false := by
      cases B with
      | false => rfl
      | true => exact absurd (maskBlock_const hb rfl) hc
    simp only [SMap.at', hl, hm, Res.ok_bind] at hsub
    split at hsub
    · rename_i he
      have he' : p.masks a = [] := by simpa using he
      cases hsub
      rw [List.filter_eq_self.2 (fun k _ => by rw [hfree, hBf, he']; simp)]
      apply List.ext_getElem?
      intro k
      rw [List.getElem?_map]
      by_cases hk : k < l.length
      · rw [List.getElem?_range hk, List.getElem?_eq_getElem hk]; simp [List.getD_eq_getElem?_getD, hk]
      · rw [List.getElem?_eq_none (by omega), List.getElem?_eq_none (by simp; omega)]; rfl
    · have hfl : (List.range l.length).filter (fun j => !((p.masks a).any fun m => toSizeT m == j)) =
          (List.range l.length).filter (kinFree p a) := by
        apply List.filter_congr
        intro j _
        rw [hfree, hBf]
        simp only [Bool.not_false, Bool.and_true]
        rw [Bool.eq_iff_iff]
        simp only [Bool.not_eq_true', List.any_eq_false, beq_iff_eq, decide_eq_true_eq]
        constructor
        · intro h hj
          apply h _ hj
          rw [toSizeT_nonneg (hp.int a _ hj) (hnn a _ hj)]; simp
        · intro h m hm' hj
          apply h
          rw [toSizeT_nonneg (hp.int a _ hm') (hnn a _ hm')] at hj
          have := hnn a _ hm'
          rw [← hj, Int.toNat_of_nonneg this]; exact hm'
      rw [hfl] at hsub
      rw [Res.mapList_ok_iff] at hsub
      have : List.Forall₂ (fun j s => l.getD j "" = s) ((List.range l.length).filter (kinFree p a)) sub := by
        refine hsub.imp ?_
        intro j s hjs
        unfold Res.atList at hjs
        cases hlj : l[j]? with
        | none => rw [hlj] at hjs; cases hjs
        | some x => rw [hlj] at hjs; cases hjs; simp [List.getD_eq_getElem?_getD, hlj]
      have := List.forall₂_map_left_iff.2 this
      rw [List.forall₂_eq_eq_eq] at this
      exact this.symm

/-! ## C94 Reported names -/

/-- The names of the real parameters: those of the joints and of the three transforms. -/
def IsKinName (p : KinProblem) (n : String) : Prop :=
  (∃ t ∈ p.cameraChain.transforms ++ p.targetChain.transforms, ∃ c : Fin 4, n = t.name ++ dhSuffix c) ∨
  ∃ l ∈ [p.labelCamera, p.labelTarget, p.labelBase], ∃ s ∈ ["_x", "_y", "_z", "_rx", "_ry", "_rz"], n = l ++ s

theorem mem_chainLabels {c : DHChain} {s n : String} (h : c.transforms ≠ []) (hn : n ∈ concatLabels (chainLabels c s)) :
    ∃ t ∈ c.transforms, ∃ k : Fin 4, n = t.name ++ dhSuffix k := by
  have hd : c.dof ≠ 0 := by unfold DHChain.dof; simpa using h
  have hc : chainLabels c s = (c.transforms.map fun t => t.paramLabels).map fun l i => l.getD i.val "" := by
    unfold chainLabels DHChain.getParamLabels
    rw [if_pos hd]
  rw [concatLabels_eq, hc] at hn
  simp only [List.map_map, List.mem_append, List.mem_map, Function.comp] at hn
  rcases hn with ((⟨t, ht, rfl⟩ | ⟨t, ht, rfl⟩) | ⟨t, ht, rfl⟩) | ⟨t, ht, rfl⟩
  · exact ⟨t, ht, 0, rfl⟩
  · exact ⟨t, ht, 1, rfl⟩
  · exact ⟨t, ht, 2, rfl⟩
  · exact ⟨t, ht, 3, rfl⟩

/-- Full statement: every name in the covariance report is the name of a parameter of the calibration, for all chains.
Proved when a chain without joints has the four elements of its dummy group masked. Missing: chains without joints and
without such masks, where the statement is false (`C94_negation`). -/
theorem C94_partial (K : KCeres) (hK : K.WF) (p : KinProblem) (hp : KinSane p) (costs : List ((Nat → Mem) → Res (List ℝ)))
    (r : KinResult) (h : kinOptimize K p costs = .ok r)
    (hc : p.cameraChain.transforms = [] → ∀ k : Fin 4, (k.val : Int) ∈ p.masks 0)
    (ht : p.targetChain.transforms = [] → ∀ k : Fin 4, (k.val : Int) ∈ p.masks 1) :
    ∀ sd ∈ r.covariance.standard_deviations, IsKinName p sd.first := by
  obtain ⟨elems, -, hmem, hf⟩ := C46_report K hK p hp costs r h
  intro sd hsd
  obtain ⟨⟨a, i⟩, he, l, hl, hli⟩ := Forall₂.mem_right hf hsd
  obtain ⟨a', rfl, hi, hm⟩ := (hmem a i).1 he
  have hml : sd.first ∈ l := List.mem_of_getElem? hli
  unfold kinLabels at hl
  simp only [SMap.find_insert] at hl
  have hx : ∀ (L : String), L ∈ [p.labelCamera, p.labelTarget, p.labelBase] → sd.first ∈ posLabels L ++ aaLabels L →
      IsKinName p sd.first := by
    intro L hL hn
    refine Or.inr ⟨L, hL, ?_⟩
    simp only [posLabels, aaLabels, List.cons_append, List.nil_append, List.mem_cons, List.not_mem_nil, or_false] at hn
    rcases hn with h | h | h | h | h | h
    · exact ⟨"_x", by simp, h⟩
    · exact ⟨"_y", by simp, h⟩
    · exact ⟨"_z", by simp, h⟩
    · exact ⟨"_rx", by simp, h⟩
    · exact ⟨"_ry", by simp, h⟩
    · exact ⟨"_rz", by simp, h⟩
  fin_cases a'
  · by_cases h0 : p.cameraChain.transforms = []
    · exfalso
      have : i < 4 := by simpa [kinSize, kinRows, DHChain.dof, h0] using hi
      exact hm (hc h0 ⟨i, this⟩)
    · have e : concatLabels (chainLabels p.cameraChain "camera_chain_placeholder") = l := by simpa using hl
      rw [← e] at hml
      obtain ⟨t, ht, k, hk⟩ := mem_chainLabels h0 hml
      exact Or.inl ⟨t, by simp [ht], k, hk⟩
  · by_cases h0 : p.targetChain.transforms = []
    · exfalso
      have : i < 4 := by simpa [kinSize, kinRows, DHChain.dof, h0] using hi
      exact hm (ht h0 ⟨i, this⟩)
    · have e : concatLabels (chainLabels p.targetChain "target_chain_placeholder") = l := by simpa using hl
      rw [← e] at hml
      obtain ⟨t, ht, k, hk⟩ := mem_chainLabels h0 hml
      exact Or.inl ⟨t, by simp [ht], k, hk⟩
  · have e : posLabels p.labelCamera = l := by simpa using hl
    exact hx p.labelCamera (by simp) (by rw [e]; simp [hml])
  · have e : aaLabels p.labelCamera = l := by simpa using hl
    exact hx p.labelCamera (by simp) (by rw [e]; simp [hml])
  · have e : posLabels p.labelTarget = l := by simpa using hl
    exact hx p.labelTarget (by simp) (by rw [e]; simp [hml])
  · have e : aaLabels p.labelTarget = l := by simpa using hl
    exact hx p.labelTarget (by simp) (by rw [e]; simp [hml])
  · have e : posLabels p.labelBase = l := by simpa using hl
    exact hx p.labelBase (by simp) (by rw [e]; simp [hml])
  · have e : aaLabels p.labelBase = l := by simpa using hl
    exact hx p.labelBase (by simp) (by rw [e]; simp [hml])

/-- Every run with a camera chain without joints whose dummy group is not masked reports a parameter that does not exist. -/
theorem C94_negation (K : KCeres) (hK : K.WF) (p : KinProblem) (hp : KinSane p) (costs : List ((Nat → Mem) → Res (List ℝ)))
    (r : KinResult) (h : kinOptimize K p costs = .ok r) (hc : p.cameraChain.transforms = []) (hm : p.masks 0 = []) :
    ∃ sd ∈ r.covariance.standard_deviations, sd.first = "camera_chain_placeholder_d" := by
  obtain ⟨elems, -, hmem, hf⟩ := C46_report K hK p hp costs r h
  have he : (0, 0) ∈ elems := (hmem 0 0).2 ⟨0, rfl, by simp [kinSize, kinRows, DHChain.dof, hc], by rw [hm]; simp⟩
  obtain ⟨sd, hsd, l, hl, hli⟩ := Forall₂.mem_left hf he
  refine ⟨sd, hsd, ?_⟩
  unfold kinLabels at hl
  simp only [SMap.find_insert] at hl
  have e : concatLabels (chainLabels p.cameraChain "camera_chain_placeholder") = l := by simpa using hl
  rw [← e, concatLabels_eq] at hli
  simp [chainLabels, DHChain.dof, hc] at hli
  rw [← hli]

/-- Non-vacuity of both: the run of `kinEx_returns` has a chain without joints (that of the target), and masking it makes
`C94_partial` apply; a run with the roles of the chains exchanged meets the hypotheses of `C94_negation`. -/
theorem kinEx_returns' (w q : ℝ) : ∃ p r, KinSane p ∧ p.cameraChain.transforms = [] ∧ p.masks 0 = [] ∧
    kinematic6 idKCeres p w [⟨1, [], [q]⟩] = .ok r := by
  obtain ⟨p, hpe⟩ : ∃ p : KinProblem, p =
    { kinExProblem with cameraChain := kinExTarget, targetChain := kinExCamera, masks := fun _ => [] } := ⟨_, rfl⟩
  have hs : KinSane p := by
    rw [hpe]
    constructor
    · intro a k hk; cases hk
    · intro a
      unfold kinSize
      simp only [kinRows, DHChain.dof, kinExCamera, kinExTarget]
      split
      · simp
      · split <;> simp
  have : ∃ r, kinematic6 idKCeres p w [⟨1, [], [q]⟩] = .ok r := by
    apply C46_accepts idKCeres idKCeres_wf _ hs
    · simp
    · intro a k hk; rw [hpe] at hk; cases hk
    · intro f hf
      simp only [List.map_cons, List.map_nil, List.mem_singleton] at hf
      subst hf
      unfold kinCost6
      rw [kinCameraToTarget_eq, if_pos (by simp [hpe, kinExCamera, kinExTarget, DHChain.dof]), Res.ok_bind]
      exact ⟨_, rfl⟩
    · intro _ _ _ _; exact ⟨rfl, rfl⟩
  obtain ⟨r, hr⟩ := this
  exact ⟨p, r, hs, by rw [hpe]; rfl, by rw [hpe], hr⟩

/-! ## C92 Orientation parameters and the predicted pose -/

/-- Full statement: two different rotation vectors with angles below π give different transforms, i.e. every orientation
parameter influences the prediction. Proved for angles above the double epsilon. Missing: a neighbourhood of zero, which
is the default guess and where the statement is false (`C92_negation`). -/
theorem C92_partial (t a b : V3) (ha : a.norm > 1 / 2 ^ 52) (hb : b.norm > 1 / 2 ^ 52) (ha' : a.norm < Real.pi)
    (hb' : b.norm < Real.pi) (h : kinTransform t a = kinTransform t b) : a = b := by
  rw [kinTransform_big ha, kinTransform_big hb] at h
  have hR : AngleAxis.toMat ⟨a.norm, a.normalized⟩ = AngleAxis.toMat ⟨b.norm, b.normalized⟩ := congrArg Iso.R h
  have pa : 0 < a.norm := lt_trans (by norm_num) ha
  have pb : 0 < b.norm := lt_trans (by norm_num) hb
  have ua := V3.normSq_normalized (ne_zero_of_norm ha)
  have ub := V3.normSq_normalized (ne_zero_of_norm hb)
  have hn : a.norm = b.norm := by
    have e1 := rotAngle_angleAxis ua pa.le ha'.le
    have e2 := rotAngle_angleAxis ub pb.le hb'.le
    rw [← e1, ← e2, hR]
  have hs : Real.sin a.norm ≠ 0 := (Real.sin_pos_of_pos_of_lt_pi pa ha').ne'
  rw [← hn] at hR
  have hx := congrArg (fun m => m.m21 - m.m12) hR
  have hy := congrArg (fun m => m.m02 - m.m20) hR
  have hz := congrArg (fun m => m.m10 - m.m01) hR
  simp only [AngleAxis.toMat] at hx hy hz
  have ex : a.normalized.x = b.normalized.x := mul_left_cancel₀ hs (by linarith)
  have ey : a.normalized.y = b.normalized.y := mul_left_cancel₀ hs (by linarith)
  have ez : a.normalized.z = b.normalized.z := mul_left_cancel₀ hs (by linarith)
  have e : a.normalized = b.normalized := V3.ext ex ey ez
  have sm : ∀ v : V3, 0 < v.norm → v ≠ 0 → V3.smul v.norm v.normalized = v := by
    intro v hv hv0
    rw [V3.normalized_of_ne hv0]
    ext <;> simp <;> field_simp
  rw [← sm a pa (ne_zero_of_norm ha), ← sm b pb (ne_zero_of_norm hb), e, hn]

/-- At the default guess (zero rotation vectors) the residuals do not depend on the orientation parameters at all: any
change up to the double epsilon leaves every residual unchanged. -/
theorem C92_negation (cc tc : DHChain) (p p' : Nat → Mem) (h : ∀ a, a ≠ 3 → a ≠ 5 → a ≠ 7 → p a = p' a)
    (hs : ∀ a, a = 3 ∨ a = 5 ∨ a = 7 → (p a).v3 = 0 ∧ (p' a).v3.norm ≤ 1 / 2 ^ 52) :
    (∀ intr o k, kinCost2 cc tc intr o k p = kinCost2 cc tc intr o k p') ∧
    ∀ w m, kinCost6 cc tc w m p = kinCost6 cc tc w m p' := by
  have hz : (0 : V3).norm = 0 := by simp [V3.norm, V3.normSq, V3.dot]
  have ht : ∀ a t, a = 3 ∨ a = 5 ∨ a = 7 → kinTransform t (p a).v3 = kinTransform t (p' a).v3 := by
    intro a t ha
    obtain ⟨h1, h2⟩ := hs a ha
    rw [kinTransform_small (by rw [h1, hz]; exact not_lt.2 dblEps_pos.le), kinTransform_small (not_lt.2 h2)]
  have key : ∀ qc qt, kinCameraToTarget cc tc qc qt p = kinCameraToTarget cc tc qc qt p' := by
    intro qc qt
    unfold kinCameraToTarget
    simp only [h 0 (by omega) (by omega) (by omega), h 1 (by omega) (by omega) (by omega),
      h 2 (by omega) (by omega) (by omega), h 4 (by omega) (by omega) (by omega), h 6 (by omega) (by omega) (by omega),
      ht 3 _ (by simp), ht 5 _ (by simp), ht 7 _ (by simp)]
  constructor
  · intro intr o k; unfold kinCost2; rw [key]
  · intro w m; unfold kinCost6; rw [key]

/-- Non-vacuity: identity guesses give zero rotation vectors. -/
example : (kinInit kinExProblem 3).v3 = 0 ∧ (kinInit kinExProblem 5).v3 = 0 ∧ (kinInit kinExProblem 7).v3 = 0 := by
  have h : aaOf 1 = 0 := by
    have h1 : rotAngle (1 : Iso).R = 0 := by
      simp [rotAngle]
    have hr : (1 : Iso).R.IsRot := Iso.IsRigid.one
    unfold aaOf
    rw [toAngleAxis_angle hr, h1]
    ext <;> simp
  refine ⟨?_, ?_, ?_⟩ <;> (change aaOf 1 = 0; exact h)

end RCT
