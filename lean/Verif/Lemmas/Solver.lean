import Verif.Model.Solver
import Verif.Props.Covariance

namespace RCT

theorem cost_nonneg {β : Type} (pb : List (ResBlock β)) (st : Nat → β) : 0 ≤ cost pb st := by
  unfold cost
  have : 0 ≤ ((residuals pb st).map fun r => r * r).sum := by
    apply List.sum_nonneg
    intro x hx
    rw [List.mem_map] at hx
    obtain ⟨r, -, rfl⟩ := hx
    exact mul_self_nonneg r
  linarith

theorem cost_zero {β : Type} {pb : List (ResBlock β)} {st : Nat → β} (h : ∀ r ∈ residuals pb st, r = 0) :
    cost pb st = 0 := by
  unfold cost
  have : ((residuals pb st).map fun r => r * r) = List.replicate (residuals pb st).length 0 := by
    rw [List.eq_replicate_iff]
    refine ⟨by simp, ?_⟩
    intro x hx
    rw [List.mem_map] at hx
    obtain ⟨r, hr, rfl⟩ := hx
    rw [h r hr]; ring
  rw [this]; simp

theorem mem_usedBlocks {β : Type} {pb : List (ResBlock β)} {a : Nat} :
    a ∈ usedBlocks pb ↔ ∃ b ∈ pb, a ∈ b.blocks := by simp [usedBlocks]

theorem residuals_append {β : Type} (a b : List (ResBlock β)) (st : Nat → β) :
    residuals (a ++ b) st = residuals a st ++ residuals b st := by simp [residuals]

/-- Without masks the report lists every element of every block, in storage order, with its own label. -/
theorem computeCovariance_unmasked {cs : CovSolver} {blocks : List Nat} {names : SMap Nat (List String)} {res : CovResult}
    (hsz : ∀ b n, cs.blockSize b = some n → n < 2 ^ 31) (h : computeCovariance cs blocks names [] = .ok res) :
    ∃ full, cs.matrix blocks = some full ∧
      res.standard_deviations.length = (Spec.elements (fun b => (cs.blockSize b).getD 0) blocks).length ∧
      res.covariance_matrix.rows = (Spec.elements (fun b => (cs.blockSize b).getD 0) blocks).length ∧
      ∀ (k b i : Nat), (Spec.elements (fun b => (cs.blockSize b).getD 0) blocks)[k]? = some (b, i) →
        (∀ k' b' i' : Nat, (Spec.elements (fun b => (cs.blockSize b).getD 0) blocks)[k']? = some (b', i') →
          res.covariance_matrix.val k k' = full k k') ∧
        ∃ l s, names.find b = some l ∧ l[i]? = some s ∧
          res.standard_deviations[k]? = some ⟨s, "", res.correlation_matrix.val k k⟩ := by
  obtain ⟨full, idx, h1, h2, h3, h4, h5, h6, h7, h8⟩ := C25_free_parameters cs blocks names [] res
    ⟨hsz, by intro b l hl; simp [SMap.find] at hl⟩ h
  obtain ⟨E, hE⟩ : ∃ E, E = Spec.elements (fun b => (cs.blockSize b).getD 0) blocks := ⟨_, rfl⟩
  simp only [← hE] at h3 h8 ⊢
  have hidx : idx = List.range E.length := by
    apply List.Perm.eq_of_pairwise (le := (· < ·))
    · intro a b _ _ hab hba; omega
    · exact h2
    · exact List.pairwise_lt_range
    · rw [List.perm_ext_iff_of_nodup (h2.imp (fun h => Nat.ne_of_lt h)) List.nodup_range]
      intro k
      rw [h3, List.mem_range]
      constructor
      · rintro ⟨b, i, he, -⟩; exact (List.getElem?_eq_some_iff.1 he).1
      · intro hk
        exact ⟨E[k].1, E[k].2, by simp [List.getElem?_eq_getElem hk], by simp [SMap.find]⟩
  subst hidx
  have hget : ∀ k < E.length, (List.range E.length)[k]? = some k := fun k hk => by simp [hk]
  refine ⟨full, h1, by simpa using h7, by simpa using h4, ?_⟩
  intro k b i hk
  have hlt := (List.getElem?_eq_some_iff.1 hk).1
  refine ⟨?_, ?_⟩
  · intro k' b' i' hk'
    exact h6 k k' k k' (hget k hlt) (hget k' (List.getElem?_eq_some_iff.1 hk').1)
  · obtain ⟨b', i', l, s, e1, e2, e3, e4⟩ := h8 k k (hget k hlt)
    rw [hk] at e1; cases e1
    exact ⟨l, s, e2, e3, e4⟩

/-- `computeCovariance` throws only its own exception class or the one of `std::map::at` / `std::vector::at`, if the
covariance solver does not throw. -/
theorem tangentElem_throw {label : List String} {masks : List Int} {s : Tangent} {i : Nat} {e : Exc}
    (h : tangentElem label masks s i = .throw e) : e = .outOfRange := by
  unfold tangentElem at h
  split at h
  · cases h
  · unfold Res.atList at h
    split at h
    · cases h
    · simp at h; exact h.symm

theorem foldList_throw {α σ : Type} {f : σ → α → Res σ} {P : Exc → Prop}
    (hf : ∀ s a e, f s a = .throw e → P e) : ∀ (l : List α) (s : σ) (e : Exc), Res.foldList f s l = .throw e → P e := by
  intro l
  induction l with
  | nil => intro s e h; cases h
  | cons a l ih =>
    intro s e h
    rw [Res.foldList_cons] at h
    cases hfa : f s a with
    | ok s' => rw [hfa, Res.ok_bind] at h; exact ih s' e h
    | throw e' => rw [hfa, Res.throw_bind] at h; cases h; exact hf _ _ _ hfa
    | abort => rw [hfa] at h; cases h
    | ub => rw [hfa] at h; cases h

theorem computeCovarianceResults_not_throw_runtime (n : Nat) (v : Nat → Nat → ℝ) (names : List String)
    (h : names.length = n) (e : Exc) : computeCovarianceResults ⟨n, n, v⟩ names ≠ .throw e := by
  obtain ⟨res, h1, -⟩ := C24_report ⟨n, n, v⟩ names h rfl
  rw [h1]; simp

theorem computeCovariance_throw {cs : CovSolver} (hc : ∀ l e, cs.compute l ≠ .throw e) {blocks : List Nat}
    {names : SMap Nat (List String)} {masks : SMap Nat (List Int)} {e : Exc}
    (h : computeCovariance cs blocks names masks = .throw e) : e = .covariance ∨ e = .outOfRange := by
  unfold computeCovariance at h
  split at h
  · cases h; exact Or.inl rfl
  · cases hs : Res.foldList (tangentBlock cs names masks) ⟨0, [], []⟩ blocks with
    | throw e' =>
      rw [hs, Res.throw_bind] at h; cases h
      refine foldList_throw (P := fun e => e = .covariance ∨ e = .outOfRange) ?_ _ _ _ hs
      intro s b e hb
      unfold tangentBlock at hb
      cases hz : cs.blockSize b with
      | none => rw [hz] at hb; cases hb
      | some size =>
        rw [hz] at hb
        simp only at hb
        unfold SMap.at' at hb
        cases hf : SMap.find names b with
        | none => rw [hf] at hb; simp at hb; exact Or.inr hb.symm
        | some l =>
          rw [hf] at hb
          simp only [Res.ok_bind] at hb
          split at hb
          · cases hb; exact Or.inl rfl
          · right
            cases hfold : Res.foldList (tangentElem l ((masks.find b).getD [])) s (List.range size) with
            | ok a => rw [hfold] at hb; cases hb
            | abort => rw [hfold] at hb; cases hb
            | ub => rw [hfold] at hb; cases hb
            | throw e' =>
              rw [hfold] at hb; cases hb
              exact foldList_throw (P := fun e => e = .outOfRange) (fun _ _ _ => tangentElem_throw) _ _ _ hfold
    | abort => rw [hs] at h; cases h
    | ub => rw [hs] at h; cases h
    | ok s =>
      rw [hs, Res.ok_bind] at h
      cases hcc : cs.compute blocks with
      | throw e' => exact absurd hcc (hc _ _)
      | abort => rw [hcc] at h; cases h
      | ub => rw [hcc] at h; cases h
      | ok good =>
        rw [hcc, Res.ok_bind] at h
        split at h
        · cases h; exact Or.inl rfl
        · split at h
          · cases h; exact Or.inl rfl
          · exact absurd h (computeCovarianceResults_not_throw_runtime _ _ _ rfl _)

/-- When all checks pass there is a report. -/
theorem computeCovariance_returns {cs : CovSolver} {blocks : List Nat} {names : SMap Nat (List String)}
    {masks : SMap Nat (List Int)} (h1 : names.size = blocks.length)
    (h2 : ∀ b ∈ blocks, ∃ l, names.find b = some l ∧ cs.blockSize b = some l.length)
    (h3 : cs.compute blocks = .ok true) (h4 : (cs.matrix blocks).isSome) :
    ∃ res, computeCovariance cs blocks names masks = .ok res := by
  unfold computeCovariance
  rw [if_neg (by simp [h1])]
  rcases tangentBlocks_outcome cs names masks blocks ⟨0, [], []⟩
    (fun b hb => by obtain ⟨l, -, hl⟩ := h2 b hb; simp [hl]) with ⟨s, hs⟩ | ⟨⟨b, hb, hbad⟩, -⟩
  · obtain ⟨full, hf⟩ := Option.isSome_iff_exists.1 h4
    rw [hs, Res.ok_bind, h3, Res.ok_bind, hf]
    simp only [Bool.true_eq_false, if_false]
    obtain ⟨res, hr, -⟩ := C24_report
      ⟨s.labels.length, s.labels.length, fun r c => full (s.indices.getD r 0) (s.indices.getD c 0)⟩ s.labels rfl rfl
    exact ⟨res, hr⟩
  · obtain ⟨l, e1, e2⟩ := h2 b hb
    exact absurd e2 (hbad l e1)

/-- A solver that stays where it is and reports unit covariance; it meets the contract. -/
def idCeres (β : Type) : Ceres β where
  solve := fun _ st => st
  converged := fun _ _ => true
  order := usedBlocks
  covCompute := fun _ _ _ => .ok true
  covMatrix := fun _ _ _ => some fun r c => if r = c then 1 else 0

theorem idCeres_wf (β : Type) : (idCeres β).WF :=
  ⟨fun _ _ _ _ => rfl, fun _ _ => le_refl _, fun _ => List.Perm.refl _, fun _ _ _ _ h => by cases h⟩

/-- The blocks of a problem whose residual blocks all use the same nodup list of blocks. -/
theorem usedBlocks_const {α β : Type} (l : List α) (hl : l ≠ []) (g : α → ResBlock β) (bl : List Nat) (hbl : bl.Nodup)
    (h : ∀ a ∈ l, (g a).blocks = bl) : (usedBlocks (l.map g)).Perm bl := by
  rw [List.perm_ext_iff_of_nodup (show (usedBlocks (l.map g)).Nodup from List.nodup_dedup _) hbl]
  intro x
  rw [mem_usedBlocks]
  constructor
  · rintro ⟨b, hb, hx⟩
    obtain ⟨a, ha, rfl⟩ := List.mem_map.1 hb
    rwa [h a ha] at hx
  · intro hx
    obtain ⟨a, l', rfl⟩ := List.exists_cons_of_ne_nil hl
    exact ⟨g a, by simp, by rw [h a (by simp)]; exact hx⟩

theorem usedBlocks_nil {β : Type} : usedBlocks ([] : List (ResBlock β)) = [] := rfl

end RCT
