import Verif.Spec.Tools

/-!
# Loops that collect items
-/

namespace RCT

open Spec

variable {Img : Type}

theorem SelectedAt.nil {A : Type} (P : Nat → A → Prop) : SelectedAt 0 P [] ([] : List A) :=
  ⟨.nil, by simp, .nil⟩

theorem selectedAt_skip {A : Type} {n : Nat} {P : Nat → A → Prop} {js : List Nat} {as : List A} (h : SelectedAt n P js as)
    (hn : ¬ ∃ a, P n a) : SelectedAt (n + 1) P js as := by
  refine ⟨h.1, fun j => ?_, h.2.2⟩
  rw [h.2.1]
  constructor
  · rintro ⟨hj, ha⟩; exact ⟨by omega, ha⟩
  · rintro ⟨hj, ha⟩
    by_cases hjn : j = n
    · subst hjn; exact absurd ha hn
    · exact ⟨by omega, ha⟩

theorem selectedAt_take {A : Type} {n : Nat} {P : Nat → A → Prop} {js : List Nat} {as : List A} (h : SelectedAt n P js as)
    {a : A} (ha : P n a) : SelectedAt (n + 1) P (js ++ [n]) (as ++ [a]) := by
  refine ⟨?_, fun j => ?_, List.rel_append h.2.2 (.cons ha .nil)⟩
  · rw [List.pairwise_append]
    refine ⟨h.1, by simp, fun x hx y hy => ?_⟩
    rw [List.mem_singleton.1 hy]
    exact ((h.2.1 x).1 hx).1
  · rw [List.mem_append, List.mem_singleton, h.2.1]
    constructor
    · rintro (⟨hj, hb⟩ | rfl)
      · exact ⟨by omega, hb⟩
      · exact ⟨by omega, a, ha⟩
    · rintro ⟨hj, hb⟩
      by_cases hjn : j = n
      · exact Or.inr hjn
      · exact Or.inl ⟨by omega, hb⟩

/-- A loop whose steps either add the item of their number or do nothing. -/
theorem fold_collect {S A : Type} {step : S → Nat → Res S} {add : S → A → S} {P : Nat → A → Prop} {s0 : S} {n : Nat} {s : S}
    (hstep : ∀ s i s', i < n → step s i = .ok s' → (s' = s ∧ ¬ ∃ a, P i a) ∨ ∃ a, P i a ∧ s' = add s a)
    (h : Res.foldList step s0 (List.range n) = .ok s) :
    ∃ js as, SelectedAt n P js as ∧ s = as.foldl add s0 := by
  have key : ∀ k s, k ≤ n → Res.foldList step s0 (List.range k) = .ok s → ∃ js as, SelectedAt k P js as ∧ s = as.foldl add s0 := by
    intro k
    induction k with
    | zero => intro s _ h; cases h; exact ⟨[], [], SelectedAt.nil P, rfl⟩
    | succ k ih =>
      intro s hk h
      rw [List.range_succ, Res.foldList_append, Res.bind_ok_iff] at h
      obtain ⟨s1, h1, h⟩ := h
      rw [Res.foldList_cons, Res.bind_ok_iff] at h
      obtain ⟨s2, h2, h⟩ := h
      cases h
      obtain ⟨js, as, hs, rfl⟩ := ih s1 (by omega) h1
      rcases hstep _ _ _ (by omega) h2 with ⟨rfl, hno⟩ | ⟨a, ha, rfl⟩
      · exact ⟨js, as, selectedAt_skip hs hno, rfl⟩
      · exact ⟨js ++ [k], as ++ [a], selectedAt_take hs ha, by simp⟩
  exact key n s (Nat.le_refl _) h

theorem fold_returns {S : Type} {step : S → Nat → Res S} {n : Nat} (hstep : ∀ s i, i < n → ∃ s', step s i = .ok s') (s0 : S) :
    ∃ s, Res.foldList step s0 (List.range n) = .ok s := by
  have key : ∀ k, k ≤ n → ∃ s, Res.foldList step s0 (List.range k) = .ok s := by
    intro k
    induction k with
    | zero => intro _; exact ⟨_, rfl⟩
    | succ k ih =>
      intro hk
      obtain ⟨s, hs⟩ := ih (by omega)
      obtain ⟨s', hs'⟩ := hstep s k (by omega)
      exact ⟨s', by rw [List.range_succ, Res.foldList_append, hs, Res.ok_bind, Res.foldList_cons, hs']; rfl⟩
  exact key n (Nat.le_refl _)

theorem collectIdx_ok_iff {α : Type} (l : List α) (i : Nat) (a : α) : Res.idxList l i = .ok a ↔ l[i]? = some a := by
  unfold Res.idxList
  cases l[i]? <;> simp

theorem collectIdx_lt {α : Type} {l : List α} {i : Nat} (h : i < l.length) : Res.idxList l i = .ok l[i] := by
  rw [collectIdx_ok_iff]; simp

theorem atList_lt {α : Type} {l : List α} {i : Nat} (h : i < l.length) : Res.atList l i = .ok l[i] := by
  unfold Res.atList
  rw [List.getElem?_eq_getElem h]

end RCT
