import Verif.Model.Masks
import Verif.Spec.Masks
import Verif.Lemmas.Pose
import Mathlib.Tactic.Linarith

/-!
# Lemmas about masks
-/

namespace RCT

theorem mem_unique (l : List Int) (x : Int) : x ∈ unique l ↔ x ∈ l := by
  fun_induction unique l <;> grind

theorem unique_pairwise (l : List Int) (h : l.Pairwise (· ≤ ·)) : (unique l).Pairwise (· < ·) := by
  fun_induction unique l with
  | case1 => simp
  | case2 => simp
  | case3 a l ih => exact ih (List.pairwise_cons.1 h).2
  | case4 a b l hab ih =>
    rw [List.pairwise_cons] at h ⊢
    refine ⟨?_, ih h.2⟩
    intro c hc
    rw [mem_unique] at hc
    have h1 : a ≤ b := h.1 b (by simp)
    have h2 : b ≤ c := by
      rcases List.mem_cons.1 hc with rfl | hc
      · exact le_refl _
      · exact (List.pairwise_cons.1 h.2).1 c hc
    omega

theorem mem_sortUnique (l : List Int) (x : Int) : x ∈ sortUnique l ↔ x ∈ l := by
  unfold sortUnique; rw [mem_unique, List.mem_insertionSort]

theorem sortUnique_pairwise (l : List Int) : (sortUnique l).Pairwise (· < ·) := by
  exact unique_pairwise _ (List.pairwise_insertionSort _ l)

theorem sortUnique_nodup (l : List Int) : (sortUnique l).Nodup :=
  (sortUnique_pairwise l).imp (fun h => ne_of_lt h)

theorem foldl_max_ge (l : List Int) (a : Int) : a ≤ l.foldl max a ∧ ∀ x ∈ l, x ≤ l.foldl max a := by
  induction l generalizing a with
  | nil => simp
  | cons b l ih =>
    have := ih (max a b)
    simp only [List.foldl_cons, List.mem_cons, forall_eq_or_imp]
    exact ⟨by omega, by omega, this.2⟩

theorem foldl_max_mem (l : List Int) (a : Int) : l.foldl max a = a ∨ l.foldl max a ∈ l := by
  induction l generalizing a with
  | nil => simp
  | cons b l ih =>
    simp only [List.foldl_cons, List.mem_cons]
    rcases ih (max a b) with h | h
    · rw [h]; rcases max_choice a b with h' | h' <;> rw [h'] <;> simp
    · simp [h]

theorem maxElement_mem {l : List Int} (h : l ≠ []) : maxElement l ∈ l := by
  cases l with
  | nil => exact absurd rfl h
  | cons a l =>
    rcases foldl_max_mem l a with h' | h' <;> simp [maxElement, h']

theorem le_maxElement {l : List Int} {x : Int} (h : x ∈ l) : x ≤ maxElement l := by
  cases l with
  | nil => simp at h
  | cons a l =>
    rcases List.mem_cons.1 h with rfl | h
    · exact (foldl_max_ge l _).1
    · exact (foldl_max_ge l a).2 x h

theorem sortUnique_ne_nil {l : List Int} (h : l ≠ []) : sortUnique l ≠ [] := by
  obtain ⟨a, l', rfl⟩ := List.exists_cons_of_ne_nil h
  intro hn
  have := (mem_sortUnique (a :: l') a).2 (by simp)
  rw [hn] at this; simp at this

/-- `n` distinct non-negative integers below `n` are all the integers below `n`. -/
theorem mem_of_full {l : List Int} {n : Nat} (hn : l.Nodup) (hr : ∀ x ∈ l, 0 ≤ x ∧ x < n) (hl : n ≤ l.length) (k : Nat)
    (hk : k < n) : (k : Int) ∈ l := by
  have hmap : (l.map Int.toNat).Nodup := by
    apply List.Nodup.map_on _ hn
    intro x hx y hy hxy
    have := hr x hx; have := hr y hy
    omega
  have hsub : (l.map Int.toNat) ⊆ List.range n := by
    intro x hx
    obtain ⟨y, hy, rfl⟩ := List.mem_map.1 hx
    have := hr y hy
    rw [List.mem_range]; omega
  have hperm := (hmap.subperm hsub).perm_of_length_le (by simpa using hl)
  have : k ∈ l.map Int.toNat := hperm.mem_iff.2 (by simpa using hk)
  obtain ⟨y, hy, hyk⟩ := List.mem_map.1 this
  have := hr y hy
  have : y = (k : Int) := by omega
  rwa [← this]

theorem length_le_of_range {l : List Int} {n : Nat} (hn : l.Nodup) (hr : ∀ x ∈ l, 0 ≤ x ∧ x < n) : l.length ≤ n := by
  have hmap : (l.map Int.toNat).Nodup := by
    apply List.Nodup.map_on _ hn
    intro x hx y hy hxy
    have := hr x hx; have := hr y hy
    omega
  have hsub : (l.map Int.toNat) ⊆ List.range n := by
    intro x hx
    obtain ⟨y, hy, rfl⟩ := List.mem_map.1 hx
    have := hr y hy
    rw [List.mem_range]; omega
  have := (hmap.subperm hsub).length_le
  simpa using this

end RCT
