import Mathlib.Data.List.Nodup
import Mathlib.Data.List.Range
import Mathlib.Tactic.Ring
import Mathlib.Tactic.Linarith

/-!
# Lists filled row by row
-/

namespace RCT

/-- The list of `g 0 0, g 0 1, …, g 0 (C-1), g 1 0, …`. -/
def gridList {α : Type _} (R C : Nat) (g : Nat → Nat → α) : List α :=
  (List.range R).flatMap fun r => (List.range C).map (g r)

theorem gridList_succ {α : Type _} (R C : Nat) (g : Nat → Nat → α) :
    gridList (R + 1) C g = gridList R C g ++ (List.range C).map (g R) := by
  simp [gridList, List.range_succ, List.flatMap_append]

theorem gridList_length {α : Type _} (R C : Nat) (g : Nat → Nat → α) : (gridList R C g).length = R * C := by
  induction R with
  | zero => simp [gridList]
  | succ R ih => simp [gridList_succ, ih, Nat.succ_mul]

theorem gridList_get {α : Type _} (R C : Nat) (g : Nat → Nat → α) (r c : Nat) (hr : r < R) (hc : c < C) :
    (gridList R C g)[r * C + c]? = some (g r c) := by
  induction R with
  | zero => omega
  | succ R ih =>
    rw [gridList_succ]
    by_cases h : r < R
    · have : r * C + c < (gridList R C g).length := by
        rw [gridList_length]
        calc r * C + c < r * C + C := by omega
          _ = (r + 1) * C := by ring
          _ ≤ R * C := Nat.mul_le_mul_right _ h
      rw [List.getElem?_append_left this, ih h]
    · have : r = R := by omega
      subst this
      rw [List.getElem?_append_right (by rw [gridList_length]; omega), gridList_length]
      simp [hc]

theorem mem_gridList {α : Type _} {R C : Nat} {g : Nat → Nat → α} {a : α} :
    a ∈ gridList R C g ↔ ∃ r c, r < R ∧ c < C ∧ g r c = a := by
  simp only [gridList, List.mem_flatMap, List.mem_range, List.mem_map]
  constructor
  · rintro ⟨r, hr, c, hc, h⟩; exact ⟨r, c, hr, hc, h⟩
  · rintro ⟨r, c, hr, hc, h⟩; exact ⟨r, hr, c, hc, h⟩

theorem gridList_nodup {α : Type _} {R C : Nat} {g : Nat → Nat → α}
    (h : ∀ r c r' c', r < R → c < C → r' < R → c' < C → g r c = g r' c' → r = r' ∧ c = c') :
    (gridList R C g).Nodup := by
  induction R with
  | zero => simp [gridList]
  | succ R ih =>
    rw [gridList_succ, List.nodup_append]
    refine ⟨ih fun r c r' c' hr hc hr' hc' => h r c r' c' (by omega) hc (by omega) hc', ?_, ?_⟩
    · refine List.Nodup.map_on ?_ List.nodup_range
      intro a ha b hb hab
      exact (h R a R b (by omega) (by simpa using ha) (by omega) (by simpa using hb) hab).2
    · intro a ha b hb hab
      subst hab
      obtain ⟨r, c, hr, hc, hg⟩ := mem_gridList.1 ha
      simp only [List.mem_map, List.mem_range] at hb
      obtain ⟨c', hc', hg'⟩ := hb
      have := (h r c R c' (by omega) hc (by omega) hc' (by rw [hg, hg'])).1
      omega

theorem map_gridList {α β : Type _} (R C : Nat) (g : Nat → Nat → α) (f : α → β) :
    (gridList R C g).map f = gridList R C fun r c => f (g r c) := by
  simp [gridList, List.map_flatMap, Function.comp_def]

/-- Every position of a row by row list is a row and a column. -/
theorem grid_index {R C n : Nat} (h : n < R * C) : ∃ r c, r < R ∧ c < C ∧ n = r * C + c := by
  have hC : 0 < C := by
    rcases Nat.eq_zero_or_pos C with h0 | h0
    · subst h0; simp at h
    · exact h0
  refine ⟨n / C, n % C, ?_, Nat.mod_lt _ hC, ?_⟩
  · exact (Nat.div_lt_iff_lt_mul hC).2 h
  · have := Nat.div_add_mod n C
    rw [Nat.mul_comm] at this; exact this.symm

theorem grid_index_unique {C r c r' c' : Nat} (hc : c < C) (hc' : c' < C) (h : r * C + c = r' * C + c') :
    r = r' ∧ c = c' := by
  have h1 : r = r' := by
    rcases Nat.lt_trichotomy r r' with hl | hl | hl
    · have : (r + 1) * C ≤ r' * C := Nat.mul_le_mul_right _ hl
      rw [Nat.succ_mul] at this; omega
    · exact hl
    · have : (r' + 1) * C ≤ r * C := Nat.mul_le_mul_right _ hl
      rw [Nat.succ_mul] at this; omega
  subst h1; exact ⟨rfl, by omega⟩

theorem grid_lt {R C r c : Nat} (hr : r < R) (hc : c < C) : r * C + c < R * C := by
  have : (r + 1) * C ≤ R * C := Nat.mul_le_mul_right _ hr
  rw [Nat.succ_mul] at this; omega

/-- Two lists of the same grid shape agree if they agree at every row and column. -/
theorem eq_gridList {α : Type _} {R C : Nat} {g : Nat → Nat → α} {l : List α} (hl : l.length = R * C)
    (h : ∀ r c : Nat, r < R → c < C → l[r * C + c]? = some (g r c)) : l = gridList R C g := by
  apply List.ext_getElem?
  intro n
  by_cases hn : n < R * C
  · obtain ⟨r, c, hr, hc, rfl⟩ := grid_index hn
    rw [h r c hr hc, gridList_get R C g r c hr hc]
  · rw [List.getElem?_eq_none (by omega), List.getElem?_eq_none (by rw [gridList_length]; omega)]

end RCT
