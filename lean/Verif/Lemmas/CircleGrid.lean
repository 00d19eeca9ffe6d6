import Verif.Model.CircleGrid
import Verif.Lemmas.Grid
import Mathlib.Tactic.IntervalCases

/-!
# The index orders of the circle grid finder as grids
-/

namespace RCT

/-- Counter value of the `i`-th round of a loop. -/
def cnt (desc : Bool) (n i : Nat) : Nat := if desc then n - 1 - i else i

theorem counters_eq (desc : Bool) (n : Nat) : counters desc n = (List.range n).map (cnt desc n) := by
  unfold counters
  cases desc
  · have : cnt false n = id := by funext i; simp [cnt]
    simp [this]
  · apply List.ext_getElem
    · simp
    · intro i h1 h2
      simp [cnt]

theorem columnsFirst_eq (dj dk : Bool) (R C : Nat) :
    columnsFirst dj dk R C = gridList C R fun a l => cnt dk R l * C + cnt dj C a := by
  unfold columnsFirst gridList
  rw [counters_eq dj C, counters_eq dk R, List.flatMap_map]
  congr 1
  funext a
  rw [List.map_map]
  rfl

theorem range_eq_gridList (R C : Nat) : List.range (R * C) = gridList R C fun r c => r * C + c := by
  apply eq_gridList (by simp)
  intro r c hr hc
  rw [List.getElem?_eq_some_iff]
  have := grid_lt hr hc
  exact ⟨by simpa using this, by simp⟩

theorem range_reverse_get (n i : Nat) (h : i < n) : (List.range n).reverse[i]? = some (n - 1 - i) := by
  rw [List.getElem?_eq_some_iff]
  exact ⟨by simpa using h, by simp⟩

/-- 180 degree rotation of a grid position. -/
theorem grid_reverse {R C r c : Nat} (hr : r < R) (hc : c < C) :
    R * C - 1 - (r * C + c) = (R - 1 - r) * C + (C - 1 - c) := by
  obtain ⟨a, rfl⟩ : ∃ a, R = r + 1 + a := ⟨R - (r + 1), by omega⟩
  obtain ⟨b, rfl⟩ : ∃ b, C = c + 1 + b := ⟨C - (c + 1), by omega⟩
  have e1 : r + 1 + a - 1 - r = a := by omega
  have e2 : c + 1 + b - 1 - c = b := by omega
  rw [e1, e2]
  have : (r + 1 + a) * (c + 1 + b) = r * (c + 1 + b) + c + 1 + (a * (c + 1 + b) + b) := by ring
  omega

theorem reverse_eq_gridList (R C : Nat) :
    (List.range (R * C)).reverse = gridList R C fun r c => (R - 1 - r) * C + (C - 1 - c) := by
  apply eq_gridList (by simp)
  intro r c hr hc
  rw [range_reverse_get _ _ (grid_lt hr hc), grid_reverse hr hc]

theorem cnt_lt {desc : Bool} {n i : Nat} (h : i < n) : cnt desc n i < n := by
  unfold cnt; split <;> omega

theorem cnt_inj {desc : Bool} {n i j : Nat} (hi : i < n) (hj : j < n) (h : cnt desc n i = cnt desc n j) : i = j := by
  unfold cnt at h; split at h <;> omega

theorem columnsFirst_nodup (dj dk : Bool) (R C : Nat) : (columnsFirst dj dk R C).Nodup := by
  rw [columnsFirst_eq]
  apply gridList_nodup
  intro r c r' c' hr hc hr' hc' h
  obtain ⟨h1, h2⟩ := grid_index_unique (cnt_lt hr) (cnt_lt hr') h
  exact ⟨cnt_inj hr hr' h2, cnt_inj hc hc' h1⟩

theorem columnsFirst_lt {dj dk : Bool} {R C i : Nat} (h : i ∈ columnsFirst dj dk R C) : i < R * C := by
  rw [columnsFirst_eq] at h
  obtain ⟨r, c, hr, hc, rfl⟩ := mem_gridList.1 h
  exact grid_lt (cnt_lt hc) (cnt_lt hr)

theorem orderIndices_perm (c : Corner) (u : Bool) (R C : Nat) :
    (orderIndices c u R C (R * C)).Perm (List.range (R * C)) := by
  have hcf : ∀ dj dk, (columnsFirst dj dk R C).Perm (List.range (R * C)) := by
    intro dj dk
    have hsp : (columnsFirst dj dk R C).Subperm (List.range (R * C)) :=
      (columnsFirst_nodup dj dk R C).subperm fun i hi => List.mem_range.2 (columnsFirst_lt hi)
    apply hsp.perm_of_length_le
    rw [columnsFirst_eq, gridList_length, List.length_range, Nat.mul_comm]
  cases c <;> cases u <;> simp only [orderIndices]
  · exact hcf _ _
  · exact .refl _
  · exact hcf _ _
  · exact List.reverse_perm _
  · exact hcf _ _
  · exact hcf _ _
  · exact hcf _ _
  · exact hcf _ _

theorem mapList_idx {α : Type _} {l : List α} {is : List Nat} {out : List α}
    (h : Res.mapList (Res.idxList l) is = .ok out) :
    out.length = is.length ∧ ∀ p i : Nat, is[p]? = some i → i < l.length ∧ out[p]? = l[i]? := by
  refine ⟨Res.mapList_ok_length h, ?_⟩
  intro p i hp
  rw [Res.mapList_ok_iff] at h
  obtain ⟨h1, h2⟩ := List.getElem?_eq_some_iff.1 hp
  have := h.get (i := p) h1 (by rw [← h.length_eq]; exact h1)
  simp only [List.get_eq_getElem, h2] at this
  unfold Res.idxList at this
  cases hl : l[i]? with
  | none => rw [hl] at this; cases this
  | some a =>
    rw [hl] at this
    have e : a = out[p]'(by rw [← h.length_eq]; exact h1) := by injection this
    refine ⟨(List.getElem?_eq_some_iff.1 hl).1, ?_⟩
    rw [e]; simp

theorem mapList_idx_returns {α : Type _} {l : List α} {is : List Nat} (h : ∀ i ∈ is, i < l.length) :
    ∃ out, Res.mapList (Res.idxList l) is = .ok out := by
  induction is with
  | nil => exact ⟨[], rfl⟩
  | cons i is ih =>
    obtain ⟨out, ho⟩ := ih fun j hj => h j (by simp [hj])
    have hi := h i (by simp)
    exact ⟨l[i] :: out, by simp [Res.mapList, Res.idxList, hi, ho]⟩

theorem mapList_idx_range {α : Type _} (l : List α) : Res.mapList (Res.idxList l) (List.range l.length) = .ok l := by
  obtain ⟨out, h⟩ := mapList_idx_returns (l := l) (is := List.range l.length) fun i hi => List.mem_range.1 hi
  rw [h]
  obtain ⟨h1, h2⟩ := mapList_idx h
  congr 1
  apply List.ext_getElem?
  intro i
  by_cases hi : i < l.length
  · exact (h2 i i (by simp [hi])).2
  · rw [List.getElem?_eq_none (by rw [h1, List.length_range]; omega), List.getElem?_eq_none (by omega)]

/-- Reading a list at a permutation of its positions permutes the list. -/
theorem mapList_idx_perm {α : Type _} {l : List α} {is : List Nat} {out : List α}
    (hp : is.Perm (List.range l.length)) (h : Res.mapList (Res.idxList l) is = .ok out) : out.Perm l := by
  have key : ∀ (is js : List Nat), is.Perm js → ∀ os, Res.mapList (Res.idxList l) is = .ok os →
      ∃ os', Res.mapList (Res.idxList l) js = .ok os' ∧ os.Perm os' := by
    intro is js hperm
    induction hperm with
    | nil => intro os h; exact ⟨os, h, .refl _⟩
    | cons x _ ih =>
      intro os h
      simp only [Res.mapList, Res.bind_ok_iff] at h
      obtain ⟨b, hb, bs, hbs, e⟩ := h
      cases e
      obtain ⟨bs', h1, h2⟩ := ih bs hbs
      exact ⟨b :: bs', by simp [Res.mapList, hb, h1], h2.cons b⟩
    | swap x y l' =>
      intro os h
      simp only [Res.mapList, Res.bind_ok_iff] at h
      obtain ⟨b, hb, bs, ⟨b', hb', bs', hbs', e'⟩, e⟩ := h
      cases e'; cases e
      exact ⟨b' :: b :: bs', by simp [Res.mapList, hb, hb', hbs'], List.Perm.swap _ _ _⟩
    | trans _ _ ih1 ih2 =>
      intro os h
      obtain ⟨os', h1, h2⟩ := ih1 os h
      obtain ⟨os'', h3, h4⟩ := ih2 os' h1
      exact ⟨os'', h3, h2.trans h4⟩
  obtain ⟨os', h1, h2⟩ := key _ _ hp out h
  rw [mapList_idx_range] at h1
  cases h1
  exact h2

theorem szMul_eq {a b : Nat} (h : a * b < 2 ^ 31) : szMul a b = a * b := by
  unfold szMul; exact Nat.mod_eq_of_lt (by omega)

theorem szSub_eq {a b : Nat} (h : b ≤ a) (ha : a < 2 ^ 31) : szSub a b = a - b := by
  unfold szSub
  have : a + 2 ^ 64 - b = (a - b) + 2 ^ 64 := by omega
  rw [this, Nat.add_mod_right, Nat.mod_eq_of_lt (by omega)]

theorem szSub_wrap {a b : Nat} (h : a < b) (hb : b < 2 ^ 31) : 2 ^ 63 ≤ szSub a b := by
  unfold szSub
  rw [Nat.mod_eq_of_lt (by omega)]
  omega

end RCT
