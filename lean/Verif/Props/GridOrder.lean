import Verif.Props.LargeCircle

/-!
# C69: neighbourhood and handedness of the ordered circle grid
-/

namespace RCT

open Spec

/-- Circles per row of the list OpenCV returned: `rows` if the flipped pattern was found. -/
def layoutCols (rows cols : Nat) (flipped : Bool) : Nat := if flipped then rows else cols

/-- The orderings that copy the list forwards or backwards. -/
def Straight (d : GridDecision) : Prop := d.usual = true ∧ (d.corner = .startLast ∨ d.corner = .endFirst)

/-- The output has rows of `cols` circles. -/
def Fits (rows cols : Nat) (flipped : Bool) (d : GridDecision) : Prop :=
  rows = cols ∨ (flipped = false ∧ Straight d) ∨ (flipped = true ∧ ¬ Straight d)

/-- Loop directions of the orderings that are not straight. -/
theorem orderIndices_cases (d : GridDecision) (R C n : Nat) :
    (Straight d ∧ (orderIndices d.corner d.usual R C n = List.range n ∨
      orderIndices d.corner d.usual R C n = (List.range n).reverse)) ∨
    (¬ Straight d ∧ ∃ dj dk, orderIndices d.corner d.usual R C n = columnsFirst dj dk R C ∧
      (d.usual = (dj != dk))) := by
  obtain ⟨c, u⟩ := d
  cases c <;> cases u
  · exact .inr ⟨by simp [Straight], true, true, rfl, rfl⟩
  · exact .inl ⟨by simp [Straight], .inl rfl⟩
  · exact .inr ⟨by simp [Straight], false, false, rfl, rfl⟩
  · exact .inl ⟨by simp [Straight], .inr rfl⟩
  · exact .inr ⟨by simp [Straight], false, false, rfl, rfl⟩
  · exact .inr ⟨by simp [Straight], false, true, rfl, rfl⟩
  · exact .inr ⟨by simp [Straight], true, true, rfl, rfl⟩
  · exact .inr ⟨by simp [Straight], true, false, rfl, rfl⟩

theorem cnt_adj {desc : Bool} {n i j : Nat} (hi : i < n) (hj : j < n) (h : i = j + 1 ∨ j = i + 1) :
    cnt desc n i = cnt desc n j + 1 ∨ cnt desc n j = cnt desc n i + 1 := by
  unfold cnt; split <;> omega

theorem cnt_adj_inv {desc : Bool} {n i j : Nat} (hi : i < n) (hj : j < n)
    (h : cnt desc n i = cnt desc n j + 1 ∨ cnt desc n j = cnt desc n i + 1) : i = j + 1 ∨ j = i + 1 := by
  unfold cnt at h; split at h <;> omega

/-- Neighbouring positions are neighbouring rows or columns. -/
theorem gridNbr_iff {C r c r' c' : Nat} (hc : c < C) (hc' : c' < C) :
    GridNbr C (r * C + c) (r' * C + c') ↔
      (r = r' ∧ (c = c' + 1 ∨ c' = c + 1)) ∨ (c = c' ∧ (r = r' + 1 ∨ r' = r + 1)) := by
  constructor
  · rintro ⟨a, b, a', b', hb, hb', h1, h2, h3⟩
    obtain ⟨rfl, rfl⟩ := grid_index_unique hc hb h1
    obtain ⟨rfl, rfl⟩ := grid_index_unique hc' hb' h2
    exact h3
  · intro h
    exact ⟨r, c, r', c', hc, hc', rfl, rfl, h⟩

theorem gridNbr_diff {C x y : Nat} (h : GridNbr C x y) : x = y + 1 ∨ y = x + 1 ∨ x = y + C ∨ y = x + C := by
  obtain ⟨r, c, r', c', _, _, rfl, rfl, h⟩ := h
  rcases h with ⟨rfl, h⟩ | ⟨rfl, h | h⟩
  · omega
  · subst h; right; right; left; rw [Nat.succ_mul]; omega
  · subst h; right; right; right; rw [Nat.succ_mul]; omega

theorem out_get {detections : List (List KeyPoint)} {centers : List V2} {rows cols : Nat} {flipped : Bool}
    {out : List V2} {d : GridDecision} (hlen : centers.length = rows * cols)
    (hd : gridDecision detections centers rows cols = .ok d)
    (h : extractKeyPoints detections centers rows cols flipped = .ok out) :
    out.length = rows * cols ∧ ∀ p i : Nat, (orderIndices d.corner d.usual (if flipped then cols else rows)
      (if flipped then rows else cols) (rows * cols))[p]? = some i → i < rows * cols ∧ out[p]? = centers[i]? := by
  obtain ⟨d', hd', hm⟩ := extract_split h
  rw [hd] at hd'
  cases hd'
  rw [hlen] at hm
  obtain ⟨h1, h2⟩ := mapList_idx hm
  refine ⟨?_, fun p i hp => by rw [← hlen]; exact h2 p i hp⟩
  have : (if flipped = true then cols else rows) * (if flipped = true then rows else cols) = rows * cols := by
    cases flipped <;> simp [Nat.mul_comm]
  rw [h1, ← this, (orderIndices_perm _ _ _ _).length_eq, List.length_range]

/- C69, full statement: neighbouring positions of the output grid are neighbouring circles of the detected grid, and the
output has the handedness of the target. Neighbourhood, proved for square grids and for orderings whose direction agrees
with the layout in which the pattern was found (`Fits`); false otherwise (`C69_negation`). -/
theorem C69_partial (detections : List (List KeyPoint)) (centers : List V2) (rows cols : Nat) (flipped : Bool)
    (out : List V2) (d : GridDecision) (hlen : centers.length = rows * cols)
    (hd : gridDecision detections centers rows cols = .ok d)
    (h : extractKeyPoints detections centers rows cols flipped = .ok out) (hfit : Fits rows cols flipped d)
    (p q : Nat) (hp : p < rows * cols) (hq : q < rows * cols) (hpq : GridNbr cols p q) :
    ∃ i j, i < rows * cols ∧ j < rows * cols ∧ out[p]? = centers[i]? ∧ out[q]? = centers[j]? ∧
      GridNbr (layoutCols rows cols flipped) i j := by
  obtain ⟨-, hout⟩ := out_get hlen hd h
  obtain ⟨r, c, r', c', hc, hc', rfl, rfl, hn⟩ := hpq
  have hr : r < rows := by
    by_contra hge
    have : rows * cols ≤ r * cols := Nat.mul_le_mul_right _ (by omega)
    omega
  have hr' : r' < rows := by
    by_contra hge
    have : rows * cols ≤ r' * cols := Nat.mul_le_mul_right _ (by omega)
    omega
  rcases orderIndices_cases d (if flipped then cols else rows) (if flipped then rows else cols) (rows * cols) with
    ⟨hs, ho⟩ | ⟨hs, dj, dk, ho, -⟩
  · -- straight: the layout is the one of the target
    have hlay : layoutCols rows cols flipped = cols := by
      rcases hfit with h | ⟨h, -⟩ | ⟨-, h⟩
      · unfold layoutCols; split <;> omega
      · simp [layoutCols, h]
      · exact absurd hs h
    rw [hlay]
    rcases ho with ho | ho
    · rw [ho] at hout
      obtain ⟨h1, h2⟩ := hout (r * cols + c) (r * cols + c) (by simp [hp])
      obtain ⟨h3, h4⟩ := hout (r' * cols + c') (r' * cols + c') (by simp [hq])
      exact ⟨_, _, h1, h3, h2, h4, (gridNbr_iff hc hc').2 hn⟩
    · rw [ho] at hout
      obtain ⟨h1, h2⟩ := hout (r * cols + c) _ (range_reverse_get _ _ hp)
      obtain ⟨h3, h4⟩ := hout (r' * cols + c') _ (range_reverse_get _ _ hq)
      refine ⟨_, _, h1, h3, h2, h4, ?_⟩
      rw [grid_reverse hr hc, grid_reverse hr' hc']
      exact (gridNbr_iff (by omega) (by omega)).2 (by omega)
  · -- transposing: the layout has `rows` circles per row
    have hlay : (if flipped = true then cols else rows) = cols ∧ (if flipped = true then rows else cols) = rows := by
      rcases hfit with h | ⟨-, h⟩ | ⟨h, -⟩
      · constructor <;> split <;> omega
      · exact absurd h hs
      · simp [h]
    have hlay' : layoutCols rows cols flipped = rows := hlay.2
    rw [hlay'] at *
    rw [ho, hlay.1, hlay.2] at hout
    obtain ⟨h1, h2⟩ := hout _ _ (columnsFirst_get dj dk cols rows r c hr hc)
    obtain ⟨h3, h4⟩ := hout _ _ (columnsFirst_get dj dk cols rows r' c' hr' hc')
    refine ⟨_, _, h1, h3, h2, h4, ?_⟩
    rw [gridNbr_iff (cnt_lt hr) (cnt_lt hr')]
    rcases hn with ⟨rfl, hn⟩ | ⟨rfl, hn⟩
    · exact .inr ⟨rfl, cnt_adj hc hc' hn⟩
    · exact .inl ⟨rfl, cnt_adj hr hr' hn⟩

/-- Otherwise the first two rows of the output are torn apart: the first circles of the two rows are neighbours on the
target, but the centres paired with them are not neighbours in the detected grid. -/
theorem C69_negation (detections : List (List KeyPoint)) (centers : List V2) (rows cols : Nat) (flipped : Bool)
    (out : List V2) (d : GridDecision) (hlen : centers.length = rows * cols) (hn : rows * cols < 2 ^ 31)
    (hnd : centers.Nodup) (hd : gridDecision detections centers rows cols = .ok d)
    (h : extractKeyPoints detections centers rows cols flipped = .ok out) (hfit : ¬ Fits rows cols flipped d) :
    GridNbr cols 0 cols ∧ ∀ i j : Nat, i < rows * cols → j < rows * cols → out[0]? = centers[i]? →
      out[cols]? = centers[j]? → ¬ GridNbr (layoutCols rows cols flipped) i j := by
  obtain ⟨hr, hc⟩ := decision_two hlen hn hd
  have hc1 : cols < rows * cols := by
    calc cols < 2 * cols := by omega
      _ ≤ rows * cols := Nat.mul_le_mul_right _ hr
  refine ⟨⟨0, 0, 1, 0, by omega, by omega, by omega, by omega, by omega⟩, ?_⟩
  obtain ⟨-, hout⟩ := out_get hlen hd h
  intro i j hi hj hoi hoj hnbr
  have huniq : ∀ {a b : Nat}, a < rows * cols → centers[a]? = centers[b]? → a = b := by
    intro a b ha hab
    have h1 : centers[a]? = some (centers[a]'(by omega)) := by simp
    exact nodup_getElem? hnd h1 (by rw [← hab]; exact h1)
  unfold Fits at hfit
  push Not at hfit
  obtain ⟨hsq, hf1, hf2⟩ := hfit
  rcases orderIndices_cases d (if flipped then cols else rows) (if flipped then rows else cols) (rows * cols) with
    ⟨hs, ho⟩ | ⟨hs, dj, dk, ho, -⟩
  · have hfl : flipped = true := by
      cases flipped
      · exact absurd hs (hf1 rfl)
      · rfl
    subst hfl
    have hlay : layoutCols rows cols true = rows := rfl
    rw [hlay] at hnbr
    have hdiff := gridNbr_diff hnbr
    rcases ho with ho | ho
    · rw [ho] at hout
      obtain ⟨a1, a2⟩ := hout 0 0 (List.getElem?_range (by omega))
      obtain ⟨b1, b2⟩ := hout cols cols (by simp [hc1])
      have := huniq a1 (a2.symm.trans hoi)
      have := huniq b1 (b2.symm.trans hoj)
      omega
    · rw [ho] at hout
      obtain ⟨a1, a2⟩ := hout 0 _ (range_reverse_get _ _ (by omega))
      obtain ⟨b1, b2⟩ := hout cols _ (range_reverse_get _ _ hc1)
      have := huniq a1 (a2.symm.trans hoi)
      have := huniq b1 (b2.symm.trans hoj)
      omega
  · have hfl : flipped = false := by
      cases flipped
      · rfl
      · exact absurd (hf2 rfl) hs
    subst hfl
    have hlay : layoutCols rows cols false = cols := rfl
    rw [hlay] at hnbr
    simp only [Bool.false_eq_true, if_false] at ho hout
    rw [ho] at hout
    obtain ⟨a, l, ha, hl, hal⟩ := grid_index (R := cols) (C := rows) (n := cols) (by rw [Nat.mul_comm]; exact hc1)
    obtain ⟨a1, a2⟩ := hout (0 * rows + 0) _ (columnsFirst_get dj dk rows cols 0 0 (by omega) (by omega))
    obtain ⟨b1, b2⟩ := hout (a * rows + l) _ (columnsFirst_get dj dk rows cols a l ha hl)
    rw [Nat.zero_mul, Nat.zero_add] at a2
    rw [← hal] at b2
    have e1 := huniq a1 (a2.symm.trans hoi)
    have e2 := huniq b1 (b2.symm.trans hoj)
    rw [← e1, ← e2, gridNbr_iff (cnt_lt (by omega)) (cnt_lt ha)] at hnbr
    rcases hnbr with ⟨h1, h2⟩ | ⟨h1, h2⟩
    · have h3 := cnt_inj (by omega) hl h1
      have h4 := cnt_adj_inv (by omega) ha h2
      subst h3
      have : a = 1 := by omega
      subst this
      omega
    · have h3 := cnt_inj (by omega) ha h1
      have h4 := cnt_adj_inv (by omega) hl h2
      subst h3
      omega

/-! ## Handedness -/

/-- `+1` for an ascending, `-1` for a descending loop. -/
def dirSign (desc : Bool) : ℝ := if desc then -1 else 1

theorem cnt_cast {desc : Bool} {n i : Nat} (h : i < n) :
    ((cnt desc n i : Nat) : ℝ) = (cnt desc n 0 : Nat) + dirSign desc * i := by
  unfold cnt dirSign
  cases desc
  · simp
  · simp only [if_true]
    rw [Nat.sub_sub, Nat.sub_sub, Nat.cast_sub (by omega), Nat.cast_sub (by omega)]
    push_cast; ring

theorem isGrid_columns {centers out : List V2} {R C : Nat} {o u v : V2} (hg : IsGrid centers R C o u v) (dj dk : Bool)
    (hlen : out.length = R * C)
    (hout : ∀ p i : Nat, (columnsFirst dj dk R C)[p]? = some i → out[p]? = centers[i]?) :
    IsGrid out C R ⟨o.x + (cnt dj C 0 : Nat) * u.x + (cnt dk R 0 : Nat) * v.x,
      o.y + (cnt dj C 0 : Nat) * u.y + (cnt dk R 0 : Nat) * v.y⟩ (V2.smul (dirSign dk) v) (V2.smul (dirSign dj) u) := by
  refine ⟨by rw [hlen, Nat.mul_comm], ?_⟩
  intro a l ha hl
  rw [hout _ _ (columnsFirst_get dj dk R C a l ha hl), hg.point _ _ (cnt_lt hl) (cnt_lt ha), cnt_cast ha, cnt_cast hl]
  simp only [V2.smul, Option.some.injEq, V2.mk.injEq]
  constructor <;> ring

theorem isGrid_reverse {centers out : List V2} {R C : Nat} {o u v : V2} (hg : IsGrid centers R C o u v)
    (hlen : out.length = R * C)
    (hout : ∀ p i : Nat, (List.range (R * C)).reverse[p]? = some i → out[p]? = centers[i]?) :
    IsGrid out R C ⟨o.x + (C - 1 : Nat) * u.x + (R - 1 : Nat) * v.x, o.y + (C - 1 : Nat) * u.y + (R - 1 : Nat) * v.y⟩
      (V2.smul (-1) u) (V2.smul (-1) v) := by
  refine ⟨hlen, ?_⟩
  intro r c hr hc
  have h1 : ((R - 1 - r : Nat) : ℝ) = (R - 1 : Nat) - r := by rw [Nat.cast_sub (by omega)]
  have h2 : ((C - 1 - c : Nat) : ℝ) = (C - 1 : Nat) - c := by rw [Nat.cast_sub (by omega)]
  rw [hout _ _ (range_reverse_get _ _ (grid_lt hr hc)), grid_reverse hr hc, hg.point _ _ (by omega) (by omega), h1, h2]
  simp only [V2.smul, Option.some.injEq, V2.mk.injEq]
  constructor <;> ring

/-- On a parallelogram grid the ordering is judged by the orientation of its steps. -/
theorem usual_iff {centers : List V2} {rows cols : Nat} {o u v sl el ef : V2} (hr : 2 ≤ rows) (hc : 2 ≤ cols)
    (hg : IsGrid centers rows cols o u v) (h1 : centers[cornerPos rows cols .startLast]? = some sl)
    (h2 : centers[cornerPos rows cols .endLast]? = some el) (h3 : centers[cornerPos rows cols .endFirst]? = some ef)
    (hx : cross u v ≠ 0) : usualOrdering sl el ef = true ↔ 0 < cross u v := by
  have e1 := hg.point (rows - 1) 0 (by omega) (by omega)
  have e2 := hg.point (rows - 1) (cols - 1) (by omega) (by omega)
  have e3 := hg.point 0 (cols - 1) (by omega) (by omega)
  rw [Nat.add_zero] at e1
  rw [Nat.zero_mul, Nat.zero_add] at e3
  simp only [cornerPos] at h1 h2 h3
  rw [h1] at e1; rw [h2] at e2; rw [h3] at e3
  cases e1; cases e2; cases e3
  have hR : (0 : ℝ) < ((rows - 1 : Nat) : ℝ) := by exact_mod_cast (by omega : 0 < rows - 1)
  have hC : (0 : ℝ) < ((cols - 1 : Nat) : ℝ) := by exact_mod_cast (by omega : 0 < cols - 1)
  unfold usualOrdering
  simp only
  generalize ((rows - 1 : Nat) : ℝ) = R at hR
  generalize ((cols - 1 : Nat) : ℝ) = C at hC
  have key : ∀ z : ℝ, z = C * R * cross u v → ((if z < 0 then false else true) = true ↔ 0 < cross u v) := by
    intro z hz
    have hCR : 0 < C * R := mul_pos hC hR
    split
    · rename_i hneg
      simp only [Bool.false_eq_true, false_iff, not_lt]
      rw [hz] at hneg
      exact (neg_of_mul_neg_right hneg hCR.le).le
    · rename_i hneg
      simp only [true_iff]
      rw [hz] at hneg
      have : 0 ≤ cross u v := by
        by_contra hlt
        exact hneg (mul_neg_of_pos_of_neg hCR (by linarith))
      exact lt_of_le_of_ne this (Ne.symm hx)
  apply key
  unfold cross
  push_cast
  ring

theorem decision_usual {detections : List (List KeyPoint)} {centers : List V2} {rows cols : Nat} {d : GridDecision}
    (hd : gridDecision detections centers rows cols = .ok d) :
    ∃ sl el ef, centers[cornerIdx rows cols .startLast]? = some sl ∧ centers[cornerIdx rows cols .endLast]? = some el ∧
      centers[cornerIdx rows cols .endFirst]? = some ef ∧ d.usual = usualOrdering sl el ef := by
  unfold gridDecision at hd
  simp only at hd
  split at hd
  · cases hd
  simp only [Res.bind_ok_iff, idxList_ok_iff] at hd
  obtain ⟨_, -, _, -, _, -, _, -, sl, h1, el, h2, ef, h3, hd⟩ := hd
  split at hd
  · cases hd
    exact ⟨sl, el, ef, h1, h2, h3, rfl⟩
  · cases hd

/- C69, handedness, for patterns found with the size of the target. On a parallelogram grid (the image of the target under
an affine map) the output is again a parallelogram grid, made of the same steps, whose orientation is the one of the
target seen from the front. Missing: grids that do not fit (`C69_negation`) and patterns found flipped
(`C69_flipped_negation`). -/
theorem C69_handed_partial (detections : List (List KeyPoint)) (centers : List V2) (rows cols : Nat) (out : List V2)
    (d : GridDecision) (o u v : V2) (hg : IsGrid centers rows cols o u v) (hx : cross u v ≠ 0)
    (hn : rows * cols < 2 ^ 31) (hd : gridDecision detections centers rows cols = .ok d)
    (h : extractKeyPoints detections centers rows cols false = .ok out) (hfit : Fits rows cols false d) :
    ∃ o' u' v', IsGrid out rows cols o' u' v' ∧ SameSteps u v u' v' ∧ 0 < cross u' v' := by
  obtain ⟨hr, hc⟩ := decision_two hg.length hn hd
  obtain ⟨hlen, hout⟩ := out_get hg.length hd h
  simp only [Bool.false_eq_true, if_false] at hout
  obtain ⟨sl, el, ef, h1, h2, h3, hu⟩ := decision_usual hd
  rw [cornerIdx_eq hr hc hn] at h1 h2 h3
  have husual := usual_iff hr hc hg h1 h2 h3 hx
  rw [← hu] at husual
  have smul1 : ∀ w : V2, V2.smul 1 w = w := by intro w; ext <;> simp [V2.smul]
  rcases orderIndices_cases d rows cols (rows * cols) with ⟨hs, ho⟩ | ⟨hs, dj, dk, ho, hdir⟩
  · have hpos := husual.1 hs.1
    rcases ho with ho | ho
    · rw [ho] at hout
      have : out = centers := by
        apply List.ext_getElem?
        intro p
        by_cases hp : p < rows * cols
        · exact (hout p p (List.getElem?_range hp)).2
        · rw [List.getElem?_eq_none (by omega), List.getElem?_eq_none (by rw [hg.length]; omega)]
      subst this
      exact ⟨o, u, v, hg, ⟨1, 1, .inl rfl, .inl rfl, .inl ⟨(smul1 u).symm, (smul1 v).symm⟩⟩, hpos⟩
    · rw [ho] at hout
      refine ⟨_, _, _, isGrid_reverse hg hlen fun p i hp => (hout p i hp).2,
        ⟨-1, -1, .inr rfl, .inr rfl, .inl ⟨rfl, rfl⟩⟩, ?_⟩
      unfold cross V2.smul at *
      simp only
      linarith
  · have hsq : rows = cols := by
      rcases hfit with h | ⟨-, h⟩ | ⟨h, -⟩
      · exact h
      · exact absurd h hs
      · cases h
    subst hsq
    rw [ho] at hout
    refine ⟨_, _, _, isGrid_columns hg dj dk hlen fun p i hp => (hout p i hp).2,
      ⟨dirSign dk, dirSign dj, ?_, ?_, .inr ⟨rfl, rfl⟩⟩, ?_⟩
    · cases dk <;> simp [dirSign]
    · cases dj <;> simp [dirSign]
    · rw [hdir] at husual
      unfold cross V2.smul dirSign at *
      cases dj <;> cases dk <;> simp at husual ⊢
      · exact lt_of_le_of_ne (by linarith) (fun e => hx (by linarith))
      · linarith
      · linarith
      · exact lt_of_le_of_ne (by linarith) (fun e => hx (by linarith))

/-- Target of two rows and an odd number of columns, found flipped (a list of `cols` rows with two circles each): the
usual ordering is taken for the unusual one, and the output is the mirror image of the target. -/
theorem C69_flipped_negation (detections : List (List KeyPoint)) (centers : List V2) (m : Nat) (hm : 1 ≤ m)
    (out : List V2) (o u v : V2) (hg : IsGrid centers (2 * m + 1) 2 o u v) (hx : 0 < cross u v)
    (hn : 2 * (2 * m + 1) < 2 ^ 31) (h : extractKeyPoints detections centers 2 (2 * m + 1) true = .ok out) :
    ∃ o' u' v', IsGrid out 2 (2 * m + 1) o' u' v' ∧ SameSteps u v u' v' ∧ cross u' v' < 0 := by
  have hlen : centers.length = 2 * (2 * m + 1) := by rw [hg.length, Nat.mul_comm]
  obtain ⟨d, hd, -⟩ := extract_split h
  obtain ⟨hlen', hout⟩ := out_get hlen hd h
  simp only [if_true] at hout
  obtain ⟨sl, el, ef, h1, h2, h3, hu⟩ := decision_usual hd
  rw [cornerIdx_eq (by omega) (by omega) hn] at h1 h2 h3
  have e1 := hg.point m 1 (by omega) (by omega)
  have e2 := hg.point (2 * m) 1 (by omega) (by omega)
  have e3 := hg.point m 0 (by omega) (by omega)
  simp only [cornerPos] at h1 h2 h3
  have i1 : (2 - 1) * (2 * m + 1) = m * 2 + 1 := by omega
  have i2 : (2 - 1) * (2 * m + 1) + (2 * m + 1 - 1) = 2 * m * 2 + 1 := by omega
  have i3 : 2 * m + 1 - 1 = m * 2 + 0 := by omega
  rw [i1] at h1; rw [i2] at h2; rw [i3] at h3
  rw [h1] at e1; rw [h2] at e2; rw [h3] at e3
  cases e1; cases e2; cases e3
  have hM : (0 : ℝ) < (m : ℝ) := by exact_mod_cast (by omega : 0 < m)
  have hunusual : d.usual = false := by
    rw [hu]
    unfold usualOrdering
    simp only
    rw [if_pos]
    unfold cross at hx
    push_cast
    have := mul_pos hM hx
    ring_nf at this ⊢
    linarith
  rcases orderIndices_cases d (2 * m + 1) 2 (2 * (2 * m + 1)) with ⟨hs, -⟩ | ⟨hs, dj, dk, ho, hdir⟩
  · rw [hs.1] at hunusual; cases hunusual
  · rw [ho] at hout
    refine ⟨_, _, _, isGrid_columns hg dj dk (by rw [hlen', Nat.mul_comm]) fun p i hp => (hout p i hp).2,
      ⟨dirSign dk, dirSign dj, ?_, ?_, .inr ⟨rfl, rfl⟩⟩, ?_⟩
    · cases dk <;> simp [dirSign]
    · cases dj <;> simp [dirSign]
    · rw [hunusual] at hdir
      unfold cross V2.smul dirSign at *
      cases dj <;> cases dk <;> simp at hdir ⊢ <;> linarith

end RCT
