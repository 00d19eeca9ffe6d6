import Verif.Props.GridOrder

/-!
# C96, C97: the circle grid finder as a whole; concrete grids
-/

namespace RCT

open Spec

/-! ## Concrete grids -/

/-- An axis parallel grid with one pixel between circles; `e = 1` is upright, `e = -1` is mirrored. -/
noncomputable def unitGrid (e : ℝ) (R C : Nat) : List V2 := gridList R C fun r c => ⟨e * c, r⟩

theorem unitGrid_isGrid (e : ℝ) (R C : Nat) : IsGrid (unitGrid e R C) R C ⟨0, 0⟩ ⟨e, 0⟩ ⟨0, 1⟩ := by
  refine ⟨gridList_length _ _ _, ?_⟩
  intro r c hr hc
  rw [unitGrid, gridList_get _ _ _ r c hr hc]
  simp only [Option.some.injEq, V2.mk.injEq]
  constructor <;> ring

theorem nat_of_abs_lt {a b : Nat} (h : |(a : ℝ) - b| < 1) : a = b := by
  have h1 : |(a : ℤ) - b| < 1 := by exact_mod_cast h
  have h2 := abs_lt.1 h1
  omega

theorem unitGrid_separated {e : ℝ} (he : e = 1 ∨ e = -1) (R C : Nat) : Separated (unitGrid e R C) := by
  intro i j a b hi hj hab1 hab2
  have hi' : i < R * C := by
    have := (List.getElem?_eq_some_iff.1 hi).1; rwa [unitGrid, gridList_length] at this
  have hj' : j < R * C := by
    have := (List.getElem?_eq_some_iff.1 hj).1; rwa [unitGrid, gridList_length] at this
  obtain ⟨r, c, hr, hc, rfl⟩ := grid_index hi'
  obtain ⟨r', c', hr', hc', rfl⟩ := grid_index hj'
  rw [unitGrid, gridList_get _ _ _ r c hr hc] at hi
  rw [unitGrid, gridList_get _ _ _ r' c' hr' hc'] at hj
  cases hi; cases hj
  obtain ⟨h1, h2⟩ := And.intro hab1 hab2
  have hlt : (1 : ℝ) / 2 ^ 23 < 1 := by norm_num
  simp only at h1 h2
  have hrr := nat_of_abs_lt (h2.trans hlt)
  have hcc : c = c' := by
    apply nat_of_abs_lt
    rcases he with rfl | rfl
    · rw [one_mul, one_mul] at h1; exact h1.trans hlt
    · have e1 : (-1 : ℝ) * c - -1 * c' = -((c : ℝ) - c') := by ring
      rw [e1, abs_neg] at h1; exact h1.trans hlt
  rw [hrr, hcc]

/-- The detector finds the circles of the grid with the first setting. -/
theorem unitGrid_seen {e : ℝ} (he : e = 1 ∨ e = -1) (R C : Nat) (sizes : List ℝ) (hs : sizes.length = R * C) :
    Seen [List.zipWith KeyPoint.mk (unitGrid e R C) sizes] (unitGrid e R C) sizes (R * C) :=
  ⟨gridList_length _ _ _, hs, unitGrid_separated he R C, [], _, [], rfl, by simp, .refl _⟩

theorem unitGrid_nodup {e : ℝ} (he : e = 1 ∨ e = -1) (R C : Nat) : (unitGrid e R C).Nodup := by
  apply gridList_nodup
  intro r c r' c' hr hc hr' hc' h
  simp only [V2.mk.injEq] at h
  obtain ⟨h1, h2⟩ := h
  refine ⟨by exact_mod_cast h2, ?_⟩
  rcases he with rfl | rfl
  · have : (c : ℝ) = c' := by linarith
    exact_mod_cast this
  · have : (c : ℝ) = c' := by linarith
    exact_mod_cast this

/-- Sizes of the circles of a grid with one large circle. -/
noncomputable def largeAt (R C b : Nat) : List ℝ := (List.range (R * C)).map (oneLarge 4 8 b)

theorem unitGrid_decides {e : ℝ} (he : e = 1 ∨ e = -1) (rows cols : Nat) (hr : 2 ≤ rows) (hc : 2 ≤ cols)
    (hn : rows * cols < 2 ^ 31) (c : Corner) :
    gridDecision [List.zipWith KeyPoint.mk (unitGrid e rows cols) (largeAt rows cols (cornerPos rows cols c))]
      (unitGrid e rows cols) rows cols = .ok ⟨c, decide (e = 1)⟩ := by
  obtain ⟨sl, el, ef, h1, h2, h3, hd⟩ := C97_partial _ (unitGrid e rows cols) rows cols hr hc hn c 4 8 (by norm_num)
    (by norm_num) (unitGrid_seen he rows cols (largeAt rows cols (cornerPos rows cols c)) (by simp [largeAt]))
  rw [hd]
  have hx : cross ⟨e, 0⟩ ⟨0, 1⟩ = e := by simp [cross]
  have := usual_iff hr hc (unitGrid_isGrid e rows cols) h1 h2 h3 (by
    rw [hx]; rcases he with rfl | rfl <;> norm_num)
  rw [hx] at this
  have hb : usualOrdering sl el ef = decide (e = 1) := by
    rcases he with rfl | rfl
    · simpa using this
    · have hne : ¬ ((-1 : ℝ) = 1) := by norm_num
      simp only [hne, decide_false]
      rw [← Bool.not_eq_true, this]; norm_num
  rw [hb]

theorem unitGrid_extracts {e : ℝ} (he : e = 1 ∨ e = -1) (rows cols : Nat) (hr : 2 ≤ rows) (hc : 2 ≤ cols)
    (hn : rows * cols < 2 ^ 31) (c : Corner) (flipped : Bool) :
    ∃ out, extractKeyPoints
      [List.zipWith KeyPoint.mk (unitGrid e rows cols) (largeAt rows cols (cornerPos rows cols c))]
      (unitGrid e rows cols) rows cols flipped = .ok out := by
  unfold extractKeyPoints
  rw [unitGrid_decides he rows cols hr hc hn c, Res.ok_bind]
  apply mapList_idx_returns
  intro i hi
  have hlen : (unitGrid e rows cols).length = rows * cols := gridList_length _ _ _
  rw [hlen] at hi ⊢
  have : (if flipped = true then cols else rows) * (if flipped = true then rows else cols) = rows * cols := by
    cases flipped <;> simp [Nat.mul_comm]
  rw [← this] at hi ⊢
  exact List.mem_range.1 ((orderIndices_perm _ _ _ _).mem_iff.1 hi)

/-- Hypotheses of C67, C68 and C69 are met by upright 5 x 7 grids … -/
example : ∃ ks out, extractKeyPoints ks (unitGrid 1 5 7) 5 7 false = .ok out ∧
    gridDecision ks (unitGrid 1 5 7) 5 7 = .ok ⟨.startLast, true⟩ ∧ OriginRight 5 7 false ⟨.startLast, true⟩ ∧
    Fits 5 7 false ⟨.startLast, true⟩ ∧ (unitGrid 1 5 7).length = 5 * 7 ∧ (unitGrid 1 5 7).Nodup := by
  obtain ⟨out, h⟩ := unitGrid_extracts (e := 1) (.inl rfl) 5 7 (by norm_num) (by norm_num) (by norm_num) .startLast false
  refine ⟨_, out, h, ?_, trivial, .inr (.inl ⟨rfl, rfl, .inl rfl⟩), gridList_length _ _ _, unitGrid_nodup (.inl rfl) _ _⟩
  have := unitGrid_decides (e := 1) (.inl rfl) 5 7 (by norm_num) (by norm_num) (by norm_num) .startLast
  simpa using this

/-- … those of `C68_negation` by a mirrored 4 x 4 grid with the large circle at the end of the last row, … -/
example : ∃ ks out, extractKeyPoints ks (unitGrid (-1) 4 4) 4 4 false = .ok out ∧
    gridDecision ks (unitGrid (-1) 4 4) 4 4 = .ok ⟨.endLast, false⟩ ∧ ¬ OriginRight 4 4 false ⟨.endLast, false⟩ ∧
    (unitGrid (-1) 4 4).Nodup := by
  obtain ⟨out, h⟩ := unitGrid_extracts (e := -1) (.inr rfl) 4 4 (by norm_num) (by norm_num) (by norm_num) .endLast false
  refine ⟨_, out, h, ?_, fun h => h, unitGrid_nodup (.inr rfl) _ _⟩
  have := unitGrid_decides (e := -1) (.inr rfl) 4 4 (by norm_num) (by norm_num) (by norm_num) .endLast
  have hne : ¬ ((-1 : ℝ) = 1) := by norm_num
  simpa [hne] using this

/-- … and those of `C69_negation` by an upright 5 x 7 grid with the large circle at the end of the last row. -/
example : ∃ ks out, extractKeyPoints ks (unitGrid 1 5 7) 5 7 false = .ok out ∧
    gridDecision ks (unitGrid 1 5 7) 5 7 = .ok ⟨.endLast, true⟩ ∧ ¬ Fits 5 7 false ⟨.endLast, true⟩ ∧
    ¬ OriginRight 5 7 false ⟨.endLast, true⟩ := by
  obtain ⟨out, h⟩ := unitGrid_extracts (e := 1) (.inl rfl) 5 7 (by norm_num) (by norm_num) (by norm_num) .endLast false
  refine ⟨_, out, h, ?_, by simp [Fits, Straight], by simp [OriginRight]⟩
  have := unitGrid_decides (e := 1) (.inl rfl) 5 7 (by norm_num) (by norm_num) (by norm_num) .endLast
  simpa using this

/-- `C69_handed_partial` with a mirrored square grid. -/
example : ∃ ks out, extractKeyPoints ks (unitGrid (-1) 4 4) 4 4 false = .ok out ∧
    gridDecision ks (unitGrid (-1) 4 4) 4 4 = .ok ⟨.startLast, false⟩ ∧ Fits 4 4 false ⟨.startLast, false⟩ ∧
    IsGrid (unitGrid (-1) 4 4) 4 4 ⟨0, 0⟩ ⟨-1, 0⟩ ⟨0, 1⟩ ∧ cross ⟨-1, 0⟩ ⟨0, 1⟩ ≠ 0 := by
  obtain ⟨out, h⟩ := unitGrid_extracts (e := -1) (.inr rfl) 4 4 (by norm_num) (by norm_num) (by norm_num) .startLast false
  refine ⟨_, out, h, ?_, .inl rfl, unitGrid_isGrid _ _ _, by simp [cross]⟩
  have := unitGrid_decides (e := -1) (.inr rfl) 4 4 (by norm_num) (by norm_num) (by norm_num) .startLast
  have hne : ¬ ((-1 : ℝ) = 1) := by norm_num
  simpa [hne] using this

/-- `C97_negation`: a 5 x 7 target found flipped. -/
example : Seen [List.zipWith KeyPoint.mk (unitGrid 1 7 5) (largeAt 7 5 (cornerPos 7 5 .startLast))] (unitGrid 1 7 5)
    ((List.range (5 * 7)).map (oneLarge 4 8 (cornerPos 7 5 .startLast))) (5 * 7) :=
  unitGrid_seen (e := 1) (.inl rfl) 7 5 (largeAt 7 5 (cornerPos 7 5 .startLast)) (by simp [largeAt])

/-- `C69_flipped_negation`: a 2 x 3 target found flipped, with the large circle at the start of the first row. -/
example : ∃ ks out, extractKeyPoints ks (unitGrid 1 3 2) 2 3 true = .ok out ∧
    IsGrid (unitGrid 1 3 2) (2 * 1 + 1) 2 ⟨0, 0⟩ ⟨1, 0⟩ ⟨0, 1⟩ ∧ 0 < cross ⟨1, 0⟩ ⟨0, 1⟩ := by
  have hseen := unitGrid_seen (e := 1) (.inl rfl) 3 2 (largeAt 2 3 (cornerPos 2 3 .startFirst)) (by simp [largeAt])
  obtain ⟨sl, el, ef, h1, h2, h3, hd⟩ := C97_partial _ (unitGrid 1 3 2) 2 3 (by norm_num) (by norm_num) (by norm_num)
    .startFirst 4 8 (by norm_num) (by norm_num) hseen
  have : ∃ out, extractKeyPoints [List.zipWith KeyPoint.mk (unitGrid 1 3 2) (largeAt 2 3 (cornerPos 2 3 .startFirst))]
      (unitGrid 1 3 2) 2 3 true = .ok out := by
    unfold extractKeyPoints
    rw [hd, Res.ok_bind]
    apply mapList_idx_returns
    intro i hi
    have hlen : (unitGrid 1 3 2).length = 3 * 2 := gridList_length _ _ _
    rw [hlen] at hi ⊢
    simp only [if_true] at hi
    exact List.mem_range.1 ((orderIndices_perm _ _ 3 2).mem_iff.1 hi)
  obtain ⟨out, h⟩ := this
  exact ⟨_, out, h, unitGrid_isGrid 1 3 2, by simp [cross]⟩

/-! ## The finder and the target together -/

theorem circleFeatures_ok {find : Nat → Nat → Bool × List V2} {detections : List (List KeyPoint)} {t : CircleTarget}
    {pts : List V2} (h : extractModifiedCircleGrid find detections t.rows t.cols = .ok pts) :
    ∃ fs, circleFeatures find detections t = .ok fs ∧ ∀ i us, fs.find i = some us ↔ ∃ p, pts[i]? = some p ∧ us = [p] := by
  unfold circleFeatures
  rw [h, Res.ok_bind]
  have hstep : ∀ (m : TargetFeatures), ∀ i ∈ List.range pts.length,
      ((Res.atList pts i).bind fun p => Res.ok (SMap.emplace m i [p])) = .ok (SMap.emplace m i [(pts[i]?).getD 0]) := by
    intro m i hi
    have hi := List.mem_range.1 hi
    have h1 : pts[i]? = some pts[i] := by simp [hi]
    simp [Res.atList, h1]
  refine ⟨_, Res.foldList_ok hstep, ?_⟩
  obtain ⟨h1, h2⟩ := emplace_fold (fun i => i) (fun i => [(pts[i]?).getD 0]) pts.length (fun a b _ _ h => h)
  intro i us
  constructor
  · intro hf
    obtain ⟨a, ha, rfl, rfl⟩ := h2 i us hf
    exact ⟨pts[a], by simp, by simp [ha]⟩
  · rintro ⟨p, hp, rfl⟩
    have := h1 i (List.getElem?_eq_some_iff.1 hp).1
    simpa [hp] using this

/-- The finder numbers the ordered circles from zero and the target pairs number `i` with its point `i`. -/
theorem circle_pairs {find : Nat → Nat → Bool × List V2} {detections : List (List KeyPoint)} {t : CircleTarget}
    {pts : List V2} (h : extractModifiedCircleGrid find detections t.rows t.cols = .ok pts)
    (hlen : pts.length = t.createPoints.length) :
    ∃ cs, (circleFeatures find detections t).bind t.createCorrespondences = .ok cs ∧ cs.length = pts.length ∧
      ∀ (i : Nat) p q, pts[i]? = some p → t.createPoints[i]? = some q → cs[i]? = some ⟨p, q⟩ := by
  obtain ⟨fs, hfs, hfind⟩ := circleFeatures_ok h
  rw [hfs, Res.ok_bind]
  have hc := (circleCorrespondences_ok_iff t fs (List.zipWith Corr2.mk pts t.createPoints)).2 (by
    refine ⟨by simp [hlen], ?_⟩
    intro i c hc
    rw [List.getElem?_zipWith_eq_some] at hc
    obtain ⟨p, q, hp, hq, rfl⟩ := hc
    exact ⟨hq, [p], (hfind i [p]).2 ⟨p, hp, rfl⟩, rfl⟩)
  refine ⟨_, hc, by simp [hlen], ?_⟩
  intro i p q hp hq
  rw [List.getElem?_zipWith_eq_some]
  exact ⟨p, q, hp, hq, rfl⟩

/-- C97, whole chain: an image in which OpenCV finds the pattern with the size of the target, as a parallelogram grid seen
from the front (steps `u` to the right and `v` down with positive orientation) with the large circle at the start of the
last row, gives the correspondences of that view: the circle in row `r` and column `c` with the target point of row `r` and
column `c`. -/
theorem C97_upright (t : CircleTarget) (hr : 2 ≤ t.rows) (hc : 2 ≤ t.cols) (hn : t.rows * t.cols < 2 ^ 31)
    (find : Nat → Nat → Bool × List V2) (detections : List (List KeyPoint)) (centers : List V2)
    (hfind : find t.cols t.rows = (true, centers)) (o u v : V2) (hg : IsGrid centers t.rows t.cols o u v)
    (hx : 0 < cross u v) (s S : ℝ) (hs : 0 < s) (hS : s < S)
    (hseen : Seen detections centers
      ((List.range (t.rows * t.cols)).map (oneLarge s S (cornerPos t.rows t.cols .startLast))) (t.rows * t.cols)) :
    ∃ cs, (circleFeatures find detections t).bind t.createCorrespondences = .ok cs ∧ cs.length = t.rows * t.cols ∧
      ∀ r c : Nat, r < t.rows → c < t.cols → cs[r * t.cols + c]? =
        some ⟨⟨o.x + c * u.x + r * v.x, o.y + c * u.y + r * v.y⟩,
          ⟨c * t.spacing, ((t.rows : ℝ) - 1 - r) * t.spacing, 0⟩⟩ := by
  obtain ⟨sl, el, ef, h1, h2, h3, hd⟩ := C97_partial detections centers t.rows t.cols hr hc hn .startLast s S hs hS hseen
  rw [(usual_iff hr hc hg h1 h2 h3 hx.ne').2 hx] at hd
  have hlen := hseen.length
  have hgrid : findGrid find t.rows t.cols = (centers, false) := by
    unfold findGrid
    simp only [hfind]
    rw [if_pos ⟨trivial, by rw [szMul_eq hn]; exact hlen⟩]
  have hpos : t.rows * t.cols ≠ 0 := by
    have : 0 < t.rows * t.cols := Nat.mul_pos (by omega) (by omega)
    omega
  have hex : extractModifiedCircleGrid find detections t.rows t.cols = .ok centers := by
    unfold extractModifiedCircleGrid
    simp only [hgrid]
    rw [if_neg (by rw [hlen]; exact hpos)]
    unfold extractKeyPoints
    rw [hd, Res.ok_bind]
    exact mapList_idx_range centers
  have hrow : t.rows + 1 < 2 ^ 32 := by
    have : t.rows ≤ t.rows * t.cols := Nat.le_mul_of_pos_right _ (by omega)
    omega
  obtain ⟨hpl, hpp, -⟩ := C66_partial t hrow
  obtain ⟨cs, hcs, hcl, hci⟩ := circle_pairs hex (by rw [hlen, hpl])
  refine ⟨cs, hcs, by rw [hcl, hlen], ?_⟩
  intro r c hr' hc'
  exact hci _ _ _ (hg.point r c hr' hc') (hpp r c hr' hc')

example : ∃ (t : CircleTarget) (find : Nat → Nat → Bool × List V2) (detections : List (List KeyPoint)),
    2 ≤ t.rows ∧ 2 ≤ t.cols ∧ t.rows * t.cols < 2 ^ 31 ∧ find t.cols t.rows = (true, unitGrid 1 t.rows t.cols) ∧
    IsGrid (unitGrid 1 t.rows t.cols) t.rows t.cols ⟨0, 0⟩ ⟨1, 0⟩ ⟨0, 1⟩ ∧ 0 < cross ⟨1, 0⟩ ⟨0, 1⟩ ∧
    Seen detections (unitGrid 1 t.rows t.cols)
      ((List.range (t.rows * t.cols)).map (oneLarge 4 8 (cornerPos t.rows t.cols .startLast))) (t.rows * t.cols) :=
  ⟨⟨5, 7, 0.025⟩, fun _ _ => (true, unitGrid 1 5 7), _, by norm_num, by norm_num, by norm_num, rfl, unitGrid_isGrid _ _ _,
    by simp [cross], unitGrid_seen (.inl rfl) 5 7 _ (by simp)⟩

/-! ## C96: memory safety -/

theorem gridDecision_outcome (detections : List (List KeyPoint)) (centers : List V2) (rows cols : Nat) (hr : 2 ≤ rows)
    (hc : 2 ≤ cols) (hn : rows * cols < 2 ^ 31) (hlen : centers.length = rows * cols) :
    (∃ d, gridDecision detections centers rows cols = .ok d) ∨
      gridDecision detections centers rows cols = .throw .runtimeError := by
  have hidx : ∀ c, Res.idxList centers (cornerIdx rows cols c) = .ok (centers[cornerPos rows cols c]'(by
      rw [hlen]; exact cornerPos_lt hr hc c)) := by
    intro c
    rw [cornerIdx_eq hr hc hn]
    exact idxList_ok_iff.2 (List.getElem?_eq_getElem _)
  unfold gridDecision
  simp only
  split
  · exact .inr rfl
  · have hs := relSize_eval hr hc hn
      (fun i => ((featureSizes centers (pickKeyPoints (szMul rows cols) detections))[i]?).getD 0)
      (sizes := featureSizes centers (pickKeyPoints (szMul rows cols) detections)) (by
        intro i hi
        have : i < (featureSizes centers (pickKeyPoints (szMul rows cols) detections)).length := by
          rw [featureSizes_length, hlen]; exact hi
        simp [this])
    rw [hs, Res.ok_bind, hs, Res.ok_bind, hs, Res.ok_bind, hs, Res.ok_bind, hidx, Res.ok_bind, hidx, Res.ok_bind, hidx,
      Res.ok_bind]
    split
    · exact .inl ⟨_, rfl⟩
    · exact .inr rfl

/- C96, full statement: for every target with at least one row and one column (what the constructor asserts) the finder
reads only existing circles; whatever OpenCV reports there is a result or an exception. Proved for at least two rows and
two columns; with one row or one column it reads outside the list of sizes (`C96_negation`). -/
theorem C96_partial (find : Nat → Nat → Bool × List V2) (hf : FindWF find) (detections : List (List KeyPoint))
    (rows cols : Nat) (hr : 2 ≤ rows) (hc : 2 ≤ cols) (hn : rows * cols < 2 ^ 31) :
    (∃ out, extractModifiedCircleGrid find detections rows cols = .ok out) ∨
      extractModifiedCircleGrid find detections rows cols = .throw .runtimeError := by
  unfold extractModifiedCircleGrid
  simp only
  split
  · exact .inr rfl
  · rename_i h0
    have hne : (findGrid find rows cols).1 ≠ [] := fun e => h0 (by rw [e]; rfl)
    have hlen := findGrid_length hf hne
    generalize (findGrid find rows cols).1 = centers at hlen
    generalize (findGrid find rows cols).2 = flipped
    unfold extractKeyPoints
    rcases gridDecision_outcome detections centers rows cols hr hc hn hlen with ⟨d, hd⟩ | hd
    · rw [hd, Res.ok_bind]
      left
      apply mapList_idx_returns
      intro i hi
      rw [hlen] at hi ⊢
      have : (if flipped = true then cols else rows) * (if flipped = true then rows else cols) = rows * cols := by
        cases flipped <;> simp [Nat.mul_comm]
      rw [← this] at hi ⊢
      exact List.mem_range.1 ((orderIndices_perm _ _ _ _).mem_iff.1 hi)
    · rw [hd]; exact .inr rfl

/-- A target with one row or one column that is seen completely makes the finder read outside the list of sizes. -/
theorem C96_negation (detections : List (List KeyPoint)) (centers : List V2) (sizes : List ℝ) (rows cols : Nat)
    (flipped : Bool) (hr : 1 ≤ rows) (hc : 1 ≤ cols) (h1 : rows = 1 ∨ cols = 1) (hn : rows * cols < 2 ^ 31)
    (hseen : Seen detections centers sizes (rows * cols)) :
    extractKeyPoints detections centers rows cols flipped = .ub := by
  obtain ⟨hu, -⟩ := hseen.sizes_eq
  have hub : relSize (featureSizes centers (pickKeyPoints (rows * cols) detections)) rows cols .startLast = .ub := by
    have hfl : (featureSizes centers (pickKeyPoints (rows * cols) detections)).length = rows * cols := by
      rw [featureSizes_length, hseen.length]
    generalize featureSizes centers (pickKeyPoints (rows * cols) detections) = ss at hfl
    have hin : ∀ i, i < rows * cols → ∃ a, Res.idxList ss i = .ok a := by
      intro i hi
      exact ⟨ss[i]'(by omega), idxList_ok_iff.2 (List.getElem?_eq_getElem _)⟩
    have hout : ∀ i, rows * cols ≤ i → Res.idxList ss i = .ub := by
      intro i hi
      unfold Res.idxList
      rw [List.getElem?_eq_none (by omega)]
    have hle : cols ≤ rows * cols := Nat.le_mul_of_pos_left _ hr
    unfold relSize
    simp only [cornerNbrs, cornerIdx, szMul_eq hn]
    rw [szSub_eq hle hn]
    obtain ⟨a, ha⟩ := hin (rows * cols - cols) (by omega)
    rw [ha, Res.ok_bind]
    rcases Nat.lt_or_ge (rows * cols - cols + 1) (rows * cols) with hlt | hge
    · obtain ⟨b, hb⟩ := hin _ hlt
      rw [hb, Res.ok_bind]
      have hr1 : rows = 1 := by
        rcases h1 with h | h
        · exact h
        · subst h; omega
      subst hr1
      rw [Nat.one_mul, Nat.sub_self] at *
      have := szSub_wrap (a := 0) (b := cols) hc (by omega)
      rw [hout _ (by omega)]
      rfl
    · rw [hout _ hge]; rfl
  unfold extractKeyPoints gridDecision
  simp only [szMul_eq hn]
  rw [if_neg (by simp [hu]), hub]
  rfl

example : Seen [List.zipWith KeyPoint.mk (unitGrid 1 1 7) (largeAt 1 7 0)] (unitGrid 1 1 7) (largeAt 1 7 0) (1 * 7) :=
  unitGrid_seen (.inl rfl) 1 7 _ (by simp [largeAt])

example : FindWF fun w h => (true, unitGrid 1 h w) := by
  intro w h
  right
  simp only [unitGrid, gridList_length, Nat.mul_comm]

end RCT
