import Verif.Lemmas.CircleDetector

/-!
# C71 – C74: the circle detector
-/

namespace RCT

open Spec

/-! ## C71 Threshold levels -/

theorem contourCircle_no_throw (w : ImageOps) (p : DetectorParams) (t : ℝ) (c : List PixelPt) (e : Exc) :
    contourCircle w p t c ≠ .throw e := by
  unfold contourCircle ImageOps.binAt
  intro h
  simp only at h
  repeat' split at h
  all_goals first
    | cases h
    | (simp only [Res.ok_bind] at h
       repeat' split at h
       all_goals cases h)

theorem mapList_no_throw {α β : Type} {f : α → Res β} {l : List α} (h : ∀ a ∈ l, ∀ e, f a ≠ .throw e) (e : Exc) :
    Res.mapList f l ≠ .throw e := by
  induction l generalizing e with
  | nil => simp [Res.mapList]
  | cons a l ih =>
    have h1 := h a (by simp)
    have h2 := ih (fun b hb => h b (by simp [hb]))
    unfold Res.mapList
    cases hf : f a with
    | ok b =>
      simp only [Res.ok_bind]
      cases hm : Res.mapList f l with
      | ok bs => simp
      | throw e' => exact absurd hm (h2 e')
      | abort => simp
      | ub => simp
    | throw e' => exact absurd hf (h1 e')
    | abort => simp
    | ub => simp

theorem findCircles_no_throw (w : ImageOps) (p : DetectorParams) (t : ℝ) (e : Exc) : findCircles w p t ≠ .throw e := by
  unfold findCircles
  cases hm : Res.mapList (contourCircle w p t) ((w.contours t).filter fun c => ¬ c.length < 5) with
  | ok bs => simp
  | throw e' => exact absurd hm (mapList_no_throw (fun a _ e => contourCircle_no_throw w p t a e) e')
  | abort => simp
  | ub => simp

/-- The detector throws exactly if the required repeatability exceeds the number of thresholds. -/
theorem C71_throws (w : ImageOps) (p : DetectorParams) :
    (detect w p).Throws ↔ p.nThresholds < p.minRepeatability := by
  unfold detect applyThresholds
  split
  · next h => exact ⟨fun _ => h, fun _ => by simp⟩
  · next h =>
    refine ⟨?_, fun h' => absurd h' h⟩
    rintro ⟨e, he⟩
    cases hm : Res.mapList (fun i => findCircles w p (thresholdAt p i)) (List.range p.nThresholds) with
    | ok bs => rw [hm] at he; cases he
    | throw e' => exact absurd hm (mapList_no_throw (fun a _ e => findCircles_no_throw w p _ e) e')
    | abort => rw [hm] at he; cases he
    | ub => rw [hm] at he; cases he

/-- Otherwise it looks for circles at exactly the requested number of thresholds: the midpoint for one threshold, and
else evenly spaced values from the minimum to the maximum (increasing if the minimum is below the maximum). -/
theorem C71_levels (w : ImageOps) (p : DetectorParams) (h : p.minRepeatability ≤ p.nThresholds) :
    ∃ ts : List ℝ, ts.length = p.nThresholds ∧
      applyThresholds w p = Res.mapList (findCircles w p) ts ∧
      (p.nThresholds = 1 → ts = [(p.minThreshold + p.maxThreshold) / 2]) ∧
      (2 ≤ p.nThresholds → ts.head? = some p.minThreshold ∧ ts.getLast? = some p.maxThreshold ∧
        ∀ (i : Nat) a b c, ts[i]? = some a → ts[i + 1]? = some b → ts[i + 2]? = some c → b - a = c - b) ∧
      (p.minThreshold < p.maxThreshold → ts.Pairwise (· < ·)) := by
  refine ⟨(List.range p.nThresholds).map (thresholdAt p), by simp, ?_, ?_, ?_, ?_⟩
  · unfold applyThresholds
    rw [if_neg (by omega)]
    clear h
    induction List.range p.nThresholds with
    | nil => rfl
    | cons a l ih => simp only [Res.mapList, List.map_cons, ih]
  · intro h1
    rw [h1]
    simp only [List.range_one, List.map_cons, List.map_nil, List.cons.injEq, and_true]
    unfold thresholdAt
    rw [if_pos (by omega)]
    ring
  · intro h2
    have hn : ((p.nThresholds - 1 : Nat) : ℝ) ≠ 0 := by
      have : p.nThresholds - 1 ≠ 0 := by omega
      exact_mod_cast this
    refine ⟨?_, ?_, ?_⟩
    · rw [List.head?_map, List.head?_range, if_neg (by omega)]
      simp only [Option.map_some, Option.some.injEq]
      unfold thresholdAt
      rw [if_neg (by omega)]
      simp
    · rw [List.getLast?_map, List.getLast?_range, if_neg (by omega)]
      simp only [Option.map_some, Option.some.injEq]
      unfold thresholdAt
      rw [if_neg (by omega), div_self hn]
      ring
    · intro i a b c ha hb hc
      have hic : i + 2 < p.nThresholds := by
        have := (List.getElem?_eq_some_iff.1 hc).1
        simpa using this
      rw [List.getElem?_map, List.getElem?_range (by omega)] at ha hb hc
      simp only [Option.map_some, Option.some.injEq] at ha hb hc
      rw [← ha, ← hb, ← hc]
      unfold thresholdAt
      simp only [if_neg (show ¬ p.nThresholds < 2 by omega)]
      push_cast
      field_simp
      ring
  · intro hlt
    rw [List.pairwise_map]
    have hr := List.pairwise_lt_range (n := p.nThresholds)
    refine List.Pairwise.imp_of_mem ?_ hr
    intro a b ha hb hab
    have hb := List.mem_range.1 hb
    unfold thresholdAt
    rw [if_neg (by omega), if_neg (by omega)]
    have hn : 0 < ((p.nThresholds - 1 : Nat) : ℝ) := by
      have : 0 < p.nThresholds - 1 := by omega
      exact_mod_cast this
    have hab' : (a : ℝ) < b := by exact_mod_cast hab
    have : (a : ℝ) / ((p.nThresholds - 1 : Nat) : ℝ) < b / ((p.nThresholds - 1 : Nat) : ℝ) :=
      (div_lt_div_iff_of_pos_right hn).2 hab'
    have hr : 0 < p.maxThreshold - p.minThreshold := by linarith
    have := mul_lt_mul_of_pos_right this hr
    linarith

example : (({} : DetectorParams)).minRepeatability ≤ ({} : DetectorParams).nThresholds ∧
    2 ≤ ({} : DetectorParams).nThresholds ∧ ({} : DetectorParams).minThreshold < ({} : DetectorParams).maxThreshold := by
  norm_num

/-! ## C72 Grouping -/

theorem SameCircle.symm {r d : ℝ} {a b : Center} (h : SameCircle r d a b) : SameCircle r d b a := by
  obtain ⟨h1, h2, h3⟩ := h
  refine ⟨h1, ?_, by rwa [abs_sub_comm]⟩
  nlinarith [h2]

/-- Detections are divided into groups: each belongs to exactly one group, the members of a group agree with its first
member within the tolerances, and first members of different groups do not agree within the tolerances. -/
theorem C72_grouping (p : DetectorParams) (all : List (List Center)) :
    Grouping (SameCircle p.circleInclusionRadius p.maxRadiusDiff) all.flatten (groupCenters (nearCenter p) all) := by
  have h := groupCenters_grouping (nearCenter p) all
  have he : nearCenter p = SameCircle p.circleInclusionRadius p.maxRadiusDiff := by
    funext a b; exact propext (nearCenter_iff p a b)
  rw [he] at h ⊢
  exact h

/-- In particular for two different groups in either order. -/
theorem C72_apart (p : DetectorParams) (all : List (List Center)) (i j : Nat) (hij : i ≠ j) (f f' : Center)
    (g g' : List Center) (hi : (groupCenters (nearCenter p) all)[i]? = some (f :: g))
    (hj : (groupCenters (nearCenter p) all)[j]? = some (f' :: g')) :
    ¬ SameCircle p.circleInclusionRadius p.maxRadiusDiff f f' := by
  rcases Nat.lt_or_gt_of_ne hij with h | h
  · exact (C72_grouping p all).apart i j f g f' g' h hi hj
  · exact fun hs => (C72_grouping p all).apart j i f' g' f g h hj hi (SameCircle.symm hs)

/-! ## C73 Key points are averages of enough detections

Full statement: every key point stems from a group with at least the required number of detections, and its position
and size lie within the range of the group's members. It is false for detections without any ellipse error
(`C73_negation`), because these have infinite confidence. -/

/-- The key point lies within the range of the members of `g`. -/
def WithinGroup (g : List Center) (k : KeyPointF) : Prop :=
  ∃ x y r : ℝ, k = ⟨.fin x, .fin y, .fin (2 * r)⟩ ∧
    (∀ lo hi, (∀ c ∈ g, lo ≤ c.location.x ∧ c.location.x ≤ hi) → lo ≤ x ∧ x ≤ hi) ∧
    (∀ lo hi, (∀ c ∈ g, lo ≤ c.location.y ∧ c.location.y ≤ hi) → lo ≤ y ∧ y ≤ hi) ∧
    (∀ lo hi, (∀ c ∈ g, lo ≤ c.radius ∧ c.radius ≤ hi) → lo ≤ r ∧ r ≤ hi)

/-- With positive finite confidences each key point stems from enough detections, all within the tolerances of one of
them, and lies within their range. Missing from the full claim: infinite confidences. -/
theorem C73_partial (p : DetectorParams) (all : List (List Center))
    (hc : ∀ l ∈ all, ∀ c ∈ l, ∃ wt, c.confidence = .fin wt ∧ 0 < wt) :
    ∀ k ∈ detectKeyPoints all p, ∃ f g, (f :: g).Sublist all.flatten ∧ p.minRepeatability ≤ (f :: g).length ∧
      (∀ c ∈ g, SameCircle p.circleInclusionRadius p.maxRadiusDiff f c) ∧ WithinGroup (f :: g) k := by
  intro k hk
  unfold detectKeyPoints at hk
  obtain ⟨g, hg, rfl⟩ := List.mem_map.1 hk
  obtain ⟨hg, hlen⟩ := List.mem_filter.1 hg
  have hG := C72_grouping p all
  cases g with
  | nil => exact absurd rfl (hG.nonempty _ hg)
  | cons f g =>
    refine ⟨f, g, hG.order _ hg, by simpa using hlen, hG.close f g hg, ?_⟩
    have hmem : ∀ c ∈ f :: g, ∃ wt, c.confidence = .fin wt ∧ 0 < wt := by
      intro c hcm
      obtain ⟨l, hl, hcl⟩ := List.mem_flatten.1 ((hG.order _ hg).subset hcm)
      exact hc l hl c hcl
    classical
    let wt : Center → ℝ := fun c => if h : ∃ wt, c.confidence = .fin wt ∧ 0 < wt then h.choose else 0
    have hwt : ∀ c ∈ f :: g, c.confidence = .fin (wt c) ∧ 0 < wt c := by
      intro c hcm
      have h := hmem c hcm
      simp only [wt, dif_pos h]
      exact h.choose_spec
    have hpos : ∀ c ∈ f :: g, 0 < wt c := fun c hc => (hwt c hc).2
    refine ⟨wmean wt (·.location.x) (f :: g), wmean wt (·.location.y) (f :: g), wmean wt (·.radius) (f :: g), ?_,
      fun lo hi => wmean_bounds wt _ _ (by simp) hpos lo hi, fun lo hi => wmean_bounds wt _ _ (by simp) hpos lo hi,
      fun lo hi => wmean_bounds wt _ _ (by simp) hpos lo hi⟩
    rw [averageGroup_fin wt _ (by simp) hwt, mul_comm]

example : ∀ l ∈ [[(⟨⟨1, 2⟩, 3, .fin 4⟩ : Center)], [⟨⟨1, 2⟩, 4, .fin 5⟩]], ∀ c ∈ l,
    ∃ wt, c.confidence = .fin wt ∧ 0 < wt := by
  intro l hl c hc
  simp only [List.mem_cons, List.not_mem_nil, or_false] at hl
  rcases hl with rfl | rfl <;> simp only [List.mem_singleton] at hc <;> subst hc
  · exact ⟨4, rfl, by norm_num⟩
  · exact ⟨5, rfl, by norm_num⟩

/-- The number of key points is the number of groups with enough members, so no group is lost. -/
theorem C73_complete (p : DetectorParams) (all : List (List Center)) (g : List Center)
    (hg : g ∈ groupCenters (nearCenter p) all) (hn : p.minRepeatability ≤ g.length) :
    averageGroup g ∈ detectKeyPoints all p :=
  List.mem_map.2 ⟨g, List.mem_filter.2 ⟨hg, by simpa using hn⟩, rfl⟩

theorem ellipseValue_on {box : RotRect} {pt : PixelPt} (hw : box.width ≠ 0) (hh : box.height ≠ 0)
    (h : OnEllipse box pt) : ellipseValue box pt = 1 := by
  obtain ⟨φ, h1, h2⟩ := h
  unfold ellipseValue
  simp only [h1, h2]
  generalize box.angle * Real.pi / 180 = θ
  have hθ := Real.sin_sq_add_cos_sq θ
  have hφ := Real.sin_sq_add_cos_sq φ
  have ex : (box.width / 2 * Real.cos φ * Real.cos θ - box.height / 2 * Real.sin φ * Real.sin θ) * Real.cos θ +
      (box.width / 2 * Real.cos φ * Real.sin θ + box.height / 2 * Real.sin φ * Real.cos θ) * Real.sin θ =
      box.width / 2 * Real.cos φ := by
    linear_combination (box.width / 2 * Real.cos φ) * hθ
  have ey : (box.width / 2 * Real.cos φ * Real.cos θ - box.height / 2 * Real.sin φ * Real.sin θ) * Real.sin θ -
      (box.width / 2 * Real.cos φ * Real.sin θ + box.height / 2 * Real.sin φ * Real.cos θ) * Real.cos θ =
      -(box.height / 2 * Real.sin φ) := by
    linear_combination (-(box.height / 2 * Real.sin φ)) * hθ
  rw [ex, ey]
  have : (box.width / 2 * Real.cos φ) ^ 2 / (box.width / 2) ^ 2 + (-(box.height / 2 * Real.sin φ)) ^ 2 / (box.height / 2) ^ 2
      = 1 := by
    field_simp
    linarith
  rw [this, Real.sqrt_one]

theorem foldl_add_eq_sum (l : List ℝ) (a : ℝ) : l.foldl (· + ·) a = a + l.sum := by
  induction l generalizing a with
  | nil => simp
  | cons b l ih => simp [ih, add_assoc]

theorem ellipseError_on {box : RotRect} {contour : List PixelPt} (hw : box.width ≠ 0) (hh : box.height ≠ 0)
    (hl : contour.length ≠ 0) (h : ∀ pt ∈ contour, OnEllipse box pt) : ellipseError box contour = .fin 0 := by
  unfold ellipseError
  rw [if_neg (by simp only [hw, hh, hl, or_self, not_false_eq_true]), foldl_add_eq_sum]
  have : contour.map (ellipseValue box) = List.replicate contour.length 1 := by
    rw [List.eq_replicate_iff]
    refine ⟨by simp, ?_⟩
    intro b hb
    obtain ⟨pt, hpt, rfl⟩ := List.mem_map.1 hb
    exact ellipseValue_on hw hh (h pt hpt)
  rw [this]
  have hn : (contour.length : ℝ) ≠ 0 := by exact_mod_cast hl
  simp [hn]

theorem insertGroup_self_replicate {α : Type} (near : α → α → Prop) (c : α) (hc : near c c) (n : Nat) (gs : List (List α))
    (h : gs = [] ∨ ∃ m, gs = [List.replicate (m + 1) c]) :
    (List.replicate n c).foldl (fun gs c => insertGroup near c gs) gs =
      if gs = [] ∧ n = 0 then [] else [List.replicate (gs.flatten.length + n) c] := by
  induction n generalizing gs with
  | zero =>
    rcases h with rfl | ⟨m, rfl⟩
    · simp
    · simp
  | succ n ih =>
    rw [List.replicate_succ, List.foldl_cons]
    rcases h with rfl | ⟨m, rfl⟩
    · rw [insertGroup, ih [[c]] (Or.inr ⟨0, rfl⟩)]
      simp [Nat.add_comm]
    · rw [List.replicate_succ, insertGroup, if_pos hc]
      have : c :: List.replicate m c ++ [c] = List.replicate (m + 1 + 1) c := by
        rw [← List.replicate_succ, ← List.replicate_succ']
      rw [this, ih _ (Or.inr ⟨m + 1, rfl⟩)]
      simp only [List.cons_ne_nil, false_and, if_false, List.flatten_cons, List.flatten_nil, List.append_nil,
        List.length_replicate, ← List.replicate_succ]
      congr 2
      omega

/-- The full claim fails for every image in which the fitted ellipse describes the contour exactly: whatever the
tolerances, such a circle gives a key point that is not a number. -/
theorem C73_negation (w : ImageOps) (p : DetectorParams) (contour : List PixelPt)
    (hw : ∀ t, w.contours t = [contour]) (h5 : 5 ≤ contour.length)
    (ha : p.filterByArea = false) (hci : p.filterByCircularity = false) (hi : p.filterByInertia = false)
    (hcv : p.filterByConvexity = false) (hco : p.filterByColor = false) (hmax : 0 < p.maxAverageEllipseError)
    (hrep : p.minRepeatability ≤ p.nThresholds) (hn : 1 ≤ p.nThresholds) (hr : 0 ≤ p.circleInclusionRadius)
    (hd : 0 ≤ p.maxRadiusDiff) (hwd : (w.fitEllipse contour).width ≠ 0) (hht : (w.fitEllipse contour).height ≠ 0)
    (hfit : ∀ pt ∈ contour, OnEllipse (w.fitEllipse contour) pt) :
    detect w p = .ok [⟨.nan, .nan, .nan⟩] := by
  have herr := ellipseError_on hwd hht (by omega) hfit
  let c : Center := ⟨(w.fitEllipse contour).center, ((w.fitEllipse contour).height + (w.fitEllipse contour).width) / 4,
    .posInf⟩
  have hc1 : FRatio.div 1 0 = .posInf := by simp [FRatio.div]
  have hone : ∀ t, contourCircle w p t contour = .ok (some c) := by
    intro t
    unfold contourCircle
    simp only [ha, hci, hi, hcv, hco, Bool.false_eq_true, false_and, if_false, Res.ok_bind, herr, if_pos hmax, hc1]
    rfl
  have hfind : ∀ t, findCircles w p t = .ok [c] := by
    intro t
    unfold findCircles
    rw [hw t]
    have : ([contour].filter fun c => ¬ c.length < 5) = [contour] := by simp [h5]
    rw [this]
    simp [Res.mapList, hone t]
  have happ : applyThresholds w p = .ok (List.replicate p.nThresholds [c]) := by
    unfold applyThresholds
    rw [if_neg (by omega)]
    rw [Res.mapList_ok_of_forall (g := fun _ => [c]) (fun i _ => hfind _)]
    simp
  unfold detect
  rw [happ, Res.ok_bind]
  unfold detectKeyPoints
  rw [groupCenters_eq]
  have hfl : (List.replicate p.nThresholds [c]).flatten = List.replicate p.nThresholds c := by
    simp
  have hself : nearCenter p c c := by
    rw [nearCenter_iff]
    exact ⟨hr, by simp; positivity, by simpa using hd⟩
  rw [hfl, insertGroup_self_replicate _ c hself p.nThresholds [] (Or.inl rfl), if_neg (by omega)]
  simp only [List.flatten_nil, List.length_nil, zero_add]
  have hf : ([List.replicate p.nThresholds c].filter fun g => p.minRepeatability ≤ g.length) =
      [List.replicate p.nThresholds c] := by simp [hrep]
  rw [hf, List.map_cons, List.map_nil, averageGroup_nan]
  refine ⟨c, ?_, trivial⟩
  rw [List.mem_replicate]
  exact ⟨by omega, rfl⟩

/-- An image with one contour on a circle of diameter ten around (5, 5). -/
noncomputable def perfectCircle : ImageOps where
  rows := 11
  cols := 11
  px := fun _ _ => 0
  contours := fun _ => [[⟨10, 5⟩, ⟨5, 10⟩, ⟨0, 5⟩, ⟨5, 0⟩, ⟨10, 5⟩]]
  moments := fun _ => ⟨78, 0, 490, 490⟩
  arcLength := fun _ => 31
  contourArea := fun _ => 78
  convexHull := id
  fitEllipse := fun _ => ⟨⟨5, 5⟩, 10, 10, 0⟩
  cvRound := fun _ => 5

example : detect perfectCircle { filterByArea := false, filterByConvexity := false, filterByColor := false } =
    .ok [⟨.nan, .nan, .nan⟩] := by
  refine C73_negation perfectCircle _ _ (fun _ => rfl) (by simp) rfl rfl rfl rfl rfl (by norm_num) (by norm_num)
    (by norm_num) (by norm_num) (by norm_num) (by simp [perfectCircle]) (by simp [perfectCircle]) ?_
  have h0 : OnEllipse ⟨⟨5, 5⟩, 10, 10, 0⟩ ⟨10, 5⟩ := ⟨0, by simp; norm_num, by simp⟩
  have h1 : OnEllipse ⟨⟨5, 5⟩, 10, 10, 0⟩ ⟨5, 10⟩ := ⟨Real.pi / 2, by simp, by simp; norm_num⟩
  have h2 : OnEllipse ⟨⟨5, 5⟩, 10, 10, 0⟩ ⟨0, 5⟩ := ⟨Real.pi, by simp; norm_num, by simp⟩
  have h3 : OnEllipse ⟨⟨5, 5⟩, 10, 10, 0⟩ ⟨5, 0⟩ := ⟨-(Real.pi / 2), by simp, by simp; norm_num⟩
  intro pt hpt
  simp only [List.mem_cons, List.not_mem_nil, or_false] at hpt
  rcases hpt with rfl | rfl | rfl | rfl | rfl
  · exact h0
  · exact h1
  · exact h2
  · exact h3
  · exact h0

/-! ## C74 Repeatability counts thresholds

Full statement: a reported key point was detected at at least `minRepeatability` different thresholds. False
(`C74_negation`): several contours of one binary image (for example the two edges of a ring) are counted separately. -/

/-- The detections of each threshold, together with the number of the threshold. -/
def tagged (all : List (List Center)) : List (List (Nat × Center)) :=
  (List.range all.length).map fun (i : Nat) => ((all[i]?).getD []).map fun c => (i, c)

theorem tagged_map (all : List (List Center)) : (tagged all).map (List.map Prod.snd) = all := by
  apply List.ext_getElem?
  intro i
  unfold tagged
  simp only [List.getElem?_map]
  by_cases h : i < all.length
  · rw [List.getElem?_range h]
    have : all[i]? = some all[i] := by simp [h]
    simp [this, Function.comp_def]
  · rw [List.getElem?_eq_none (by simpa using h), List.getElem?_eq_none (by omega)]
    rfl

theorem tagged_mem {all : List (List Center)} {t : Nat × Center} (h : t ∈ (tagged all).flatten) :
    ∃ l, all[t.1]? = some l ∧ t.2 ∈ l := by
  obtain ⟨l, hl, ht⟩ := List.mem_flatten.1 h
  unfold tagged at hl
  obtain ⟨i, hi, rfl⟩ := List.mem_map.1 hl
  obtain ⟨c, hc, rfl⟩ := List.mem_map.1 ht
  have hi := List.mem_range.1 hi
  have h1 : all[i]? = some all[i] := by simp [hi]
  rw [h1, Option.getD_some] at hc
  exact ⟨_, h1, hc⟩

theorem tagged_pairwise {all : List (List Center)} {R : Center → Center → Prop} (h : ∀ l ∈ all, l.Pairwise R) :
    (tagged all).flatten.Pairwise fun s t => s.1 = t.1 → R s.2 t.2 := by
  rw [List.pairwise_flatten]
  unfold tagged
  constructor
  · intro l hl
    obtain ⟨i, hi, rfl⟩ := List.mem_map.1 hl
    rw [List.pairwise_map]
    have hi := List.mem_range.1 hi
    have h1 : all[i]? = some all[i] := by simp [hi]
    rw [h1, Option.getD_some]
    refine List.Pairwise.imp ?_ (h all[i] (by simp))
    intro a b hab _
    exact hab
  · rw [List.pairwise_map]
    refine List.pairwise_lt_range.imp ?_
    intro a b hab x hx y hy he
    obtain ⟨c, -, rfl⟩ := List.mem_map.1 hx
    obtain ⟨d, -, rfl⟩ := List.mem_map.1 hy
    simp only at he
    omega

theorem dist_triangle {ax ay bx by' cx cy r : ℝ} (h1 : (ax - bx) ^ 2 + (ay - by') ^ 2 ≤ r ^ 2)
    (h2 : (ax - cx) ^ 2 + (ay - cy) ^ 2 ≤ r ^ 2) : (bx - cx) ^ 2 + (by' - cy) ^ 2 ≤ (2 * r) ^ 2 := by
  nlinarith [sq_nonneg ((ax - bx) + (ax - cx)), sq_nonneg ((ay - by') + (ay - cy))]

theorem not_far_of_same {r d : ℝ} {f a b : Center} (h1 : SameCircle r d f a) (h2 : SameCircle r d f b) :
    ¬ FarApart r d a b := by
  obtain ⟨-, p1, q1⟩ := h1
  obtain ⟨-, p2, q2⟩ := h2
  rintro (h | h)
  · exact absurd (dist_triangle p1 p2) (not_le.2 h)
  · have := abs_sub_le a.radius f.radius b.radius
    rw [abs_sub_comm a.radius f.radius] at this
    linarith

theorem not_far_of_same' {r d : ℝ} {f b : Center} (h2 : SameCircle r d f b) : ¬ FarApart r d f b := by
  obtain ⟨hr, p2, q2⟩ := h2
  rintro (h | h)
  · nlinarith [sq_nonneg r]
  · have := abs_nonneg (f.radius - b.radius)
    linarith

/-- If the circles seen at any single threshold are farther apart than twice the tolerances, each key point is the
average of detections at different thresholds, at least as many as required. Missing from the full claim: images in
which one threshold shows several close contours. -/
theorem C74_partial (p : DetectorParams) (all : List (List Center))
    (hsep : ∀ l ∈ all, l.Pairwise (FarApart p.circleInclusionRadius p.maxRadiusDiff)) :
    ∀ k ∈ detectKeyPoints all p, ∃ g : List (Nat × Center), k = averageGroup (g.map Prod.snd) ∧
      (∀ t ∈ g, ∃ l, all[t.1]? = some l ∧ t.2 ∈ l) ∧ (g.map Prod.fst).Nodup ∧ p.minRepeatability ≤ g.length := by
  intro k hk
  unfold detectKeyPoints at hk
  obtain ⟨g, hg, rfl⟩ := List.mem_map.1 hk
  obtain ⟨hg, hlen⟩ := List.mem_filter.1 hg
  have hmap := groupCenters_map (Prod.snd : Nat × Center → Center) (nearCenter p) (tagged all)
  rw [tagged_map] at hmap
  rw [← hmap] at hg
  obtain ⟨tg, htg, rfl⟩ := List.mem_map.1 hg
  have hG := groupCenters_grouping (fun (a b : Nat × Center) => nearCenter p a.2 b.2) (tagged all)
  refine ⟨tg, rfl, fun t ht => tagged_mem ((hG.order tg htg).subset ht), ?_, by simpa using hlen⟩
  have hpw := (tagged_pairwise hsep).sublist (hG.order tg htg)
  cases tg with
  | nil => simp
  | cons f tg =>
    have hclose := hG.close f tg htg
    rw [List.pairwise_cons] at hpw
    rw [List.Nodup, List.pairwise_map, List.pairwise_cons]
    refine ⟨?_, ?_⟩
    · intro b hb he
      exact not_far_of_same' ((nearCenter_iff p _ _).1 (hclose b hb)) (hpw.1 b hb he)
    · refine List.Pairwise.imp_of_mem ?_ hpw.2
      intro a b ha hb hab he
      exact not_far_of_same ((nearCenter_iff p _ _).1 (hclose a ha)) ((nearCenter_iff p _ _).1 (hclose b hb)) (hab he)

example : ∀ l ∈ [[(⟨⟨0, 0⟩, 3, .fin 4⟩ : Center), ⟨⟨20, 0⟩, 3, .fin 4⟩], [⟨⟨1, 0⟩, 3, .fin 5⟩]],
    l.Pairwise (FarApart 5 5) := by
  intro l hl
  simp only [List.mem_cons, List.not_mem_nil, or_false] at hl
  rcases hl with rfl | rfl
  · simp [FarApart]; norm_num
  · simp

/-- The full claim fails for every required number `m` of repetitions and every circle: `m` contours of this circle at
one of the thresholds are enough, even if nothing is seen at all others. -/
theorem C74_negation (p : DetectorParams) (hr : 0 ≤ p.circleInclusionRadius) (hd : 0 ≤ p.maxRadiusDiff)
    (hm : 1 ≤ p.minRepeatability) (c : Center) :
    detectKeyPoints (List.replicate p.minRepeatability c :: List.replicate (p.nThresholds - 1) []) p =
      [averageGroup (List.replicate p.minRepeatability c)] := by
  unfold detectKeyPoints
  rw [groupCenters_eq]
  have hfl : (List.replicate p.minRepeatability c :: List.replicate (p.nThresholds - 1) []).flatten =
      List.replicate p.minRepeatability c := by
    simp
  have hself : nearCenter p c c := by
    rw [nearCenter_iff]
    exact ⟨hr, by simp; positivity, by simpa using hd⟩
  rw [hfl, insertGroup_self_replicate _ c hself _ [] (Or.inl rfl), if_neg (by omega)]
  simp

end RCT
