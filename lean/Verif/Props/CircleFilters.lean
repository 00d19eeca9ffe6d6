import Verif.Props.CircleDetector

/-!
# C100 – C102: contour filters of the circle detector
-/

namespace RCT

open Spec

/-- The contour survives the filters before the ellipse fit. -/
def EarlyPass (w : ImageOps) (p : DetectorParams) (c : List PixelPt) : Prop :=
  ¬ (p.filterByArea = true ∧ ((w.moments c).m00 < p.minArea ∨ (w.moments c).m00 ≥ p.maxArea)) ∧
  ¬ (p.filterByCircularity = true ∧
      ((FRatio.div (4 * Real.pi * (w.moments c).m00) (w.arcLength c * w.arcLength c)).Lt p.minCircularity ∨
        (FRatio.div (4 * Real.pi * (w.moments c).m00) (w.arcLength c * w.arcLength c)).Ge p.maxCircularity)) ∧
  ¬ (p.filterByInertia = true ∧
      ((inertiaRatio (w.moments c)).Lt p.minInertiaRatio ∨ (inertiaRatio (w.moments c)).Ge p.maxInertiaRatio)) ∧
  ¬ (p.filterByConvexity = true ∧
      ((FRatio.div (w.contourArea c) (w.contourArea (w.convexHull c))).Lt p.minConvexity ∨
        (FRatio.div (w.contourArea c) (w.contourArea (w.convexHull c))).Ge p.maxConvexity))

/-- The ellipse check at the end of the loop. -/
noncomputable def lateCircle (w : ImageOps) (p : DetectorParams) (c : List PixelPt) : Option Center :=
  open Classical in
  match ellipseError (w.fitEllipse c) c with
  | .fin err =>
    if err < p.maxAverageEllipseError then
      some ⟨(w.fitEllipse c).center, ((w.fitEllipse c).height + (w.fitEllipse c).width) / 4, FRatio.div 1 err⟩
    else none
  | _ => none

theorem contourCircle_reject {w : ImageOps} {p : DetectorParams} {t : ℝ} {c : List PixelPt} (h : ¬ EarlyPass w p c) :
    contourCircle w p t c = .ok none := by
  unfold EarlyPass at h
  unfold contourCircle
  simp only
  split_ifs with h1 h2 h3 h4
  · rfl
  · rfl
  · rfl
  · rfl
  · exact absurd ⟨h1, h2, h3, h4⟩ h
  · exact absurd ⟨h1, h2, h3, h4⟩ h

theorem contourCircle_pass {w : ImageOps} {p : DetectorParams} {t : ℝ} {c : List PixelPt} (h : EarlyPass w p c) :
    contourCircle w p t c =
      (if p.filterByColor = true then
        (w.binAt t (w.cvRound (w.fitEllipse c).center.y) (w.cvRound (w.fitEllipse c).center.x)).bind
          fun v => .ok (if v = p.circleColor then lateCircle w p c else none)
      else .ok (lateCircle w p c)) := by
  obtain ⟨h1, h2, h3, h4⟩ := h
  unfold contourCircle lateCircle
  simp only [if_neg h1, if_neg h2, if_neg h3, if_neg h4]
  split_ifs with hc
  · cases hb : w.binAt t (w.cvRound (w.fitEllipse c).center.y) (w.cvRound (w.fitEllipse c).center.x) with
    | ok v =>
      simp only [Res.ok_bind]
      by_cases hv : v = p.circleColor
      · simp only [hv, ne_eq, not_true_eq_false, decide_false, Bool.false_eq_true, if_false, if_true]
        generalize ellipseError (w.fitEllipse c) c = r
        cases r <;> simp only <;> (try split_ifs) <;> rfl
      · simp [hv]
    | throw e => simp
    | abort => simp
    | ub => simp
  · simp only [Res.ok_bind, Bool.false_eq_true, if_false]
    generalize ellipseError (w.fitEllipse c) c = r
    cases r <;> simp only <;> (try split_ifs) <;> rfl

/-! ## C100 The colour filter reads pixels of the image

Full statement: for every image and all parameters the detector reads only pixels that exist. The fitted centre of a
contour need not lie in the image (for example for a circle cut by the border): `C100_negation`. -/

/-- The centre of the ellipse fitted to a contour rounds to a pixel of the image. -/
def CentreInside (w : ImageOps) (c : List PixelPt) : Prop :=
  ∃ row col : Nat, w.cvRound (w.fitEllipse c).center.x = col ∧ w.cvRound (w.fitEllipse c).center.y = row ∧
    row < w.rows ∧ col < w.cols

theorem binAt_ok {w : ImageOps} {t : ℝ} {row col : Nat} (h1 : row < w.rows) (h2 : col < w.cols) :
    ∃ v, w.binAt t row col = .ok v ∧ ∀ c, v = c ↔ Colour w t row col c := by
  unfold ImageOps.binAt
  rw [if_pos ⟨by omega, by omega, by omega, by omega⟩]
  refine ⟨_, rfl, ?_⟩
  intro c
  unfold Colour
  simp only [Int.toNat_natCast]
  split_ifs with h
  · simp [h, eq_comm]
  · simp [h, eq_comm]

theorem binAt_ub {w : ImageOps} {t : ℝ} {c : List PixelPt} (h : ¬ CentreInside w c) :
    w.binAt t (w.cvRound (w.fitEllipse c).center.y) (w.cvRound (w.fitEllipse c).center.x) = .ub := by
  unfold ImageOps.binAt
  rw [if_neg]
  rintro ⟨h1, h2, h3, h4⟩
  exact h ⟨(w.cvRound (w.fitEllipse c).center.y).toNat, (w.cvRound (w.fitEllipse c).center.x).toNat, by omega, by omega,
    by omega, by omega⟩

/-- A single contour: undefined exactly if the colour filter is on and the contour passes the earlier filters with its
fitted centre outside the image; otherwise it gives a result. -/
theorem contourCircle_ub_iff (w : ImageOps) (p : DetectorParams) (t : ℝ) (c : List PixelPt) :
    (contourCircle w p t c = .ub ↔ p.filterByColor = true ∧ EarlyPass w p c ∧ ¬ CentreInside w c) ∧
    (contourCircle w p t c ≠ .ub → ∃ o, contourCircle w p t c = .ok o) := by
  by_cases he : EarlyPass w p c
  · rw [contourCircle_pass he]
    by_cases hc : p.filterByColor = true
    · rw [if_pos hc]
      by_cases hin : CentreInside w c
      · obtain ⟨row, col, h1, h2, h3, h4⟩ := hin
        obtain ⟨v, hv, -⟩ := binAt_ok (t := t) h3 h4
        rw [h1, h2, hv, Res.ok_bind]
        refine ⟨⟨fun h => (by cases h), fun h => absurd ⟨row, col, h1, h2, h3, h4⟩ h.2.2⟩, fun _ => ⟨_, rfl⟩⟩
      · rw [binAt_ub hin, Res.ub_bind]
        exact ⟨⟨fun _ => ⟨hc, he, hin⟩, fun _ => rfl⟩, fun h => absurd rfl h⟩
    · rw [if_neg hc]
      exact ⟨⟨fun h => (by cases h), fun h => absurd h.1 hc⟩, fun _ => ⟨_, rfl⟩⟩
  · rw [contourCircle_reject he]
    exact ⟨⟨fun h => (by cases h), fun h => absurd h.2.1 he⟩, fun _ => ⟨_, rfl⟩⟩

/-- The detector returns key points (without undefined behaviour) whenever the colour filter is off or all fitted
centres of contours with at least five points lie in the image. Missing: fitted centres outside the image. -/
theorem C100_partial (w : ImageOps) (p : DetectorParams) (hrep : p.minRepeatability ≤ p.nThresholds)
    (h : p.filterByColor = true → ∀ t, ∀ c ∈ w.contours t, 5 ≤ c.length → CentreInside w c) :
    (detect w p).Returns := by
  have hcc : ∀ t, ∀ c ∈ (w.contours t).filter fun c => ¬ c.length < 5, ∃ o, contourCircle w p t c = .ok o := by
    intro t c hc
    obtain ⟨hc, h5⟩ := List.mem_filter.1 hc
    apply (contourCircle_ub_iff w p t c).2
    rw [Ne, (contourCircle_ub_iff w p t c).1]
    rintro ⟨h1, -, h3⟩
    exact h3 (h h1 t c hc (by simpa using h5))
  have hret : ∀ {α β : Type} (f : α → Res β) (l : List α), (∀ a ∈ l, ∃ b, f a = .ok b) → ∃ bs, Res.mapList f l = .ok bs := by
    intro α β f l
    induction l with
    | nil => intro _; exact ⟨[], rfl⟩
    | cons a l ih =>
      intro hl
      obtain ⟨b, hb⟩ := hl a (by simp)
      obtain ⟨bs, hbs⟩ := ih (fun x hx => hl x (by simp [hx]))
      exact ⟨b :: bs, by simp [Res.mapList, hb, hbs]⟩
  have hfc : ∀ t, ∃ cs, findCircles w p t = .ok cs := by
    intro t
    obtain ⟨os, hos⟩ := hret (contourCircle w p t) _ (hcc t)
    exact ⟨_, by unfold findCircles; rw [hos]; rfl⟩
  unfold detect applyThresholds
  rw [if_neg (by omega)]
  obtain ⟨all, hall⟩ := hret (fun i => findCircles w p (thresholdAt p i)) (List.range p.nThresholds) (fun i _ => hfc _)
  rw [hall]
  exact ⟨_, rfl⟩

example : ∀ t, ∀ c ∈ perfectCircle.contours t, 5 ≤ c.length → CentreInside perfectCircle c := by
  intro t c _ _
  exact ⟨5, 5, rfl, rfl, by simp [perfectCircle], by simp [perfectCircle]⟩

/-- The full claim fails: whenever the first contour has at least five points, passes the other filters and its fitted
centre lies outside the image, a pixel that does not exist is read. -/
theorem C100_negation (w : ImageOps) (p : DetectorParams) (hcol : p.filterByColor = true)
    (hrep : p.minRepeatability ≤ p.nThresholds) (hn : 1 ≤ p.nThresholds) (c : List PixelPt) (rest : List (List PixelPt))
    (h5 : 5 ≤ c.length) (hw : ∀ t, w.contours t = c :: rest) (hpass : EarlyPass w p c) (hout : ¬ CentreInside w c) :
    detect w p = .ub := by
  have hf : ∀ t, findCircles w p t = .ub := by
    intro t
    unfold findCircles
    rw [hw t]
    have : ((c :: rest).filter fun c => ¬ c.length < 5) = c :: (rest.filter fun c => ¬ c.length < 5) := by
      simp [h5]
    rw [this, Res.mapList, (contourCircle_ub_iff w p t c).1.2 ⟨hcol, hpass, hout⟩]
    rfl
  unfold detect applyThresholds
  rw [if_neg (by omega)]
  obtain ⟨m, hm⟩ : ∃ m, p.nThresholds = m + 1 := ⟨p.nThresholds - 1, by omega⟩
  rw [hm, List.range_succ_eq_map, Res.mapList, hf]
  rfl

/-- A circle cut by the left border of the image: the fitted centre is three pixels outside. -/
noncomputable def cutCircle : ImageOps := { perfectCircle with
  fitEllipse := fun _ => ⟨⟨-3, 5⟩, 10, 10, 0⟩
  cvRound := fun x => open Classical in if x < 0 then -3 else 5 }

example : detect cutCircle {} = .ub := by
  refine C100_negation cutCircle {} rfl (by simp) (by simp) _ [] (by simp) (fun _ => rfl) ?_ ?_
  · unfold EarlyPass
    refine ⟨?_, by simp, by simp, ?_⟩
    · simp only [cutCircle, perfectCircle]; norm_num
    · simp [cutCircle, perfectCircle, FRatio.div, FRatio.Lt, FRatio.Ge]
      norm_num
  · rintro ⟨row, col, h, -⟩
    simp only [cutCircle] at h
    rw [if_pos (by norm_num)] at h
    omega

/-! ## C101 Reported circles are exactly the contours that meet the requirements

Full statement: at every threshold, the reported circles are the fitted ellipses of exactly those contours that meet all
enabled requirements, in their order. A contour without area, e.g. a line, passes the convexity filter
(`C101_negation`). -/

theorem div_fin {a b : ℝ} (h : b ≠ 0) : FRatio.div a b = .fin (a / b) := by simp [FRatio.div, h]

theorem not_or_range {r lo hi : ℝ} : ¬ ((FRatio.fin r).Lt lo ∨ (FRatio.fin r).Ge hi) ↔ InRange lo hi r := by
  simp [FRatio.Lt, FRatio.Ge, InRange]

theorem inertiaRatio_fin_or (m : Moments) (h : 0 ≤ m.mu20 + m.mu02) : ∃ q, inertiaRatio m = .fin q := by
  unfold inertiaRatio
  simp only
  split
  · next hd =>
    refine ⟨_, div_fin ?_⟩
    set D := Real.sqrt ((2 * m.mu11) ^ 2 + (m.mu20 - m.mu02) ^ 2) with hD
    have hD0 : 0 < D := by linarith
    have hsq : D ^ 2 = (2 * m.mu11) ^ 2 + (m.mu20 - m.mu02) ^ 2 := Real.sq_sqrt (by positivity)
    have : 1 / 2 * (m.mu20 + m.mu02) - 1 / 2 * (m.mu20 - m.mu02) * -((m.mu20 - m.mu02) / D) - m.mu11 * -(2 * m.mu11 / D)
        = (m.mu20 + m.mu02 + D) / 2 := by
      field_simp
      nlinarith [hsq]
    rw [this]
    linarith
  · exact ⟨1, rfl⟩

/-- The quotients and the fitted ellipse of the contour are defined. -/
structure Regular (w : ImageOps) (c : List PixelPt) : Prop where
  perimeter : w.arcLength c ≠ 0
  hull : w.contourArea (w.convexHull c) ≠ 0
  inertia : 0 ≤ (w.moments c).mu20 + (w.moments c).mu02
  width : (w.fitEllipse c).width ≠ 0
  height : (w.fitEllipse c).height ≠ 0

theorem contourCircle_accepted {w : ImageOps} {p : DetectorParams} {t : ℝ} {c : List PixelPt} {o : Option Center}
    (hr : Regular w c) (h5 : 5 ≤ c.length) (h : contourCircle w p t c = .ok o) :
    (Accepted w p t c → ∃ x, o = some x ∧ x.location = (w.fitEllipse c).center ∧
        x.radius = ((w.fitEllipse c).width / 2 + (w.fitEllipse c).height / 2) / 2) ∧
      (¬ Accepted w p t c → o = none) := by
  have hcirc := div_fin (a := 4 * Real.pi * (w.moments c).m00) (mul_ne_zero hr.perimeter hr.perimeter)
  have hconv := div_fin (a := w.contourArea c) hr.hull
  obtain ⟨q, hq⟩ := inertiaRatio_fin_or (w.moments c) hr.inertia
  have hep : EarlyPass w p c ↔
      (p.filterByArea = true → InRange p.minArea p.maxArea (w.moments c).m00) ∧
      (p.filterByCircularity = true →
        InRange p.minCircularity p.maxCircularity (4 * Real.pi * (w.moments c).m00 / w.arcLength c ^ 2)) ∧
      (p.filterByInertia = true → InRange p.minInertiaRatio p.maxInertiaRatio q) ∧
      (p.filterByConvexity = true →
        InRange p.minConvexity p.maxConvexity (w.contourArea c / w.contourArea (w.convexHull c))) := by
    unfold EarlyPass
    rw [hcirc, hconv, hq, sq]
    simp only [not_and, not_or_range]
    have : ∀ a : ℝ, ¬ (a < p.minArea ∨ a ≥ p.maxArea) ↔ InRange p.minArea p.maxArea a := by
      intro a; simp [InRange]
    rw [this]
  have hlen : (c.length : ℝ) ≠ 0 := by
    have : c.length ≠ 0 := by omega
    exact_mod_cast this
  have herr : ellipseError (w.fitEllipse c) c =
      .fin |(c.map (ellipseValue (w.fitEllipse c))).sum / c.length - 1| := by
    unfold ellipseError
    rw [if_neg (by
      rintro (h | h | h)
      · exact hr.width h
      · exact hr.height h
      · omega), foldl_add_eq_sum, zero_add]
  have hlate : (|(c.map (ellipseValue (w.fitEllipse c))).sum / c.length - 1| < p.maxAverageEllipseError →
        ∃ x, lateCircle w p c = some x ∧ x.location = (w.fitEllipse c).center ∧
          x.radius = ((w.fitEllipse c).width / 2 + (w.fitEllipse c).height / 2) / 2) ∧
      (¬ |(c.map (ellipseValue (w.fitEllipse c))).sum / c.length - 1| < p.maxAverageEllipseError →
        lateCircle w p c = none) := by
    unfold lateCircle
    rw [herr]
    constructor
    · intro hl
      simp only [if_pos hl]
      exact ⟨_, rfl, rfl, by simp only; ring⟩
    · intro hl
      simp only [if_neg hl]
  by_cases he : EarlyPass w p c
  · rw [contourCircle_pass he] at h
    obtain ⟨e1, e2, e3, e4⟩ := hep.1 he
    by_cases hc : p.filterByColor = true
    · rw [if_pos hc] at h
      by_cases hin : CentreInside w c
      · obtain ⟨row, col, h1, h2, h3, h4⟩ := hin
        obtain ⟨v, hv, hvc⟩ := binAt_ok (t := t) h3 h4
        rw [h1, h2, hv, Res.ok_bind] at h
        cases h
        constructor
        · intro ha
          obtain ⟨row', col', g1, g2, -, -, g5⟩ := ha.colour hc
          have : row' = row := by omega
          have : col' = col := by omega
          subst row' col'
          rw [if_pos ((hvc _).2 g5)]
          exact hlate.1 ha.ellipse
        · intro ha
          split
          · next hve =>
            apply hlate.2
            intro hl
            exact ha ⟨h5, e1, e2, fun hh => ⟨q, hq, e3 hh⟩, e4, fun _ => ⟨row, col, h1, h2, h3, h4, (hvc _).1 hve⟩, hl⟩
          · rfl
      · rw [binAt_ub hin] at h
        cases h
    · rw [if_neg hc] at h
      cases h
      constructor
      · intro ha; exact hlate.1 ha.ellipse
      · intro ha
        apply hlate.2
        intro hl
        exact ha ⟨h5, e1, e2, fun hh => ⟨q, hq, e3 hh⟩, e4, fun hh => absurd hh hc, hl⟩
  · rw [contourCircle_reject he] at h
    cases h
    refine ⟨fun ha => absurd (hep.2 ⟨ha.area, ha.circularity, ?_, ha.convexity⟩) he, fun _ => rfl⟩
    intro hh
    obtain ⟨q', hq', hr'⟩ := ha.inertia hh
    rw [hq] at hq'
    cases hq'
    exact hr'

open Classical in
/-- For contours with defined quotients the reported circles are exactly those of the accepted contours, in order.
Missing: contours whose hull has no area. -/
theorem C101_partial (w : ImageOps) (p : DetectorParams) (t : ℝ) (cs : List Center)
    (hr : ∀ c ∈ w.contours t, 5 ≤ c.length → Regular w c) (h : findCircles w p t = .ok cs) :
    List.Forall₂ (fun c x => x.location = (w.fitEllipse c).center ∧
        x.radius = ((w.fitEllipse c).width / 2 + (w.fitEllipse c).height / 2) / 2)
      ((w.contours t).filter fun c => Accepted w p t c) cs := by
  unfold findCircles at h
  rw [Res.bind_ok_iff] at h
  obtain ⟨os, hos, h⟩ := h
  cases h
  rw [Res.mapList_ok_iff] at hos
  generalize hl : w.contours t = l at hos hr
  clear hl
  induction l generalizing os with
  | nil => cases hos; exact List.Forall₂.nil
  | cons c l ih =>
    have hr' : ∀ c ∈ l, 5 ≤ c.length → Regular w c := fun c hc => hr c (by simp [hc])
    by_cases h5 : 5 ≤ c.length
    · have hf : ((c :: l).filter fun c => ¬ c.length < 5) = c :: (l.filter fun c => ¬ c.length < 5) := by
        simp [h5]
      rw [hf] at hos
      cases hos with
      | cons ho hos =>
        rename_i o os
        have hacc := contourCircle_accepted (hr c (by simp) h5) h5 ho
        by_cases ha : Accepted w p t c
        · obtain ⟨x, hx, hloc, hrad⟩ := hacc.1 ha
          subst hx
          rw [List.filter_cons_of_pos (by simpa using ha), List.filterMap_cons_some (by rfl)]
          exact List.Forall₂.cons ⟨hloc, hrad⟩ (ih os hos hr')
        · have := hacc.2 ha
          subst this
          rw [List.filter_cons_of_neg (by simpa using ha), List.filterMap_cons_none (by rfl)]
          exact ih os hos hr'
    · have hf : ((c :: l).filter fun c => ¬ c.length < 5) = (l.filter fun c => ¬ c.length < 5) := by
        simp at h5
        simp [h5]
      rw [hf] at hos
      rw [List.filter_cons_of_neg (by simp only [decide_eq_true_eq]; exact fun ha => h5 ha.points)]
      exact ih os hos hr'

example : ∀ c ∈ perfectCircle.contours 0, 5 ≤ c.length → Regular perfectCircle c := by
  intro c _ _
  constructor <;> simp [perfectCircle]

/-- The full claim fails: whatever range is required, a contour whose hull has no area (so that it has no convexity)
passes the convexity filter. -/
theorem C101_negation (w : ImageOps) (p : DetectorParams) (t : ℝ) (c : List PixelPt) (hw : w.contours t = [c])
    (h5 : 5 ≤ c.length) (ha : p.filterByArea = false) (hci : p.filterByCircularity = false)
    (hi : p.filterByInertia = false) (hco : p.filterByColor = false)
    (harea : w.contourArea c = 0) (hhull : w.contourArea (w.convexHull c) = 0)
    (hwd : (w.fitEllipse c).width ≠ 0) (hht : (w.fitEllipse c).height ≠ 0)
    (herr : |(c.map (ellipseValue (w.fitEllipse c))).sum / c.length - 1| < p.maxAverageEllipseError) :
    ∃ x, findCircles w p t = .ok [x] := by
  have hpass : EarlyPass w p c := by
    unfold EarlyPass
    refine ⟨by simp [ha], by simp [hci], by simp [hi], ?_⟩
    rw [harea, hhull]
    simp [FRatio.div, FRatio.Lt, FRatio.Ge]
  have herr' : ellipseError (w.fitEllipse c) c =
      .fin |(c.map (ellipseValue (w.fitEllipse c))).sum / c.length - 1| := by
    unfold ellipseError
    rw [if_neg (by
      rintro (h | h | h)
      · exact hwd h
      · exact hht h
      · omega), foldl_add_eq_sum, zero_add]
  have hlate : ∃ x, lateCircle w p c = some x := by
    unfold lateCircle
    rw [herr']
    simp only [if_pos herr]
    exact ⟨_, rfl⟩
  obtain ⟨x, hx⟩ := hlate
  refine ⟨x, ?_⟩
  unfold findCircles
  rw [hw]
  have : ([c].filter fun c => ¬ c.length < 5) = [c] := by simp [h5]
  rw [this]
  simp [Res.mapList, contourCircle_pass hpass, hco, hx]

/-! ## C102 Inertia ratio -/

/-- The inertia ratio of a contour is the quotient of its smaller and larger principal second moments (the eigenvalues
of the symmetric matrix `[[mu20, mu11], [mu11, mu02]]`), and thus between 0 and 1; moments that differ by at most 0.01
count as equal. -/
theorem C102_inertia (m : Moments) (h20 : 0 ≤ m.mu20) (h02 : 0 ≤ m.mu02) (hdet : m.mu11 ^ 2 ≤ m.mu20 * m.mu02) :
    ∃ l1 l2 : ℝ, 0 ≤ l1 ∧ l1 ≤ l2 ∧ l1 + l2 = m.mu20 + m.mu02 ∧ l1 * l2 = m.mu20 * m.mu02 - m.mu11 ^ 2 ∧
      (l2 - l1 > 1 / 100 → inertiaRatio m = .fin (l1 / l2) ∧ 0 ≤ l1 / l2 ∧ l1 / l2 < 1) ∧
      (l2 - l1 ≤ 1 / 100 → inertiaRatio m = .fin 1) := by
  set D := Real.sqrt ((2 * m.mu11) ^ 2 + (m.mu20 - m.mu02) ^ 2) with hD
  have hD0 : 0 ≤ D := Real.sqrt_nonneg _
  have hsq : D ^ 2 = (2 * m.mu11) ^ 2 + (m.mu20 - m.mu02) ^ 2 := Real.sq_sqrt (by positivity)
  have hDle : D ≤ m.mu20 + m.mu02 := by
    apply le_of_sq_le_sq
    · nlinarith
    · linarith
  refine ⟨(m.mu20 + m.mu02 - D) / 2, (m.mu20 + m.mu02 + D) / 2, by linarith, by linarith, by ring, by nlinarith, ?_, ?_⟩
  · intro hd
    have hDp : D > 1 / 100 := by linarith
    have hD1 : 0 < D := by linarith
    have hpos : 0 < (m.mu20 + m.mu02 + D) / 2 := by linarith
    refine ⟨?_, div_nonneg (by linarith) hpos.le, by rw [div_lt_one hpos]; linarith⟩
    unfold inertiaRatio
    simp only [← hD]
    rw [if_pos hDp]
    have e1 : 1 / 2 * (m.mu20 + m.mu02) - 1 / 2 * (m.mu20 - m.mu02) * ((m.mu20 - m.mu02) / D) - m.mu11 * (2 * m.mu11 / D)
        = (m.mu20 + m.mu02 - D) / 2 := by
      field_simp
      nlinarith [hsq]
    have e2 : 1 / 2 * (m.mu20 + m.mu02) - 1 / 2 * (m.mu20 - m.mu02) * -((m.mu20 - m.mu02) / D)
        - m.mu11 * -(2 * m.mu11 / D) = (m.mu20 + m.mu02 + D) / 2 := by
      field_simp
      nlinarith [hsq]
    rw [e1, e2, div_fin hpos.ne']
  · intro hd
    unfold inertiaRatio
    simp only [← hD]
    rw [if_neg (by linarith)]

example : (0 : ℝ) ≤ (⟨10, 1, 4, 2⟩ : Moments).mu20 ∧ 0 ≤ (⟨10, 1, 4, 2⟩ : Moments).mu02 ∧
    (⟨10, 1, 4, 2⟩ : Moments).mu11 ^ 2 ≤ (⟨10, 1, 4, 2⟩ : Moments).mu20 * (⟨10, 1, 4, 2⟩ : Moments).mu02 := by norm_num

end RCT
