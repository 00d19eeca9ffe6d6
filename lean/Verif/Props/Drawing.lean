import Verif.Model.Drawing
import Verif.Props.MarkerOrder
import Verif.Props.CircleFilters
import Verif.Props.CircleFinder
import Verif.Props.Plugins

/-!
# C219, C220: the drawing of a found circle grid and the test program of the finder
-/

namespace RCT

open Spec

/-! ## C219 -/

/-- The circle that the ellipse fitted to a contour gives. -/
def FittedTo (w : ImageOps) (c : List PixelPt) (x : Center) : Prop :=
  x.location = (w.fitEllipse c).center ∧ x.radius = ((w.fitEllipse c).width / 2 + (w.fitEllipse c).height / 2) / 2

theorem contourCircle_fitted {w : ImageOps} {p : DetectorParams} {t : ℝ} {c : List PixelPt} {x : Center}
    (h : contourCircle w p t c = .ok (some x)) : FittedTo w c x := by
  unfold contourCircle at h
  simp only at h
  split at h
  · cases h
  split at h
  · cases h
  split at h
  · cases h
  split at h
  · cases h
  rw [Res.bind_ok_iff] at h
  obtain ⟨b, -, h⟩ := h
  split at h
  · cases h
  split at h
  · split at h
    · cases h
      exact ⟨rfl, by simp only; ring⟩
    · cases h
  · cases h

theorem mapList_map {α β γ : Type} (f : α → Res β) (g : β → γ) (l : List α) :
    Res.mapList (fun a => (f a).bind fun b => .ok (g b)) l = (Res.mapList f l).bind fun bs => .ok (bs.map g) := by
  induction l with
  | nil => rfl
  | cons a l ih =>
    simp only [Res.mapList, ih]
    cases f a <;> simp
    cases Res.mapList f l <;> simp

/-- Forgetting the contours gives `findCircles`. -/
theorem findShown_fst (w : ImageOps) (p : DetectorParams) (t : ℝ) :
    (findShown w p t).bind (fun r => .ok (r.map Prod.fst)) = findCircles w p t := by
  unfold findShown findCircles
  generalize (w.contours t).filter (fun c => ¬ c.length < 5) = l
  induction l with
  | nil => rfl
  | cons a l ih =>
    simp only [Res.mapList]
    cases ha : contourCircle w p t a with
    | ok o =>
      simp only [Res.ok_bind]
      cases h1 : Res.mapList (fun c => (contourCircle w p t c).bind fun o => Res.ok (o.map fun x => (x, c))) l <;>
        cases h2 : Res.mapList (contourCircle w p t) l <;> rw [h1, h2] at ih <;> simp at ih ⊢
      · cases o <;> simp [ih]
      · exact ih
    | throw e => rfl
    | abort => rfl
    | ub => rfl

/-- The pairs are circles with their contours. -/
theorem findShown_pairs {w : ImageOps} {p : DetectorParams} {t : ℝ} {r : List (Center × List PixelPt)}
    (h : findShown w p t = .ok r) : ∀ e ∈ r, FittedTo w e.2 e.1 ∧ e.2 ∈ w.contours t := by
  unfold findShown at h
  rw [Res.bind_ok_iff] at h
  obtain ⟨os, hos, h⟩ := h
  cases h
  rw [Res.mapList_ok_iff] at hos
  intro e he
  rw [List.mem_filterMap] at he
  obtain ⟨o, ho, he⟩ := he
  cases he
  obtain ⟨i, hi, hoi⟩ := List.mem_iff_getElem.1 ho
  have hl := hos.length_eq
  have := hos.get (by omega : i < _) hi
  simp only [List.get_eq_getElem, hoi] at this
  rw [Res.bind_ok_iff] at this
  obtain ⟨o', h1, h2⟩ := this
  cases o' with
  | none => cases h2
  | some x =>
    cases h2
    exact ⟨contourCircle_fitted h1, (List.mem_filter.1 (List.getElem_mem _)).1⟩

theorem shown_thresholds (w : ImageOps) (p : DetectorParams) (is : List Nat) :
    (Res.mapList (fun i => findShown w p (thresholdAt p i)) is).bind (fun rs => .ok (rs.map fun r => r.map Prod.fst)) =
      Res.mapList (fun i => findCircles w p (thresholdAt p i)) is := by
  rw [← mapList_map]
  congr 1
  funext i
  exact findShown_fst w p _

/-- **C219, circles.** Drawing the detected circles ends like their detection; the key points drawn are the key points that `detect`
reports, and the contours drawn are, threshold by threshold, those the circles were fitted to. -/
theorem C219_circles (w : ImageOps) (p : DetectorParams) :
    ((drawDetectedCircles w p).bind fun d => .ok d.keyPoints) = detect w p ∧
    ∀ d, drawDetectedCircles w p = .ok d → ∃ (shown : List (List (List PixelPt))) (all : List (List Center)),
      applyThresholds w p = .ok all ∧ d.contours = shown.flatten ∧ shown.length = p.nThresholds ∧ all.length = p.nThresholds ∧
      ∀ (i : Nat) cs xs, shown[i]? = some cs → all[i]? = some xs →
        List.Forall₂ (FittedTo w) cs xs ∧ ∀ c ∈ cs, c ∈ w.contours (thresholdAt p i) := by
  constructor
  · unfold drawDetectedCircles detect applyThresholds
    split
    · rfl
    · rw [← shown_thresholds, Res.bind_assoc, Res.bind_assoc]
      rfl
  · intro d h
    unfold drawDetectedCircles at h
    rw [Res.bind_ok_iff] at h
    obtain ⟨rs, hrs, h⟩ := h
    cases h
    split at hrs
    · cases hrs
    rename_i hn
    refine ⟨rs.map fun r => r.map Prod.snd, rs.map fun r => r.map Prod.fst, ?_, ?_, ?_, ?_, ?_⟩
    · unfold applyThresholds
      rw [if_neg hn, ← shown_thresholds, hrs]
      rfl
    · simp [List.flatMap]
    · simpa using Res.mapList_ok_length hrs
    · simpa using Res.mapList_ok_length hrs
    · intro i cs xs hcs hxs
      rw [List.getElem?_map, Option.map_eq_some_iff] at hcs hxs
      obtain ⟨r, hr, rfl⟩ := hcs
      obtain ⟨r', hr', rfl⟩ := hxs
      rw [hr] at hr'
      cases hr'
      obtain ⟨hi, hr⟩ := List.getElem?_eq_some_iff.1 hr
      have hl := Res.mapList_ok_length hrs
      rw [List.length_range] at hl
      have := ((Res.mapList_ok_iff _ _ _).1 hrs).get (by simp; omega : i < _) hi
      simp only [List.get_eq_getElem, List.getElem_range, hr] at this
      have hp := findShown_pairs this
      constructor
      · rw [List.forall₂_map_left_iff, List.forall₂_map_right_iff, List.forall₂_same]
        exact fun e he => (hp e he).1
      · intro c hc
        obtain ⟨e, he, rfl⟩ := List.mem_map.1 hc
        exact (hp e he).2

theorem circleFeatures_increasing {find : Nat → Nat → Bool × List V2} {detections : List (List KeyPoint)} {t : CircleTarget}
    {fs : TargetFeatures} (h : circleFeatures find detections t = .ok fs) : Increasing fs := by
  unfold circleFeatures at h
  rw [Res.bind_ok_iff] at h
  obtain ⟨pts, -, h⟩ := h
  refine foldList_keeps (P := Increasing) ?_ h List.Pairwise.nil
  intro s i s' hs hi
  rw [Res.bind_ok_iff] at hs
  obtain ⟨p, -, hs⟩ := hs
  cases hs
  exact emplace_increasing _ _ _ hi

theorem numbered_find (pts : List V2) (i : Nat) (us : List V2) :
    SMap.find ((List.range pts.length).map fun i => (i, [pts.getD i 0])) i = some us ↔ ∃ p, pts[i]? = some p ∧ us = [p] := by
  have hinc : Increasing ((List.range pts.length).map fun i => (i, [pts.getD i 0])) := by
    unfold Increasing
    rw [List.pairwise_map]
    exact List.pairwise_lt_range
  constructor
  · intro h
    have hm := SMap.mem_of_find h
    obtain ⟨j, hj, he⟩ := List.mem_map.1 hm
    cases he
    have hj := List.mem_range.1 hj
    exact ⟨pts[i], by simp [hj], by simp [hj]⟩
  · rintro ⟨p, hp, rfl⟩
    have hi := (List.getElem?_eq_some_iff.1 hp).1
    refine SMap.find_of_mem hinc.nodup (List.mem_map.2 ⟨i, List.mem_range.2 hi, ?_⟩)
    simp [hp]

/-- The features of a circle grid are the ordered circles, numbered from zero. -/
theorem circleFeatures_list {find : Nat → Nat → Bool × List V2} {detections : List (List KeyPoint)} {t : CircleTarget}
    {pts : List V2} {fs : TargetFeatures} (h : extractModifiedCircleGrid find detections t.rows t.cols = .ok pts)
    (hf : circleFeatures find detections t = .ok fs) : fs = (List.range pts.length).map fun i => (i, [pts.getD i 0]) := by
  obtain ⟨fs', h1, h2⟩ := circleFeatures_ok h
  rw [hf] at h1
  cases h1
  refine (circleFeatures_increasing hf).eq ?_ fun k v => (h2 k v).trans (numbered_find pts k v).symm
  unfold Increasing
  rw [List.pairwise_map]
  exact List.pairwise_lt_range

theorem mapList_numbered (pts : List V2) :
    Res.mapList (fun e : Nat × List V2 => Res.atList e.2 0) ((List.range pts.length).map fun i => (i, [pts.getD i 0])) = .ok pts := by
  rw [Res.mapList_ok_iff, List.forall₂_map_left_iff, List.forall₂_iff_get]
  refine ⟨by simp, fun i hi hi' => ?_⟩
  simp [Res.atList, hi']

theorem originIndex_eq {t : CircleTarget} (hr : 1 ≤ t.rows) (hn : t.rows * t.cols < 2 ^ 31) :
    originIndex t = t.rows * t.cols - t.cols := by
  have hle : t.cols ≤ t.rows * t.cols := Nat.le_mul_of_pos_left _ hr
  unfold originIndex
  generalize t.rows * t.cols = n at *
  omega

theorem patternSize_eq {t : CircleTarget} (hr : 1 ≤ t.rows) (hc : 1 ≤ t.cols) (hn : t.rows * t.cols < 2 ^ 31) :
    patternSize t = t.rows * t.cols := by
  have h1 : t.cols ≤ t.rows * t.cols := Nat.le_mul_of_pos_left _ hr
  have h2 : t.rows ≤ t.rows * t.cols := Nat.le_mul_of_pos_right _ hc
  unfold patternSize
  rw [u32ToInt_of_lt (by omega), u32ToInt_of_lt (by omega), Int.toNat_natCast, Int.toNat_natCast, Nat.mul_comm]

/-- The image point that belongs to a point of the target. -/
def ImageOf (cs : List Corr2) (q : V3) (u : V2) : Prop := (⟨u, q⟩ : Corr2) ∈ cs

theorem render_ok {pts : List V2} {t : CircleTarget} (hr : 1 ≤ t.rows) (hc : 1 ≤ t.cols) (hn : t.rows * t.cols < 2 ^ 31)
    (hlen : pts.length = t.rows * t.cols) : ∃ a b c, pts[0]? = some a ∧ pts[t.rows * t.cols - t.cols]? = some b ∧
      pts[t.rows * t.cols - 1]? = some c ∧
      renderObservations pts t = .ok ⟨pts, [("First Point", a), ("Origin", b), ("Last Point", c)]⟩ := by
  have hpos : 0 < t.rows * t.cols := Nat.mul_pos hr hc
  have hne : pts ≠ [] := by rintro rfl; simp at hlen; omega
  have i0 : 0 < pts.length := by omega
  have i1 : t.rows * t.cols - t.cols < pts.length := by omega
  have i2 : t.rows * t.cols - 1 < pts.length := by omega
  refine ⟨_, _, _, List.getElem?_eq_getElem i0, List.getElem?_eq_getElem i1, List.getElem?_eq_getElem i2, ?_⟩
  unfold renderObservations
  have hall := mapList_idx_range pts
  rw [hlen] at hall
  rw [if_neg hne, patternSize_eq hr hc hn, originIndex_eq hr hn, hall, Res.ok_bind,
    idxList_ok_iff.2 (List.getElem?_eq_getElem i0), Res.ok_bind]
  simp only [hlen]
  rw [idxList_ok_iff.2 (List.getElem?_eq_getElem i1), Res.ok_bind, idxList_ok_iff.2 (List.getElem?_eq_getElem i2), Res.ok_bind]

/-- **C219, grid.** Drawing the features that the finder found for its target ends like drawing the circles of the image. The corners
are drawn in the order of the correspondences, and the three labels mark the image points of the correspondences with the upper left
point, with the origin and with the lower right point of the target. -/
theorem C219_labels (w : ImageOps) (p : DetectorParams) (t : CircleTarget) (hr : 1 ≤ t.rows) (hc : 1 ≤ t.cols)
    (hn : t.rows * t.cols < 2 ^ 31) (find : Nat → Nat → Bool × List V2) (hf : FindWF find) (detections : List (List KeyPoint))
    (fs : TargetFeatures) (h : circleFeatures find detections t = .ok fs) :
    ∃ cs first origin last, t.createCorrespondences fs = .ok cs ∧ cs.length = t.rows * t.cols ∧
      ImageOf cs ⟨0, ((t.rows : ℝ) - 1) * t.spacing, 0⟩ first ∧ ImageOf cs 0 origin ∧
      ImageOf cs ⟨((t.cols : ℝ) - 1) * t.spacing, 0, 0⟩ last ∧
      circleDraw w p t fs = (drawDetectedCircles w p).bind fun d =>
        .ok (d, ⟨cs.map fun c => c.inImage, [("First Point", first), ("Origin", origin), ("Last Point", last)]⟩) := by
  obtain ⟨pts, hpts, -⟩ := (Res.bind_ok_iff _ _ _).1 h
  have hlen : pts.length = t.rows * t.cols := by
    obtain ⟨hperm, -⟩ := C67_finder find hf detections _ _ _ hpts
    rw [hperm.length_eq]
    apply findGrid_length hf
    intro h0
    unfold extractModifiedCircleGrid at hpts
    simp [h0] at hpts
  have hrow : t.rows + 1 < 2 ^ 32 := by
    have : t.rows ≤ t.rows * t.cols := Nat.le_mul_of_pos_right _ (by omega)
    omega
  obtain ⟨hpl, hpp, -, hpo⟩ := C66_partial t hrow
  obtain ⟨cs, hcs, hcl, hci⟩ := circle_pairs hpts (by rw [hlen, hpl])
  rw [h, Res.ok_bind] at hcs
  obtain ⟨a, b, c, ha, hb, hcc, hren⟩ := render_ok hr hc hn hlen
  have hmap : cs.map (fun c => c.inImage) = pts := by
    refine List.ext_getElem? fun i => ?_
    by_cases hi : i < pts.length
    · have hi' : i < t.createPoints.length := by omega
      rw [List.getElem?_map, hci i _ _ (List.getElem?_eq_getElem hi) (List.getElem?_eq_getElem hi'), Option.map_some,
        List.getElem?_eq_getElem hi]
    · rw [List.getElem?_eq_none (by simp; omega), List.getElem?_eq_none (by omega)]
  have hmul : (t.rows - 1) * t.cols = t.rows * t.cols - t.cols := by rw [Nat.sub_mul, Nat.one_mul]
  have hle : t.cols ≤ t.rows * t.cols := Nat.le_mul_of_pos_left _ hr
  refine ⟨cs, a, b, c, hcs, by rw [hcl, hlen], ?_, ?_, ?_, ?_⟩
  · have := hpp 0 0 (by omega) (by omega)
    simp only [Nat.zero_mul, Nat.cast_zero, zero_mul, sub_zero, Nat.add_zero] at this
    exact List.mem_of_getElem? (hci _ _ _ ha this)
  · exact List.mem_of_getElem? (hci _ _ _ hb (hpo (by omega) (by omega)))
  · have := hpp (t.rows - 1) (t.cols - 1) (by omega) (by omega)
    rw [hmul, show t.rows * t.cols - t.cols + (t.cols - 1) = t.rows * t.cols - 1 by omega] at this
    rw [Nat.cast_sub hr, Nat.cast_sub hc, Nat.cast_one, sub_self, zero_mul] at this
    exact List.mem_of_getElem? (hci _ _ _ hcc this)
  · unfold circleDraw
    rw [circleFeatures_list hpts h, mapList_numbered, hmap]
    simp only [Res.ok_bind, hren]

/-- Without features neither corners nor labels are drawn; this works for exactly the images in which circles can be detected. -/
theorem C219_none (w : ImageOps) (p : DetectorParams) (t : CircleTarget) :
    ((∃ x, circleDraw w p t [] = .ok x) ↔ ∃ ks, detect w p = .ok ks) ∧
    ∀ d g, circleDraw w p t [] = .ok (d, g) → g.corners = [] ∧ g.labels = [] := by
  have e : circleDraw w p t [] = (drawDetectedCircles w p).bind fun d => .ok (d, ⟨[], []⟩) := rfl
  rw [e, ← (C219_circles w p).1]
  cases drawDetectedCircles w p <;> simp [Res.bind]

/-- Drawing fewer features than the target has, for instance those found with another target, is undefined. -/
theorem C219_foreign (w : ImageOps) (p : DetectorParams) (d : CirclesDrawn) (hd : drawDetectedCircles w p = .ok d)
    (t : CircleTarget) (hr : 1 ≤ t.rows) (hc : 1 ≤ t.cols) (hn : t.rows * t.cols < 2 ^ 31) (pts : List V2) (hne : pts ≠ [])
    (hlen : pts.length < t.rows * t.cols) :
    circleDraw w p t ((List.range pts.length).map fun i => (i, [pts.getD i 0])) = .ub := by
  unfold circleDraw
  rw [hd, Res.ok_bind, mapList_numbered, Res.ok_bind]
  unfold renderObservations
  rw [if_neg hne, patternSize_eq hr hc hn]
  have : ∀ (n m : Nat), pts.length ≤ n + m → n ≤ pts.length → 0 < n + m - pts.length →
      Res.mapList (Res.idxList pts) ((List.range m).map (n + ·)) = .ub := by
    intro n m
    induction m generalizing n with
    | zero => intro h1 h2 h3; omega
    | succ m ih =>
      intro h1 h2 h3
      rw [List.range_succ_eq_map, List.map_cons, List.map_map, Res.mapList]
      by_cases hlt : n < pts.length
      · rw [Nat.add_zero, idxList_ok_iff.2 (List.getElem?_eq_getElem hlt), Res.ok_bind]
        have e : ((n + ·) ∘ Nat.succ) = ((n + 1) + ·) := by funext x; simp; omega
        rw [e, ih (n + 1) (by omega) (by omega) (by omega)]
        rfl
      · have : Res.idxList pts (n + 0) = .ub := by
          unfold Res.idxList
          rw [List.getElem?_eq_none (by omega)]
        rw [this]
        rfl
  have h0 := this 0 (t.rows * t.cols) (by omega) (by omega) (by omega)
  simp only [Nat.zero_add, List.map_id'] at h0
  rw [h0]
  rfl

/-- A grid of five by seven circles that is found and drawn. -/
theorem drawing_example : ∃ (find : Nat → Nat → Bool × List V2) (detections : List (List KeyPoint)) (fs : TargetFeatures)
    (d : CirclesDrawn), FindWF find ∧ circleFeatures find detections ⟨5, 7, 1 / 100⟩ = .ok fs ∧
      drawDetectedCircles perfectCircle {} = .ok d := by
  let find : Nat → Nat → Bool × List V2 := fun w h =>
    if w = 7 ∧ h = 5 then (true, unitGrid 1 5 7) else (false, [])
  have hl : (unitGrid 1 5 7).length = 35 := (unitGrid_isGrid 1 5 7).length
  have hfind : find 7 5 = (true, unitGrid 1 5 7) := by simp [find]
  obtain ⟨cs, h, -⟩ := C97_upright ⟨5, 7, 1 / 100⟩ (by norm_num) (by norm_num) (by norm_num) find _ (unitGrid 1 5 7) hfind
    ⟨0, 0⟩ ⟨1, 0⟩ ⟨0, 1⟩ (unitGrid_isGrid _ _ _) (by simp [cross]) 4 8 (by norm_num) (by norm_num)
    (unitGrid_seen (.inl rfl) 5 7 _ (by simp))
  rw [Res.bind_ok_iff] at h
  obtain ⟨fs, h, -⟩ := h
  obtain ⟨ks, hks⟩ := C100_partial perfectCircle {} (by simp)
    (fun _ t c _ _ => ⟨5, 5, rfl, rfl, by simp [perfectCircle], by simp [perfectCircle]⟩)
  rw [← (C219_circles _ _).1, Res.bind_ok_iff] at hks
  obtain ⟨d, hd, -⟩ := hks
  refine ⟨find, _, fs, d, ?_, h, hd⟩
  intro w h
  simp only [find]
  split
  · rename_i hwh
    right
    rw [hwh.1, hwh.2]
    exact hl
  · exact .inl rfl

/-! ## C220 The test program of the finder

Full statement: for every command line the program ends normally, with the exit code 1 if the number of arguments is wrong and 0
otherwise, after it has shown as many features as the command line says, rows times columns, or the message of an exception. It is
false for arguments that are no numbers (`C220_negation`). -/

/-- With two numbers of at least two (and fewer than 2^31 circles), in an image whose contours have their centres inside, the program
ends normally: it shows rows × columns features, the large circle labelled as the origin, exactly if the target is found.
Missing: arguments that are not numbers, and targets with a single row or column. -/
theorem C220_partial (prog path rowsArg colsArg : String) (stoi : String → Res Int) (image : String → ImageOps)
    (find : ImageOps → Nat → Nat → Bool × List V2) (hf : ∀ m, FindWF (find m)) (detections : ImageOps → List (List KeyPoint))
    (rows cols : Nat) (hrows : stoi rowsArg = .ok rows) (hcols : stoi colsArg = .ok cols) (hr : 2 ≤ rows) (hc : 2 ≤ cols)
    (hn : rows * cols < 2 ^ 31) (hin : ∀ t, ∀ c ∈ (image path).contours t, 5 ≤ c.length → CentreInside (image path) c) :
    ((∃ e, circleFeatures (find (image path)) (detections (image path)) ⟨rows, cols, 1 / 100⟩ = .throw e) ∧
      finderTestMain [prog, path, rowsArg, colsArg] stoi image find detections = .ok .failed) ∨
    ∃ fs cs d g origin, circleFeatures (find (image path)) (detections (image path)) ⟨rows, cols, 1 / 100⟩ = .ok fs ∧
      CircleTarget.createCorrespondences ⟨rows, cols, 1 / 100⟩ fs = .ok cs ∧
      finderTestMain [prog, path, rowsArg, colsArg] stoi image find detections = .ok (.shown (rows * cols) (d, g)) ∧
      detect (image path) {} = .ok d.keyPoints ∧ g.corners = cs.map (fun c => c.inImage) ∧ ImageOf cs 0 origin ∧
      ("Origin", origin) ∈ g.labels := by
  have h1 : cols ≤ rows * cols := Nat.le_mul_of_pos_left _ (by omega)
  have h2 : rows ≤ rows * cols := Nat.le_mul_of_pos_right _ (by omega)
  have e1 : intToU32 (rows : Int) = rows := by unfold intToU32; omega
  have e2 : intToU32 (cols : Int) = cols := by unfold intToU32; omega
  have hmain : finderTestMain [prog, path, rowsArg, colsArg] stoi image find detections =
      match ((circleFeatures (find (image path)) (detections (image path)) ⟨rows, cols, 1 / 100⟩).bind fun obs =>
        (circleDraw (image path) {} ⟨rows, cols, 1 / 100⟩ obs).bind fun d => .ok (TestExit.shown obs.length d)).tryCatch
          (fun _ => true) .failed with
      | .throw _ => .abort
      | r => r := by
    unfold finderTestMain
    simp only [hrows, hcols, Res.ok_bind, e1, e2]
    rfl
  have hout := C96_partial (find (image path)) (hf _) (detections (image path)) rows cols hr hc hn
  rcases hout with ⟨pts, hpts⟩ | hth
  · right
    obtain ⟨fs, hfs, -⟩ := circleFeatures_ok (t := ⟨rows, cols, 1 / 100⟩) hpts
    obtain ⟨cs, first, origin, last, hcs, hlen, -, ho, -, hdraw⟩ := C219_labels (image path) {} ⟨rows, cols, 1 / 100⟩
      (by simp only; omega) (by simp only; omega) hn (find (image path)) (hf _) (detections (image path)) fs hfs
    obtain ⟨ks, hks⟩ := C100_partial (image path) {} (by simp) (fun _ => hin)
    have hks' := hks
    rw [← (C219_circles _ _).1, Res.bind_ok_iff] at hks'
    obtain ⟨d, hd, hdk⟩ := hks'
    cases hdk
    have hl : fs.length = rows * cols := by
      rw [circleFeatures_list hpts hfs, List.length_map, List.length_range]
      obtain ⟨hp, -⟩ := C67_finder _ (hf _) _ _ _ _ hpts
      rw [hp.length_eq]
      apply findGrid_length (hf _)
      intro h0
      unfold extractModifiedCircleGrid at hpts
      simp [h0] at hpts
    refine ⟨fs, cs, d, ⟨cs.map fun c => c.inImage, [("First Point", first), ("Origin", origin), ("Last Point", last)]⟩, origin, hfs, hcs,
      ?_, hks, rfl, ho, by simp⟩
    rw [hmain, hfs, Res.ok_bind, hdraw, hd]
    simp [Res.tryCatch, hl]
  · left
    have : circleFeatures (find (image path)) (detections (image path)) ⟨rows, cols, 1 / 100⟩ = .throw .runtimeError := by
      unfold circleFeatures
      simp only [hth, Res.throw_bind]
    refine ⟨⟨_, this⟩, ?_⟩
    rw [hmain, this]
    simp [Res.tryCatch]

/-- With any other number of arguments it only explains its use. -/
theorem C220_usage (args : List String) (h : args.length ≠ 4) (stoi : String → Res Int) (image : String → ImageOps)
    (find : ImageOps → Nat → Nat → Bool × List V2) (detections : ImageOps → List (List KeyPoint)) :
    finderTestMain args stoi image find detections = .ok .usage := by
  unfold finderTestMain
  split
  · simp at h
  · rfl

/-- Numbers of rows and columns of any sign are taken modulo `2 ^ 32`; if OpenCV finds no such grid, the program prints so. -/
theorem C220_not_found (prog path rowsArg colsArg : String) (stoi : String → Res Int) (image : String → ImageOps)
    (find : ImageOps → Nat → Nat → Bool × List V2) (detections : ImageOps → List (List KeyPoint))
    (a b : Int) (ha : stoi rowsArg = .ok a) (hb : stoi colsArg = .ok b) (rows cols : Nat) (hr : rows < 2 ^ 32) (hc : cols < 2 ^ 32)
    (har : (2 ^ 32 : Int) ∣ a - rows) (hbc : (2 ^ 32 : Int) ∣ b - cols)
    (h1 : (find (image path) cols rows).1 = false) (h2 : (find (image path) rows cols).2 = []) :
    finderTestMain [prog, path, rowsArg, colsArg] stoi image find detections = .ok .failed := by
  have e1 : intToU32 a = rows := by unfold intToU32; omega
  have e2 : intToU32 b = cols := by unfold intToU32; omega
  have hg : (findGrid (find (image path)) rows cols).1 = [] := by simp [findGrid, h1, h2]
  unfold finderTestMain
  simp only [ha, hb, Res.ok_bind, e1, e2]
  simp [circleFeatures, extractModifiedCircleGrid, hg, Res.tryCatch]

/-- One row less than none: a grid of `2 ^ 32 - 1` rows is looked for. -/
example : ∃ (stoi : String → Res Int) (find : ImageOps → Nat → Nat → Bool × List V2), stoi "-1" = .ok (-1) ∧
    (find perfectCircle 7 0).1 = true ∧ ∀ detections, finderTestMain ["p", "i", "-1", "7"] stoi (fun _ => perfectCircle) find detections = .ok .failed :=
  ⟨fun x => .ok (if x = "7" then 7 else -1), fun _ _ b => (b == 0, []), rfl, rfl, fun detections =>
    C220_not_found "p" "i" "-1" "7" _ _ _ detections (-1) 7 rfl rfl (2 ^ 32 - 1) 7 (by norm_num) (by norm_num) (by norm_num) (by norm_num) rfl rfl⟩

/-- The full claim fails: an argument for the number of rows that is no number terminates the program by an uncaught exception. -/
theorem C220_negation (prog path rowsArg colsArg : String) (stoi : String → Res Int) (hs : (stoi rowsArg).Throws)
    (image : String → ImageOps) (find : ImageOps → Nat → Nat → Bool × List V2) (detections : ImageOps → List (List KeyPoint)) :
    finderTestMain [prog, path, rowsArg, colsArg] stoi image find detections = .abort := by
  obtain ⟨e, he⟩ := hs
  unfold finderTestMain
  simp only [he, Res.throw_bind]

example : ∃ (w : ImageOps) (p : DetectorParams) (x : CirclesDrawn × GridDrawn), circleDraw w p ⟨5, 7, 1 / 100⟩ [] = .ok x := by
  obtain ⟨-, -, -, d, -, -, hd⟩ := drawing_example
  exact ⟨perfectCircle, {}, (d, ⟨[], []⟩), by unfold circleDraw; rw [hd]; rfl⟩

example : ∃ (find : ImageOps → Nat → Nat → Bool × List V2) (stoi : String → Res Int), (∀ m, FindWF (find m)) ∧
    stoi "5" = .ok ((5 : Nat) : Int) ∧ stoi "7" = .ok ((7 : Nat) : Int) ∧ (stoi "seven").Throws ∧
    ∀ t, ∀ c ∈ perfectCircle.contours t, 5 ≤ c.length → CentreInside perfectCircle c := by
  obtain ⟨find, det, fs, d, hf, -⟩ := drawing_example
  exact ⟨fun _ => find, fun s => if s = "5" then .ok 5 else if s = "7" then .ok 7 else .throw .other, fun _ => hf, rfl, rfl,
    by simp, fun t c _ _ => ⟨5, 5, rfl, rfl, by simp [perfectCircle], by simp [perfectCircle]⟩⟩

end RCT
