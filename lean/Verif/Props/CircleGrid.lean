import Verif.Lemmas.CircleGrid
import Verif.Spec.CircleGrid
import Verif.Props.Targets
import Mathlib.Tactic.FinCases

/-!
# C67, C68, C69: ordering of the detected circle grid
-/

namespace RCT

open Spec

/-! ## Bounds -/

theorem setFirst_length (p : V2 → Prop) (v : ℝ) (cs : List V2) (ss : List ℝ) : (setFirst p v cs ss).length = ss.length := by
  induction cs generalizing ss with
  | nil => simp [setFirst]
  | cons c cs ih =>
    cases ss with
    | nil => simp [setFirst]
    | cons s ss =>
      simp only [setFirst]
      split
      · simp
      · simp [ih]

theorem featureSizes_length (centers : List V2) (ks : List KeyPoint) :
    (featureSizes centers ks).length = centers.length := by
  unfold featureSizes
  have : ∀ ss : List ℝ, (ks.foldl (fun ss k => setFirst (fun c => ptEqual dblEps c k.pt) k.size centers ss) ss).length
      = ss.length := by
    induction ks with
    | nil => intro ss; rfl
    | cons k ks ih => intro ss; rw [List.foldl_cons, ih, setFirst_length]
  rw [this, List.length_map]

theorem idxList_lt {α : Type _} {l : List α} {i : Nat} {a : α} (h : Res.idxList l i = .ok a) : i < l.length :=
  (List.getElem?_eq_some_iff.1 (idxList_ok_iff.1 h)).1

/-- A finder that decides has at least two rows and two columns: with fewer the neighbours of a corner are outside the
list of sizes. -/
theorem decision_two {detections : List (List KeyPoint)} {centers : List V2} {rows cols : Nat} {d : GridDecision}
    (hlen : centers.length = rows * cols) (hn : rows * cols < 2 ^ 31)
    (h : gridDecision detections centers rows cols = .ok d) : 2 ≤ rows ∧ 2 ≤ cols := by
  unfold gridDecision at h
  simp only at h
  split at h
  · cases h
  simp only [Res.bind_ok_iff] at h
  obtain ⟨sl, hsl, -⟩ := h
  unfold relSize at hsl
  simp only [Res.bind_ok_iff] at hsl
  obtain ⟨a, ha, b, hb, c, hc, -⟩ := hsl
  have ha := idxList_lt ha
  have hb := idxList_lt hb
  have hc := idxList_lt hc
  rw [featureSizes_length, hlen] at ha hb hc
  have hr0 : 0 < rows := Nat.pos_of_ne_zero fun e => by subst e; omega
  have hc0 : 0 < cols := Nat.pos_of_ne_zero fun e => by subst e; omega
  have hle : cols ≤ rows * cols := Nat.le_mul_of_pos_left _ hr0
  simp only [cornerNbrs, cornerIdx, szMul_eq hn] at hb hc
  rw [szSub_eq hle hn] at hb hc
  constructor
  · by_contra hlt
    have hr1 : rows = 1 := by omega
    subst hr1
    rw [Nat.one_mul, Nat.sub_self] at hc
    have := szSub_wrap (a := 0) (b := cols) hc0 (by omega)
    omega
  · by_contra hlt
    have hc1 : cols = 1 := by omega
    subst hc1
    omega

theorem extract_split {detections : List (List KeyPoint)} {centers : List V2} {rows cols : Nat} {flipped : Bool}
    {out : List V2} (h : extractKeyPoints detections centers rows cols flipped = .ok out) :
    ∃ d, gridDecision detections centers rows cols = .ok d ∧
      Res.mapList (Res.idxList centers)
        (orderIndices d.corner d.usual (if flipped then cols else rows) (if flipped then rows else cols) centers.length)
      = .ok out := by
  unfold extractKeyPoints at h
  rw [Res.bind_ok_iff] at h
  exact h

/-- What OpenCV guarantees about `cv::findCirclesGrid`: the list of centres is empty or has the size of the pattern. -/
def FindWF (find : Nat → Nat → Bool × List V2) : Prop :=
  ∀ w h, (find w h).2 = [] ∨ (find w h).2.length = w * h

theorem findGrid_length {find : Nat → Nat → Bool × List V2} (hf : FindWF find) {rows cols : Nat}
    (hne : (findGrid find rows cols).1 ≠ []) : (findGrid find rows cols).1.length = rows * cols := by
  unfold findGrid at *
  simp only at *
  split at hne
  · rename_i h
    rw [if_pos h]
    rcases hf cols rows with h0 | h0
    · exact absurd h0 hne
    · rw [h0, Nat.mul_comm]
  · rename_i h
    rw [if_neg h]
    rcases hf rows cols with h0 | h0
    · exact absurd h0 hne
    · exact h0

/-! ## C67 -/

/-- C67, ordering step: the output contains every centre exactly once. -/
theorem C67_keypoints (detections : List (List KeyPoint)) (centers : List V2) (rows cols : Nat) (flipped : Bool)
    (out : List V2) (hlen : centers.length = rows * cols)
    (h : extractKeyPoints detections centers rows cols flipped = .ok out) : out.Perm centers := by
  obtain ⟨d, _, hm⟩ := extract_split h
  refine mapList_idx_perm ?_ hm
  rw [hlen]
  cases flipped
  · exact orderIndices_perm _ _ _ _
  · simp only [if_true]
    rw [Nat.mul_comm rows cols]
    exact orderIndices_perm _ _ _ _

/-- C67: when the finder succeeds, the ordered list contains every detected centre exactly once. -/
theorem C67_finder (find : Nat → Nat → Bool × List V2) (hf : FindWF find) (detections : List (List KeyPoint))
    (rows cols : Nat) (out : List V2) (h : extractModifiedCircleGrid find detections rows cols = .ok out) :
    out.Perm (findGrid find rows cols).1 ∧
      ((findGrid find rows cols).1 = (find cols rows).2 ∨ (findGrid find rows cols).1 = (find rows cols).2) := by
  constructor
  · unfold extractModifiedCircleGrid at h
    simp only at h
    split at h
    · cases h
    · rename_i h0
      have hne : (findGrid find rows cols).1 ≠ [] := fun e => h0 (by rw [e]; rfl)
      exact C67_keypoints _ _ _ _ _ _ (findGrid_length hf hne) h
  · unfold findGrid
    simp only
    split
    · exact .inl rfl
    · exact .inr rfl

/-! ## C68 -/

/-- The branches in which the judged circle ends up at the target origin. -/
def OriginRight (rows cols : Nat) (flipped : Bool) (d : GridDecision) : Prop :=
  match d.corner, d.usual with
  | .startLast, true => True
  | .endFirst, true => True
  | .endLast, true => flipped = true ∨ rows = cols
  | .startFirst, true => flipped = true ∨ rows = cols
  | .startLast, false => rows = cols
  | .endFirst, false => rows = cols
  | .endLast, false => False
  | .startFirst, false => False

theorem columnsFirst_get (dj dk : Bool) (R C a l : Nat) (ha : a < C) (hl : l < R) :
    (columnsFirst dj dk R C)[a * R + l]? = some (cnt dk R l * C + cnt dj C a) := by
  rw [columnsFirst_eq, gridList_get _ _ _ a l ha hl]

/-- A value occurs at one position only. -/
theorem columnsFirst_pos {dj dk : Bool} {R C p q v : Nat} (hp : (columnsFirst dj dk R C)[p]? = some v)
    (hq : (columnsFirst dj dk R C)[q]? = some v) : p = q :=
  nodup_getElem? (columnsFirst_nodup dj dk R C) hp hq

theorem mul_pred (a b : Nat) (ha : 0 < a) : (a - 1) * b + b = a * b := by
  obtain ⟨a, rfl⟩ : ∃ a', a = a' + 1 := ⟨a - 1, by omega⟩
  simp [Nat.succ_mul]

theorem orderIndices_origin (rows cols : Nat) (hr : 2 ≤ rows) (hc : 2 ≤ cols) (flipped : Bool) (d : GridDecision) :
    (orderIndices d.corner d.usual (if flipped then cols else rows) (if flipped then rows else cols) (rows * cols))[
      rows * cols - cols]? = some (cornerPos rows cols d.corner) ↔ OriginRight rows cols flipped d := by
  have hrc := mul_pred rows cols (by omega)
  have hcr := mul_pred cols rows (by omega)
  have hcomm := Nat.mul_comm rows cols
  have hpos : cols ≤ rows * cols := Nat.le_mul_of_pos_left _ (by omega)
  have hposr : rows ≤ rows * cols := Nat.le_mul_of_pos_right _ (by omega)
  have hc1 : cols < rows * cols := by
    calc cols < 2 * cols := by omega
      _ ≤ rows * cols := Nat.mul_le_mul_right _ hr
  obtain ⟨c, u⟩ := d
  -- the origin is at (C - 1, 0) of a flipped list
  have hfl : rows * cols - cols = (rows - 1) * cols + 0 := by omega
  have hun : ∀ {v : Nat} {dj dk : Bool}, (columnsFirst dj dk rows cols)[(cols - 1) * rows + 0]? = some v →
      ((columnsFirst dj dk rows cols)[rows * cols - cols]? = some v ↔ rows = cols) := by
    intro v dj dk hv
    constructor
    · intro h
      have := columnsFirst_pos h hv
      omega
    · intro h
      subst h
      rw [← hv]; congr 1
  have hlast : ∀ {v : Nat} {dj dk : Bool} {R C : Nat}, C * R = rows * cols → 0 < R → 0 < C →
      (columnsFirst dj dk R C)[(C - 1) * R + (R - 1)]? = some v →
      ¬ (columnsFirst dj dk R C)[rows * cols - cols]? = some v := by
    intro v dj dk R C he hR hC hv h
    have := columnsFirst_pos h hv
    have := mul_pred C R hC
    omega
  cases c <;> cases u <;> cases flipped <;>
    simp only [orderIndices, OriginRight, cornerPos, if_true, if_false, Bool.false_eq_true, iff_true, false_or, true_or,
      iff_false]
  · -- startLast, unusual
    apply hun
    rw [columnsFirst_get _ _ _ _ _ _ (by omega) (by omega)]
    simp [cnt]
  · rw [hfl, columnsFirst_get _ _ _ _ _ _ (by omega) (by omega)]
    simp only [cnt, if_true, Nat.sub_zero, Option.some.injEq]
    constructor
    · intro h; omega
    · intro h; subst h; omega
  · rw [List.getElem?_eq_some_iff]
    exact ⟨by simp; omega, by simp; omega⟩
  · rw [List.getElem?_eq_some_iff]
    exact ⟨by simp; omega, by simp; omega⟩
  · -- endFirst, unusual
    apply hun
    rw [columnsFirst_get _ _ _ _ _ _ (by omega) (by omega)]
    simp [cnt]
  · rw [hfl, columnsFirst_get _ _ _ _ _ _ (by omega) (by omega)]
    simp only [cnt, Bool.false_eq_true, if_false, Option.some.injEq]
    omega
  · rw [range_reverse_get _ _ (by omega), Option.some.injEq]; omega
  · rw [range_reverse_get _ _ (by omega), Option.some.injEq]; omega
  · -- endLast, unusual
    apply hlast (by omega) (by omega) (by omega)
    rw [columnsFirst_get _ _ _ _ _ _ (by omega) (by omega)]
    simp [cnt]
  · apply hlast (by omega) (by omega) (by omega)
    rw [columnsFirst_get _ _ _ _ _ _ (by omega) (by omega)]
    simp only [cnt, Bool.false_eq_true, if_false, Option.some.injEq]; omega
  · apply hun
    rw [columnsFirst_get _ _ _ _ _ _ (by omega) (by omega)]
    simp [cnt]
  · rw [hfl, columnsFirst_get _ _ _ _ _ _ (by omega) (by omega)]
    simp only [cnt, if_true, Bool.false_eq_true, if_false, Nat.sub_zero, Option.some.injEq]; omega
  · -- startFirst, unusual
    apply hlast (by omega) (by omega) (by omega)
    rw [columnsFirst_get _ _ _ _ _ _ (by omega) (by omega)]
    simp [cnt]
  · apply hlast (by omega) (by omega) (by omega)
    rw [columnsFirst_get _ _ _ _ _ _ (by omega) (by omega)]
    simp [cnt]
  · apply hun
    rw [columnsFirst_get _ _ _ _ _ _ (by omega) (by omega)]
    simp [cnt]
  · rw [hfl, columnsFirst_get _ _ _ _ _ _ (by omega) (by omega)]
    simp [cnt]

theorem judged_pos {detections : List (List KeyPoint)} {centers : List V2} {rows cols : Nat} {flipped : Bool}
    {out : List V2} {d : GridDecision} (hlen : centers.length = rows * cols) (hn : rows * cols < 2 ^ 31)
    (hd : gridDecision detections centers rows cols = .ok d)
    (h : extractKeyPoints detections centers rows cols flipped = .ok out) :
    2 ≤ rows ∧ 2 ≤ cols ∧ ∃ i, (orderIndices d.corner d.usual (if flipped then cols else rows)
      (if flipped then rows else cols) (rows * cols))[rows * cols - cols]? = some i ∧ i < rows * cols ∧
      out[rows * cols - cols]? = centers[i]? := by
  obtain ⟨hr, hc⟩ := decision_two hlen hn hd
  obtain ⟨d', hd', hm⟩ := extract_split h
  rw [hd] at hd'
  cases hd'
  rw [hlen] at hm
  obtain ⟨h1, h2⟩ := mapList_idx hm
  have hperm : (orderIndices d.corner d.usual (if flipped then cols else rows)
      (if flipped then rows else cols) (rows * cols)).length = rows * cols := by
    have : (if flipped = true then cols else rows) * (if flipped = true then rows else cols) = rows * cols := by
      cases flipped <;> simp [Nat.mul_comm]
    rw [← this, (orderIndices_perm _ _ _ _).length_eq, List.length_range]
  have hlt : rows * cols - cols < (orderIndices d.corner d.usual (if flipped then cols else rows)
      (if flipped then rows else cols) (rows * cols)).length := by
    rw [hperm]
    have : cols ≤ rows * cols := Nat.le_mul_of_pos_left _ (by omega)
    omega
  refine ⟨hr, hc, _, List.getElem?_eq_getElem hlt, ?_⟩
  obtain ⟨h3, h4⟩ := h2 _ _ (List.getElem?_eq_getElem hlt)
  rw [hlen] at h3
  exact ⟨h3, h4⟩

/- C68, full statement: when the finder succeeds, the centre paired with the target origin (point rows*cols - cols of the
target, see C66) is the corner that was judged to be the large circle. Proved here for the branches of `OriginRight`: the
usual orderings with the large circle at the start of the last or the end of the first row, the usual orderings with one of
the other two corners if the grid is square or the flipped pattern was found, and for square grids the unusual orderings
with the start of the last or the end of the first row. In all other branches it is false (`C68_negation`). -/
theorem C68_partial (detections : List (List KeyPoint)) (centers : List V2) (rows cols : Nat) (flipped : Bool)
    (out : List V2) (d : GridDecision) (hlen : centers.length = rows * cols) (hn : rows * cols < 2 ^ 31)
    (hd : gridDecision detections centers rows cols = .ok d)
    (h : extractKeyPoints detections centers rows cols flipped = .ok out) (hg : OriginRight rows cols flipped d) :
    ∃ p, out[rows * cols - cols]? = some p ∧ centers[cornerPos rows cols d.corner]? = some p := by
  obtain ⟨hr, hc, i, h1, h2, h3⟩ := judged_pos hlen hn hd h
  have h4 := (orderIndices_origin rows cols hr hc flipped d).2 hg
  rw [h1] at h4
  cases h4
  have h5 : centers[cornerPos rows cols d.corner]? = some (centers[cornerPos rows cols d.corner]'(by omega)) := by simp
  exact ⟨_, h3.trans h5, h5⟩

/-- In the remaining branches the target origin is paired with another circle than the large one; in particular always
for the unusual orderings with the large circle at the end of the last or the start of the first row. -/
theorem C68_negation (detections : List (List KeyPoint)) (centers : List V2) (rows cols : Nat) (flipped : Bool)
    (out : List V2) (d : GridDecision) (hlen : centers.length = rows * cols) (hn : rows * cols < 2 ^ 31)
    (hnd : centers.Nodup) (hd : gridDecision detections centers rows cols = .ok d)
    (h : extractKeyPoints detections centers rows cols flipped = .ok out) (hg : ¬ OriginRight rows cols flipped d) :
    ∃ p, out[rows * cols - cols]? = some p ∧ centers[cornerPos rows cols d.corner]? ≠ some p := by
  obtain ⟨hr, hc, i, h1, h2, h3⟩ := judged_pos hlen hn hd h
  have h5 : centers[i]? = some (centers[i]'(by omega)) := by simp
  refine ⟨_, h3.trans h5, ?_⟩
  intro he
  have := nodup_getElem? hnd h5 he
  subst this
  exact hg ((orderIndices_origin rows cols hr hc flipped d).1 h1)

end RCT
