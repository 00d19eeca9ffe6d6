import Verif.Props.Accuracy
import Verif.Props.GridOrder
import Verif.Props.Identify
import Verif.Props.CircleFinder
import Verif.Props.KinematicRuns
import Verif.Props.Serialization

/-!
# Further parts of C60, C61, C69 and C93: values, complete comparisons, layout of the pattern, titles
-/

namespace RCT

open Spec

/-! ## C93: the title printed above the labels -/

/-- Title of a parameter group of the kinematic calibration: the Denavit-Hartenberg parameters of the camera chain (0) and
of the target chain (1), then position and orientation of the three fixed transforms. -/
def Spec.groupTitle (a : Fin 8) : String :=
  if a.val < 2 then (if a.val = 0 then "Camera" else "Target") ++ " DH Parameters"
  else
    (if a.val / 2 = 1 then "Camera Mount to Camera"
      else if a.val / 2 = 2 then "Target Mount to Target" else "Camera Chain Base to Target Chain Base") ++
    (if a.val % 2 = 0 then " Position" else " Orientation") ++ " Parameters"

/-- The labels of a group are printed below the title of this group. -/
theorem C93_titles (K : KCeres) (hK : K.WF) (p : KinProblem) (hp : KinSane p) (hnn : ∀ a, ∀ k ∈ p.masks a, 0 ≤ k)
    (costs : List ((Nat → Mem) → Res (List ℝ))) (r : KinResult) (h : kinOptimize K p costs = .ok r) :
    ∃ groups : List (Fin 8), groups.Perm (List.finRange 8) ∧
      List.Forall₂ (fun a (e : String × List String) => e.1 = groupTitle a ∧
        ∃ l, (kinLabels p).find a.val = some l ∧
          e.2 = ((List.range l.length).filter (kinFree p a)).map fun k => l.getD k "") groups r.printed := by
  obtain ⟨groups, hg, hf⟩ := C93_printed K hK p hp hnn costs r h
  refine ⟨groups, hg, hf.imp ?_⟩
  rintro a e ⟨h1, h2⟩
  refine ⟨?_, h2⟩
  have : kinNames.find a.val = some (groupTitle a) := by
    fin_cases a <;> decide
  rw [this] at h1
  exact (Option.some.inj h1).symm

/-- Different groups have different titles. -/
theorem C93_titles_distinct {a b : Fin 8} (h : groupTitle a = groupTitle b) : a = b := by
  revert h; revert a b; decide

/-! ## C60: value of the deviation -/

theorem quatVar_foldl (m : Quat) (qs : List Quat) :
    qs.foldl (fun v q => v + m.angularDistance q ^ 2) 0 = (qs.map fun q => m.angularDistance q ^ 2).sum := by
  have : ∀ (l : List Quat) (v : ℝ), l.foldl (fun v q => v + m.angularDistance q ^ 2) v =
      v + (l.map fun q => m.angularDistance q ^ 2).sum := by
    intro l
    induction l with
    | nil => intro v; simp
    | cons a l ih => intro v; simp [ih, add_assoc]
  rw [this, zero_add]

/-- For rotations, the deviation is the sample deviation (divisor `n - 1`) of the angles between the mean orientation and
the given orientations. -/
theorem C60_deviation (svd : SvdU0) (Rs : List M3) (M : M3) (hn : 2 ≤ Rs.length) (hsz : Rs.length < 2 ^ 64)
    (hR : ∀ R ∈ Rs, R.IsRot) (hM : M.IsRot) (hmean : (quatStats svd (Rs.map M3.toQuat)).mean = M.toQuat) :
    ∃ d, (quatStats svd (Rs.map M3.toQuat)).stdev = some d ∧ 0 ≤ d ∧
      d ^ 2 * ((Rs.length : ℝ) - 1) = (Rs.map fun R => rotAngle (M * R.tr) ^ 2).sum := by
  unfold quatStats at *
  simp only at *
  rw [hmean, quatVar_foldl, List.length_map]
  have hs : szSub Rs.length 1 = Rs.length - 1 := by unfold szSub; omega
  have hpos : (0 : ℝ) < ((Rs.length - 1 : ℕ) : ℝ) := by
    have : 0 < Rs.length - 1 := by omega
    exact_mod_cast this
  have hcast : ((Rs.length - 1 : ℕ) : ℝ) = (Rs.length : ℝ) - 1 := by
    rw [Nat.cast_sub (by omega)]; simp
  have hsum : ((Rs.map M3.toQuat).map fun q => M.toQuat.angularDistance q ^ 2) =
      Rs.map fun R => rotAngle (M * R.tr) ^ 2 := by
    rw [List.map_map]
    apply List.map_congr_left
    intro R hRm
    simp only [Function.comp_apply]
    rw [angularDistance_eq hM (hR R hRm)]
  have hnn : 0 ≤ (Rs.map fun R => rotAngle (M * R.tr) ^ 2).sum := by
    apply List.sum_nonneg
    intro x hx
    obtain ⟨R, -, rfl⟩ := List.mem_map.1 hx
    positivity
  rw [hs, if_neg (by omega), hsum]
  refine ⟨_, rfl, Real.sqrt_nonneg _, ?_⟩
  rw [Real.sq_sqrt (div_nonneg hnn hpos.le), ← hcast, div_mul_cancel₀ _ hpos.ne']

example : ∃ (svd : SvdU0) (Rs : List M3) (M : M3), 2 ≤ Rs.length ∧ Rs.length < 2 ^ 64 ∧ (∀ R ∈ Rs, R.IsRot) ∧ M.IsRot ∧
    (quatStats svd (Rs.map M3.toQuat)).mean = M.toQuat := by
  have h1 : (1 : M3).IsRot := Iso.IsRigid.one
  refine ⟨fun _ => (1 : M3).toQuat, [1, quarterZ.R], 1, by simp, by simp, ?_, h1, rfl⟩
  intro R hR
  rcases List.mem_pair.1 hR with rfl | rfl
  · exact h1
  · exact quarterZ_rep.rigid

/-- A single orientation has no sample deviation: not-a-number is reported. -/
theorem C60_single (svd : SvdU0) (q : Quat) : (quatStats svd [q]).stdev = none := by
  unfold quatStats; simp [szSub]

/-! ## C61: comparison of intrinsics and of hand-eye problems -/

/-- Intrinsics compare equal exactly if all four values are equal. -/
theorem C61_intrinsics_partial (a b : Intr) : a.eq b = true ↔ a = b := by
  unfold Intr.eq
  simp only [Bool.and_eq_true, decide_eq_true_eq]
  constructor
  · rintro ⟨⟨⟨h1, h2⟩, h3⟩, h4⟩
    cases a; cases b; simp_all
  · rintro rfl; simp

/-- Two correspondences of points in space are equal up to the tolerance. -/
def CloseCorr3 (a b : Corr3) : Prop := CloseV3 a.inImage b.inImage ∧ CloseV3 a.inTarget b.inTarget

/-- Two observations of points in space are equal up to the tolerance. -/
def CloseObs3 (a b : Obs Corr3) : Prop :=
  CloseIso a.toCameraMount b.toCameraMount ∧ CloseIso a.toTargetMount b.toTargetMount ∧
    List.Forall₂ CloseCorr3 a.corrs b.corrs

/-- Two observations are equal up to the tolerance. -/
def CloseObs2 (a b : Obs Corr2) : Prop :=
  CloseIso a.toCameraMount b.toCameraMount ∧ CloseIso a.toTargetMount b.toTargetMount ∧
    List.Forall₂ CloseCorr2 a.corrs b.corrs

/-- Hand-eye problems are compared in all their data. -/
theorem C61_problem_partial (a b : HandEyeProblem Corr2) :
    HandEyeProblem.eq2 a b = true ↔ List.Forall₂ CloseObs2 a.observations b.observations ∧ a.intr = b.intr ∧
      CloseIso a.targetGuess b.targetGuess ∧ CloseIso a.cameraGuess b.cameraGuess := by
  unfold HandEyeProblem.eq2
  rw [Bool.and_eq_true, Bool.and_eq_true, Bool.and_eq_true, vectorEq_iff, C61_intrinsics_partial, and_assoc, and_assoc]
  simp only [C61_observation_partial, isApprox_close]
  rfl

/-- The same for problems with points in space. -/
theorem C61_problem_3d_partial (a b : HandEyeProblem Corr3) :
    HandEyeProblem.eq3 a b = true ↔ List.Forall₂ CloseObs3 a.observations b.observations ∧
      CloseIso a.targetGuess b.targetGuess ∧ CloseIso a.cameraGuess b.cameraGuess := by
  unfold HandEyeProblem.eq3
  have hc : ∀ x y : Corr3, x.eq y = true ↔ CloseCorr3 x y := by
    intro x y; unfold Corr3.eq CloseCorr3; rw [Bool.and_eq_true, V3.isApprox_iff, V3.isApprox_iff]
  have ho : ∀ x y : Obs Corr3, Obs.eq Corr3.eq x y = true ↔ CloseObs3 x y := by
    intro x y
    unfold Obs.eq CloseObs3
    rw [Bool.and_eq_true, Bool.and_eq_true, vectorEq_iff, and_assoc]
    simp only [hc, isApprox_close]
  rw [Bool.and_eq_true, Bool.and_eq_true, vectorEq_iff, and_assoc]
  simp only [ho, isApprox_close]

/-- Hence problems with different intrinsics or with a different number of observations are different. -/
theorem C61_problem_differs_partial (a b : HandEyeProblem Corr2)
    (h : a.intr ≠ b.intr ∨ a.observations.length ≠ b.observations.length) : HandEyeProblem.eq2 a b = false := by
  by_contra hne
  rw [Bool.not_eq_false, C61_problem_partial] at hne
  rcases h with h | h
  · exact h hne.2.1
  · exact h hne.1.length_eq

example : ∃ a b : HandEyeProblem Corr2, a.intr ≠ b.intr :=
  ⟨⟨[], ⟨1, 1, 0, 0⟩, 1, 1, "", "", []⟩, ⟨[], ⟨1, 1, 0, 2⟩, 1, 1, "", "", []⟩, by simp⟩

/-! ## C69: the layout in which the pattern was found -/

/-- What OpenCV reports with clustering: found exactly if there are centres. -/
def FoundWF (find : Nat → Nat → Bool × List V2) : Prop := ∀ w h, (find w h).1 = true ↔ (find w h).2 ≠ []

/-- C69, full statement above `C69_partial`. For the finder as a whole: if the pattern is found as given, neighbours of
the output are neighbours in rows of `cols` circles; if it is found only with rows and columns exchanged, they are
neighbours in rows of `rows` circles. Missing: the orderings excluded by `Fits`. -/
theorem C69_finder_partial (find : Nat → Nat → Bool × List V2) (hf : FindWF find) (hfd : FoundWF find)
    (detections : List (List KeyPoint)) (rows cols : Nat) (hn : rows * cols < 2 ^ 31) (out : List V2)
    (h : extractModifiedCircleGrid find detections rows cols = .ok out) :
    ∃ (flipped : Bool) (centers : List V2) (d : GridDecision),
      ((flipped = false ∧ find cols rows = (true, centers)) ∨
        (flipped = true ∧ (find cols rows).2 = [] ∧ find rows cols = (true, centers))) ∧
      gridDecision detections centers rows cols = .ok d ∧
      (Fits rows cols flipped d → ∀ p q : Nat, p < rows * cols → q < rows * cols → GridNbr cols p q →
        ∃ i j, i < rows * cols ∧ j < rows * cols ∧ out[p]? = centers[i]? ∧ out[q]? = centers[j]? ∧
          GridNbr (if flipped then rows else cols) i j) := by
  have hsz : szMul rows cols = rows * cols := szMul_eq hn
  unfold extractModifiedCircleGrid at h
  simp only at h
  split at h
  · cases h
  rename_i h0
  have hne : (findGrid find rows cols).1 ≠ [] := fun e => h0 (by rw [e]; rfl)
  have hlen := findGrid_length hf hne
  obtain ⟨d, hd, -⟩ := extract_split h
  refine ⟨(findGrid find rows cols).2, (findGrid find rows cols).1, d, ?_, hd, fun hfit p q hp hq hpq => ?_⟩
  · unfold findGrid at *
    simp only at *
    by_cases h1 : (find cols rows).1 = true ∧ (find cols rows).2.length = szMul rows cols
    · rw [if_pos h1]
      exact .inl ⟨rfl, by rw [← h1.1]⟩
    · rw [if_neg h1] at hne hlen ⊢
      simp only at hne hlen ⊢
      have h2 := (hfd rows cols).2 hne
      refine .inr ⟨by rw [hsz]; simp [h2, hlen], ?_, by rw [← h2]⟩
      by_contra h3
      apply h1
      refine ⟨(hfd _ _).2 h3, ?_⟩
      rcases hf cols rows with h4 | h4
      · exact absurd h4 h3
      · rw [h4, hsz, Nat.mul_comm]
  · exact C69_partial detections _ rows cols _ out d hlen hd h hfit p q hp hq hpq

example : ∃ (find : Nat → Nat → Bool × List V2) (detections : List (List KeyPoint)) (out : List V2),
    FindWF find ∧ FoundWF find ∧ extractModifiedCircleGrid find detections 5 7 = .ok out := by
  let find : Nat → Nat → Bool × List V2 := fun w h =>
    if w = 7 ∧ h = 5 then (true, unitGrid 1 5 7) else (false, [])
  have hl : (unitGrid 1 5 7).length = 35 := (unitGrid_isGrid 1 5 7).length
  have hfind : find 7 5 = (true, unitGrid 1 5 7) := by simp [find]
  obtain ⟨cs, h, -⟩ := C97_upright ⟨5, 7, 0.025⟩ (by norm_num) (by norm_num) (by norm_num) find _ (unitGrid 1 5 7) hfind
    ⟨0, 0⟩ ⟨1, 0⟩ ⟨0, 1⟩ (unitGrid_isGrid _ _ _) (by simp [cross]) 4 8 (by norm_num) (by norm_num)
    (unitGrid_seen (.inl rfl) 5 7 _ (by simp))
  rw [Res.bind_ok_iff] at h
  obtain ⟨fs, h, -⟩ := h
  unfold circleFeatures at h
  rw [Res.bind_ok_iff] at h
  obtain ⟨out, h, -⟩ := h
  refine ⟨find, _, out, ?_, ?_, h⟩
  · intro w h
    by_cases hw : w = 7 ∧ h = 5
    · right; simp [find, hw, hl]
    · left; simp [find, hw]
  · intro w h
    by_cases hw : w = 7 ∧ h = 5
    · have : unitGrid 1 5 7 ≠ [] := by intro e; rw [e] at hl; simp at hl
      simp [find, hw, this]
    · simp [find, hw]

end RCT
