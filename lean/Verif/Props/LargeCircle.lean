import Verif.Props.CircleGrid
import Mathlib.Data.EReal.Basic

/-!
# C97: recognition of the large circle
-/

namespace RCT

open Spec

/-- The two circles next to a corner of a grid with `R` rows of `C` circles. -/
def nbrPos (R C : Nat) : Corner → Nat × Nat
  | .startLast => ((R - 1) * C + 1, (R - 2) * C)
  | .endLast => ((R - 1) * C + (C - 2), (R - 2) * C + (C - 1))
  | .startFirst => (1, C)
  | .endFirst => (C - 2, C + (C - 1))

theorem cornerIdx_eq {rows cols : Nat} (hr : 2 ≤ rows) (hc : 2 ≤ cols) (hn : rows * cols < 2 ^ 31) (c : Corner) :
    cornerIdx rows cols c = cornerPos rows cols c := by
  have h1 := mul_pred rows cols (by omega)
  have h2 : cols < 2 ^ 31 := lt_of_le_of_lt (Nat.le_mul_of_pos_left cols (by omega)) hn
  cases c <;> simp only [cornerIdx, cornerPos, szMul_eq hn]
  · rw [szSub_eq (by omega) hn]; omega
  · rw [szSub_eq (by omega) h2]
  · rw [szSub_eq (by omega) hn]; omega

theorem cornerNbrs_eq {rows cols : Nat} (hr : 2 ≤ rows) (hc : 2 ≤ cols) (hn : rows * cols < 2 ^ 31) (c : Corner) :
    cornerNbrs rows cols c = nbrPos rows cols c := by
  have h1 := mul_pred rows cols (by omega)
  have h1' := mul_pred (rows - 1) cols (by omega)
  have e : rows - 1 - 1 = rows - 2 := by omega
  rw [e] at h1'
  cases c <;> simp only [cornerNbrs, cornerIdx_eq hr hc hn, cornerPos, nbrPos]
  · rw [szSub_eq (by omega) (by omega)]
    congr 1; omega
  · rw [szSub_eq (by omega) (by omega)]
    congr 1; omega
  · rw [szSub_eq (by omega) (by omega), szSub_eq (by omega) (by omega)]
    congr 1 <;> omega
  · congr 1; omega

theorem cornerPos_lt {rows cols : Nat} (hr : 2 ≤ rows) (hc : 2 ≤ cols) (c : Corner) :
    cornerPos rows cols c < rows * cols := by
  have h1 := mul_pred rows cols (by omega)
  have h1' := mul_pred (rows - 1) cols (by omega)
  cases c <;> simp only [cornerPos] <;> omega

theorem nbrPos_lt {rows cols : Nat} (hr : 2 ≤ rows) (hc : 2 ≤ cols) (c : Corner) :
    (nbrPos rows cols c).1 < rows * cols ∧ (nbrPos rows cols c).2 < rows * cols ∧
    (nbrPos rows cols c).1 ≠ cornerPos rows cols c ∧ (nbrPos rows cols c).2 ≠ cornerPos rows cols c := by
  have h1 := mul_pred rows cols (by omega)
  have h1' := mul_pred (rows - 1) cols (by omega)
  have e : rows - 1 - 1 = rows - 2 := by omega
  rw [e] at h1'
  cases c <;> simp only [cornerPos, nbrPos] <;> omega

theorem cornerPos_inj {rows cols : Nat} (hr : 2 ≤ rows) (hc : 2 ≤ cols) {c c' : Corner}
    (h : cornerPos rows cols c = cornerPos rows cols c') : c = c' := by
  have h1 := mul_pred rows cols (by omega)
  have h1' := mul_pred (rows - 1) cols (by omega)
  cases c <;> cases c' <;> simp only [cornerPos] at h <;> first | rfl | omega

theorem relSize_eval {sizes : List ℝ} {rows cols : Nat} (hr : 2 ≤ rows) (hc : 2 ≤ cols) (hn : rows * cols < 2 ^ 31)
    (sz : Nat → ℝ) (hs : ∀ i, i < rows * cols → sizes[i]? = some (sz i)) (c : Corner) :
    relSize sizes rows cols c = .ok (FRatio.mean
      (FRatio.div (sz (cornerPos rows cols c)) (sz (nbrPos rows cols c).1))
      (FRatio.div (sz (cornerPos rows cols c)) (sz (nbrPos rows cols c).2))) := by
  obtain ⟨h1, h2, -, -⟩ := nbrPos_lt hr hc c
  have h0 := cornerPos_lt hr hc c
  unfold relSize
  rw [cornerIdx_eq hr hc hn, cornerNbrs_eq hr hc hn]
  rw [idxList_ok_iff.2 (hs _ h0), Res.ok_bind, idxList_ok_iff.2 (hs _ h1), Res.ok_bind, idxList_ok_iff.2 (hs _ h2),
    Res.ok_bind]

/-- Sizes of circles of diameter `s` with one larger circle of diameter `S` at position `b`. -/
noncomputable def oneLarge (s S : ℝ) (b i : Nat) : ℝ := if i = b then S else s

theorem relSize_large {sizes : List ℝ} {rows cols : Nat} (hr : 2 ≤ rows) (hc : 2 ≤ cols) (hn : rows * cols < 2 ^ 31)
    {s S : ℝ} (hs0 : 0 < s) (c : Corner)
    (hs : ∀ i, i < rows * cols → sizes[i]? = some (oneLarge s S (cornerPos rows cols c) i)) :
    relSize sizes rows cols c = .ok (.fin (S / s)) := by
  rw [relSize_eval hr hc hn _ hs c]
  obtain ⟨-, -, h1, h2⟩ := nbrPos_lt hr hc c
  simp only [oneLarge, if_true, h1, h2, if_false, FRatio.div, ne_eq, hs0.ne', not_false_eq_true, FRatio.mean]
  congr 2; ring

theorem relSize_small {sizes : List ℝ} {rows cols : Nat} (hr : 2 ≤ rows) (hc : 2 ≤ cols) (hn : rows * cols < 2 ^ 31)
    {s S : ℝ} (hs0 : 0 < s) (hS : s ≤ S) (c : Corner) (b : Nat) (hb : b ≠ cornerPos rows cols c)
    (hs : ∀ i, i < rows * cols → sizes[i]? = some (oneLarge s S b i)) :
    ∃ x, relSize sizes rows cols c = .ok (.fin x) ∧ x ≤ 1 := by
  rw [relSize_eval hr hc hn _ hs c]
  have hS0 : 0 < S := lt_of_lt_of_le hs0 hS
  have hle : ∀ i, ∃ y, FRatio.div s (oneLarge s S b i) = .fin y ∧ y ≤ 1 := by
    intro i
    unfold oneLarge FRatio.div
    split
    · exact ⟨s / S, by rw [if_pos hS0.ne'], (div_le_one hS0).2 hS⟩
    · exact ⟨s / s, by rw [if_pos hs0.ne'], (div_self hs0.ne').le⟩
  obtain ⟨y, hy, hy1⟩ := hle (nbrPos rows cols c).1
  obtain ⟨z, hz, hz1⟩ := hle (nbrPos rows cols c).2
  have h0 : oneLarge s S b (cornerPos rows cols c) = s := by simp [oneLarge, hb.symm]
  rw [h0, hy, hz]
  exact ⟨(y + z) / 2, rfl, by linarith⟩

/-! ## From key points to sizes -/

/-- No two centres are within `2⁻²³`, the machine epsilon of `float`, in both coordinates. -/
def Separated (centers : List V2) : Prop :=
  ∀ (i j : Nat) (a b : V2), centers[i]? = some a → centers[j]? = some b → |a.x - b.x| < 1 / 2 ^ 23 → |a.y - b.y| < 1 / 2 ^ 23 → i = j

/-- The key points are the detected circles with their diameters, in any order. -/
def Measured (centers : List V2) (sizes : List ℝ) (ks : List KeyPoint) : Prop :=
  ks.Perm (List.zipWith KeyPoint.mk centers sizes)

theorem ptEqual_self (tol : ℝ) (h : 0 < tol) (a : V2) : ptEqual tol a a := by simp [ptEqual, h]

theorem fltEps_pos : 0 < fltEps := by unfold fltEps; positivity
theorem dblEps_pos' : 0 < dblEps := by unfold dblEps; positivity
theorem dblEps_le : dblEps ≤ fltEps := by unfold dblEps fltEps; norm_num

theorem ptEqual.mono {t t' : ℝ} (h : t ≤ t') {a b : V2} (hab : ptEqual t a b) : ptEqual t' a b :=
  ⟨lt_of_lt_of_le hab.1 h, lt_of_lt_of_le hab.2 h⟩

theorem eraseFirst_perm {α : Type _} {p : α → Prop} {l : List α} {a : α} (ha : a ∈ l) (hp : p a)
    (hu : ∀ b ∈ l, p b → b = a) : l.Perm (a :: eraseFirst p l) := by
  induction l with
  | nil => simp at ha
  | cons b l ih =>
    simp only [eraseFirst]
    split
    · rename_i hb
      rw [hu b (by simp) hb]
    · rename_i hb
      have hba : b ≠ a := fun e => hb (e ▸ hp)
      have ha' : a ∈ l := (List.mem_cons.1 ha).resolve_left (fun e => hba e.symm)
      exact ((ih ha' fun c hc => hu c (by simp [hc])).cons b).trans (List.Perm.swap _ _ _)

theorem unmatched_nil {centers : List V2} {ks : List KeyPoint} (hp : (ks.map KeyPoint.pt).Perm centers)
    (hsep : ∀ a ∈ centers, ∀ b ∈ centers, ptEqual fltEps a b → a = b) : unmatched centers ks = [] := by
  unfold unmatched
  induction ks generalizing centers with
  | nil =>
    have : centers = [] := by simpa using hp.symm
    subst this; rfl
  | cons k ks ih =>
    rw [List.foldl_cons]
    have hmem : k.pt ∈ centers := hp.mem_iff.1 (by simp)
    have h1 : centers.Perm (k.pt :: eraseFirst (fun c => ptEqual fltEps c k.pt) centers) :=
      eraseFirst_perm hmem (ptEqual_self _ fltEps_pos _) fun b hb hbe => hsep b hb _ hmem hbe
    have h2 : (ks.map KeyPoint.pt).Perm (eraseFirst (fun c => ptEqual fltEps c k.pt) centers) := by
      have := hp.trans h1
      rw [List.map_cons] at this
      exact this.cons_inv
    refine ih h2 ?_
    intro a ha b hb
    exact hsep a (h1.mem_iff.2 (List.mem_cons_of_mem _ ha)) b (h1.mem_iff.2 (List.mem_cons_of_mem _ hb))

theorem setFirst_get (p : V2 → Prop) (v : ℝ) (cs : List V2) (ss : List ℝ) (j : Nat) (c : V2)
    (hj : cs[j]? = some c) (hjs : j < ss.length) (hp : p c)
    (hu : ∀ (i : Nat) b, cs[i]? = some b → p b → i = j) (i : Nat) :
    (setFirst p v cs ss)[i]? = if i = j then some v else ss[i]? := by
  induction cs generalizing ss i j with
  | nil => simp at hj
  | cons d cs ih =>
    cases ss with
    | nil => simp at hjs
    | cons s ss =>
      simp only [setFirst]
      split
      · rename_i hd
        have : 0 = j := hu 0 d rfl hd
        subst this
        cases i <;> simp
      · rename_i hd
        cases j with
        | zero => simp at hj; subst hj; exact absurd hp hd
        | succ j =>
          cases i with
          | zero => simp
          | succ i =>
            simp only [List.getElem?_cons_succ]
            rw [ih ss j (by simpa using hj) (by simpa using hjs) (fun i b hi hb => by
              have := hu (i + 1) b (by simpa using hi) hb; omega) i]
            simp

theorem featureSizes_eq {centers : List V2} {sizes : List ℝ} {ks : List KeyPoint} (hlen : sizes.length = centers.length)
    (hsep : Separated centers) (hm : Measured centers sizes ks) (i : Nat) :
    (featureSizes centers ks)[i]? = sizes[i]? := by
  by_cases hi : i < centers.length
  swap
  · rw [List.getElem?_eq_none (by rw [featureSizes_length]; omega), List.getElem?_eq_none (by omega)]
  -- every key point belongs to a position
  have hpos : ∀ k ∈ ks, ∃ j : Nat, centers[j]? = some k.pt ∧ sizes[j]? = some k.size := by
    intro k hk
    have := hm.mem_iff.1 hk
    obtain ⟨j, hj⟩ := List.getElem?_of_mem this
    rw [List.getElem?_zipWith_eq_some] at hj
    obtain ⟨a, b, h1, h2, h3⟩ := hj
    subst h3
    exact ⟨j, h1, h2⟩
  have hhit : ∃ k ∈ ks, centers[i]? = some k.pt := by
    refine ⟨⟨centers[i], sizes[i]'(by omega)⟩, hm.mem_iff.2 ?_, by simp⟩
    apply List.mem_of_getElem? (i := i)
    rw [List.getElem?_zipWith_eq_some]
    exact ⟨centers[i], sizes[i]'(by omega), by simp, by simp, rfl⟩
  unfold featureSizes
  have key : ∀ (ks' : List KeyPoint) (ss : List ℝ), (∀ k ∈ ks', ∃ j : Nat, centers[j]? = some k.pt ∧
      sizes[j]? = some k.size) → ss.length = centers.length →
      ((∃ k ∈ ks', centers[i]? = some k.pt) ∨ ss[i]? = sizes[i]?) →
      (ks'.foldl (fun ss k => setFirst (fun c => ptEqual dblEps c k.pt) k.size centers ss) ss)[i]? = sizes[i]? := by
    intro ks'
    induction ks' with
    | nil => intro ss _ _ h; simpa using h
    | cons k ks' ih =>
      intro ss hp hl h
      rw [List.foldl_cons]
      obtain ⟨j, hj1, hj2⟩ := hp k (by simp)
      have hjlt : j < ss.length := by rw [hl]; exact (List.getElem?_eq_some_iff.1 hj1).1
      have hset := setFirst_get (fun c => ptEqual dblEps c k.pt) k.size centers ss j k.pt hj1 hjlt
        (ptEqual_self _ dblEps_pos' _) (fun i b hi hb => hsep i j b k.pt hi hj1 (hb.mono dblEps_le).1 (hb.mono dblEps_le).2) i
      refine ih _ (fun k hk => hp k (by simp [hk])) (by rw [setFirst_length, hl]) ?_
      by_cases hij : i = j
      · subst hij
        right
        rw [hset, if_pos rfl, hj2]
      · rcases h with ⟨k', hk', he⟩ | h
        · rcases List.mem_cons.1 hk' with rfl | hk'
          · exact absurd (hsep i j _ _ he hj1 (ptEqual_self _ fltEps_pos _).1 (ptEqual_self _ fltEps_pos _).2) hij
          · exact .inl ⟨k', hk', he⟩
        · right
          rw [hset, if_neg hij, h]
  exact key ks _ hpos (by simp) (.inl hhit)

theorem pickKeyPoints_eq {n : Nat} {pre : List (List KeyPoint)} {ks : List KeyPoint} {post : List (List KeyPoint)}
    (hpre : ∀ l ∈ pre, l.length < n) (hk : n ≤ ks.length) : pickKeyPoints n (pre ++ ks :: post) = ks := by
  induction pre with
  | nil =>
    cases post with
    | nil => rfl
    | cons => simp [pickKeyPoints, hk]
  | cons l pre ih =>
    have h1 := hpre l (by simp)
    have h2 := ih fun l hl => hpre l (by simp [hl])
    cases hrest : pre ++ ks :: post with
    | nil => simp at hrest
    | cons a rest =>
      rw [List.cons_append, hrest, pickKeyPoints]
      · rw [if_neg (by omega), ← hrest, h2]
      · simp

/-- The circle detections of an image: with some setting the detector finds exactly the centres of the grid, with their
diameters, and with no setting before it as many. -/
structure Seen (detections : List (List KeyPoint)) (centers : List V2) (sizes : List ℝ) (n : Nat) : Prop where
  length : centers.length = n
  sizes_length : sizes.length = n
  separated : Separated centers
  detected : ∃ pre ks post, detections = pre ++ ks :: post ∧ (∀ l ∈ pre, l.length < n) ∧ Measured centers sizes ks

theorem Seen.sizes_eq {detections : List (List KeyPoint)} {centers : List V2} {sizes : List ℝ} {n : Nat}
    (h : Seen detections centers sizes n) :
    unmatched centers (pickKeyPoints n detections) = [] ∧
    ∀ i : Nat, (featureSizes centers (pickKeyPoints n detections))[i]? = sizes[i]? := by
  obtain ⟨hl, hsl, hsep, pre, ks, post, rfl, hpre, hm⟩ := h
  have hkl : ks.length = n := by
    rw [hm.length_eq, List.length_zipWith]; omega
  rw [pickKeyPoints_eq hpre (by omega)]
  refine ⟨unmatched_nil ?_ ?_, featureSizes_eq (by omega) hsep hm⟩
  · have := hm.map KeyPoint.pt
    rw [List.map_zipWith] at this
    refine this.trans ?_
    have e : List.zipWith (fun x y => (KeyPoint.mk x y).pt) centers sizes = centers := by
      apply List.ext_getElem?
      intro i
      by_cases hi : i < centers.length
      · rw [List.getElem?_eq_getElem (by rw [List.length_zipWith]; omega)]
        simp
      · rw [List.getElem?_eq_none (by rw [List.length_zipWith]; omega), List.getElem?_eq_none (by omega)]
    rw [e]
  · intro a ha b hb hab
    obtain ⟨i, hi⟩ := List.getElem?_of_mem ha
    obtain ⟨j, hj⟩ := List.getElem?_of_mem hb
    have := hsep i j a b hi hj hab.1 hab.2
    subst this
    rw [hi] at hj
    exact Option.some.inj hj

theorem judge_large {x : Corner → ℝ} {c : Corner} (hlt : ∀ c', c' ≠ c → x c' < x c) :
    judge (.fin (x .startLast)) (.fin (x .endFirst)) (.fin (x .endLast)) (.fin (x .startFirst)) = some c := by
  have l1 := hlt .startLast
  have l2 := hlt .endFirst
  have l3 := hlt .endLast
  have l4 := hlt .startFirst
  unfold judge FRatio.Gt
  cases c <;> simp only [ne_eq, not_true_eq_false, false_imp_iff, reduceCtorEq, not_false_eq_true, true_imp_iff]
    at l1 l2 l3 l4
  · rw [if_pos ⟨l4, l2, l3⟩]
  · rw [if_neg (fun h => absurd h.2.1 (by simp only; linarith)), if_pos ⟨l3, l1, l4⟩]
  · rw [if_neg (fun h => absurd h.2.2 (by simp only; linarith)), if_neg (fun h => absurd h.1 (by simp only; linarith)),
      if_pos ⟨l1, l2, l4⟩]
  · rw [if_neg (fun h => absurd h.1 (by simp only; linarith)), if_neg (fun h => absurd h.2.2 (by simp only; linarith)),
      if_neg (fun h => absurd h.2.2 (by simp only; linarith)), if_pos ⟨l3, l2, l1⟩]

/-- The number that a quotient stands for, if any. -/
noncomputable def Spec.quotientValue : FRatio → Option EReal
  | .fin x => some x
  | .posInf => some ⊤
  | .negInf => some ⊥
  | .nan => none

/-- One quotient is a larger number than the other; nothing that is no number is larger or smaller. -/
def Spec.Exceeds (a b : FRatio) : Prop := ∃ x y, quotientValue a = some x ∧ quotientValue b = some y ∧ y < x

theorem FRatio.gt_iff (a b : FRatio) : a.Gt b ↔ Exceeds a b := by
  cases a <;> cases b <;> simp [FRatio.Gt, Exceeds, quotientValue]

theorem Exceeds.asymm {a b : FRatio} (h : Exceeds a b) (h' : Exceeds b a) : False := by
  obtain ⟨x, y, hx, hy, hlt⟩ := h
  obtain ⟨y', x', hy', hx', hlt'⟩ := h'
  rw [hx] at hx'; cases hx'
  rw [hy] at hy'; cases hy'
  exact lt_asymm hlt hlt'

/-- A corner is judged to be the large circle exactly if its relative size, which may be infinite, is larger than that of all other corners. -/
theorem C97_judge (x : Corner → FRatio) (c : Corner) :
    judge (x .startLast) (x .endFirst) (x .endLast) (x .startFirst) = some c ↔ ∀ c', c' ≠ c → Exceeds (x c) (x c') := by
  have all : ∀ P : Corner → Prop, (∀ c, P c) ↔ P .startLast ∧ P .endFirst ∧ P .endLast ∧ P .startFirst :=
    fun P => ⟨fun h => ⟨h _, h _, h _, h _⟩, fun h c => by cases c <;> simp [h]⟩
  simp only [← FRatio.gt_iff]
  rw [all]
  unfold judge
  have as : ∀ a b, (x a).Gt (x b) → ¬ (x b).Gt (x a) := fun a b h h' => Exceeds.asymm ((FRatio.gt_iff _ _).1 h) ((FRatio.gt_iff _ _).1 h')
  have a1 := as .startLast .endFirst
  have a2 := as .startLast .endLast
  have a3 := as .startLast .startFirst
  have a4 := as .endFirst .endLast
  have a5 := as .endFirst .startFirst
  have a6 := as .endLast .startFirst
  clear as all
  cases c <;> simp only [ne_eq, not_true_eq_false, false_imp_iff, reduceCtorEq, not_false_eq_true, true_imp_iff, true_and, and_true]
  all_goals
    generalize (x .startLast).Gt (x .endFirst) = b1 at *
    generalize (x .startLast).Gt (x .endLast) = b2 at *
    generalize (x .startLast).Gt (x .startFirst) = b3 at *
    generalize (x .endFirst).Gt (x .startLast) = b4 at *
    generalize (x .endFirst).Gt (x .endLast) = b5 at *
    generalize (x .endFirst).Gt (x .startFirst) = b6 at *
    generalize (x .endLast).Gt (x .startLast) = b7 at *
    generalize (x .endLast).Gt (x .endFirst) = b8 at *
    generalize (x .endLast).Gt (x .startFirst) = b9 at *
    generalize (x .startFirst).Gt (x .startLast) = b10 at *
    generalize (x .startFirst).Gt (x .endFirst) = b11 at *
    generalize (x .startFirst).Gt (x .endLast) = b12 at *
    grind

/-- If two corners share the greatest value none is judged to be the large circle. -/
theorem judge_tie {x : Corner → ℝ} {c c' : Corner} (hne : c ≠ c') (hx : x c = x c') (hle : ∀ e, x e ≤ x c) :
    judge (.fin (x .startLast)) (.fin (x .endFirst)) (.fin (x .endLast)) (.fin (x .startFirst)) = none := by
  have l1 := hle .startLast
  have l2 := hle .endFirst
  have l3 := hle .endLast
  have l4 := hle .startFirst
  unfold judge FRatio.Gt
  rw [if_neg, if_neg, if_neg, if_neg] <;> rintro ⟨h1, h2, h3⟩ <;> simp only at h1 h2 h3 <;>
    cases c <;> cases c' <;> first | exact absurd rfl hne | linarith

/-- The decision when the four relative sizes are finite. -/
theorem gridDecision_eval {detections : List (List KeyPoint)} {centers : List V2} {sizes : List ℝ} {rows cols : Nat}
    (hr : 2 ≤ rows) (hc : 2 ≤ cols) (hn : rows * cols < 2 ^ 31) (hseen : Seen detections centers sizes (rows * cols))
    (x : Corner → ℝ)
    (hx : ∀ c, relSize (featureSizes centers (pickKeyPoints (rows * cols) detections)) rows cols c = .ok (.fin (x c))) :
    ∃ sl el ef, centers[cornerPos rows cols .startLast]? = some sl ∧ centers[cornerPos rows cols .endLast]? = some el ∧
      centers[cornerPos rows cols .endFirst]? = some ef ∧
    gridDecision detections centers rows cols =
      match judge (.fin (x .startLast)) (.fin (x .endFirst)) (.fin (x .endLast)) (.fin (x .startFirst)) with
      | some c => Res.ok { corner := c, usual := usualOrdering sl el ef }
      | none => Res.throw .runtimeError := by
  obtain ⟨hu, -⟩ := hseen.sizes_eq
  have hlt : ∀ c', cornerPos rows cols c' < centers.length := fun c' => by
    rw [hseen.length]; exact cornerPos_lt hr hc c'
  have hp : ∀ c', Res.idxList centers (cornerIdx rows cols c') = .ok (centers[cornerPos rows cols c']'(hlt c')) := by
    intro c'
    rw [cornerIdx_eq hr hc hn]
    exact idxList_ok_iff.2 (List.getElem?_eq_getElem _)
  refine ⟨_, _, _, List.getElem?_eq_getElem (hlt _), List.getElem?_eq_getElem (hlt _),
    List.getElem?_eq_getElem (hlt _), ?_⟩
  unfold gridDecision
  simp only [szMul_eq hn]
  rw [if_neg (by simp [hu]), hx, Res.ok_bind, hx, Res.ok_bind, hx, Res.ok_bind, hx, Res.ok_bind, hp, Res.ok_bind, hp,
    Res.ok_bind, hp, Res.ok_bind]
  rfl

/- C97, full statement: if one corner circle of the detected grid is larger than all the other circles, which have equal
size, the finder recognises it: the corner it judges to be the large circle is that one. Proved for corners whose position
in the list of centres is the one of the target layout (`cornerPos rows cols`): all four corners if the pattern was found
with the size of the target, the first and the last circle if it was found flipped. In the remaining cases the finder
fails (`C97_negation`). -/
theorem C97_partial (detections : List (List KeyPoint)) (centers : List V2) (rows cols : Nat) (hr : 2 ≤ rows)
    (hc : 2 ≤ cols) (hn : rows * cols < 2 ^ 31) (c : Corner) (s S : ℝ) (hs : 0 < s) (hS : s < S)
    (hseen : Seen detections centers
      ((List.range (rows * cols)).map (oneLarge s S (cornerPos rows cols c))) (rows * cols)) :
    ∃ sl el ef, centers[cornerPos rows cols .startLast]? = some sl ∧ centers[cornerPos rows cols .endLast]? = some el ∧
      centers[cornerPos rows cols .endFirst]? = some ef ∧
    gridDecision detections centers rows cols = .ok ⟨c, usualOrdering sl el ef⟩ := by
  obtain ⟨hu, hf⟩ := hseen.sizes_eq
  have hsz : ∀ i, i < rows * cols → (featureSizes centers (pickKeyPoints (rows * cols) detections))[i]? =
      some (oneLarge s S (cornerPos rows cols c) i) := by
    intro i hi
    rw [hf i]; simp [hi]
  have hM : 1 < S / s := (one_lt_div hs).2 hS
  have hall : ∀ c', ∃ x, relSize (featureSizes centers (pickKeyPoints (rows * cols) detections)) rows cols c' =
      .ok (.fin x) ∧ (c' = c → x = S / s) ∧ (c' ≠ c → x ≤ 1) := by
    intro c'
    by_cases hcc : c' = c
    · subst hcc; exact ⟨_, relSize_large hr hc hn hs c' hsz, fun _ => rfl, fun h => absurd rfl h⟩
    · obtain ⟨x, h1, h2⟩ := relSize_small hr hc hn hs hS.le c' _ (fun e => hcc (cornerPos_inj hr hc e.symm)) hsz
      exact ⟨x, h1, fun h => absurd h hcc, fun _ => h2⟩
  choose x hx h1 h2 using hall
  obtain ⟨sl, el, ef, e1, e2, e3, hd⟩ := gridDecision_eval hr hc hn hseen x hx
  refine ⟨sl, el, ef, e1, e2, e3, ?_⟩
  rw [hd, judge_large (c := c) fun c' hcc => by rw [h1 c rfl]; exact lt_of_le_of_lt (h2 c' hcc) hM]

/-- If the pattern was found flipped and the large circle is at the end of the first row or at the start of the last row
of the detected list (`rows` circles per row), a target that is not square is never recognised: the finder fails although
the image shows the target. -/
theorem C97_negation (detections : List (List KeyPoint)) (centers : List V2) (rows cols : Nat) (hr : 2 ≤ rows)
    (hc : 2 ≤ cols) (hn : rows * cols < 2 ^ 31) (hsq : rows ≠ cols) (c : Corner)
    (hcorner : c = .endFirst ∨ c = .startLast) (s S : ℝ) (hs : 0 < s) (hS : s < S)
    (hseen : Seen detections centers
      ((List.range (rows * cols)).map (oneLarge s S (cornerPos cols rows c))) (rows * cols)) :
    extractKeyPoints detections centers rows cols true = .throw .runtimeError := by
  obtain ⟨hu, hf⟩ := hseen.sizes_eq
  obtain ⟨b, hb⟩ : ∃ b, b = cornerPos cols rows c := ⟨_, rfl⟩
  have hsz : ∀ i, i < rows * cols → (featureSizes centers (pickKeyPoints (rows * cols) detections))[i]? =
      some (oneLarge s S b i) := by
    intro i hi
    rw [hf i, hb]; simp [hi]
  have h1 := mul_pred rows cols (by omega)
  have h1' := mul_pred (rows - 1) cols (by omega)
  have e1 : rows - 1 - 1 = rows - 2 := by omega
  rw [e1] at h1'
  have h2 := mul_pred cols rows (by omega)
  have h2' := mul_pred (cols - 1) rows (by omega)
  have e2 : cols - 1 - 1 = cols - 2 := by omega
  rw [e2] at h2'
  have hcomm := Nat.mul_comm cols rows
  -- rows * cols as seen from both sides
  have hprod : ∃ a d, rows = a + 2 ∧ cols = d + 2 := ⟨rows - 2, cols - 2, by omega, by omega⟩
  obtain ⟨a, d, ha, hd⟩ := hprod
  have hpos : ∀ c', b ≠ cornerPos rows cols c' := by
    intro c' e
    have hab : a ≠ d := by omega
    have hmul : rows * cols = a * d + 2 * a + 2 * d + 4 := by rw [ha, hd]; ring
    rcases hcorner with rfl | rfl <;> cases c' <;> simp only [cornerPos] at hb e <;> omega
  have hmul : rows * cols = a * d + 2 * a + 2 * d + 4 := by rw [ha, hd]; ring
  have hsmall : ∀ c', ∃ x, relSize (featureSizes centers (pickKeyPoints (rows * cols) detections)) rows cols c' =
      .ok (.fin x) ∧ x ≤ 1 ∧ ((nbrPos rows cols c').1 ≠ b → (nbrPos rows cols c').2 ≠ b → x = 1) := by
    intro c'
    obtain ⟨x, hx, hx1⟩ := relSize_small hr hc hn hs hS.le c' b (hpos c') hsz
    refine ⟨x, hx, hx1, ?_⟩
    intro n1 n2
    have hx' := relSize_eval hr hc hn _ hsz c'
    rw [hx] at hx'
    simp only [oneLarge, n1, n2, (hpos c').symm, if_false, FRatio.div, ne_eq, hs.ne', not_false_eq_true, if_true,
      FRatio.mean, div_self] at hx'
    injection hx' with hx'
    injection hx' with hx'
    rw [hx']; norm_num
  choose x hx h3 h4 using hsmall
  have hnl : a * d + a = 1 → a = 1 ∧ d = 0 := by
    intro h
    rcases Nat.lt_or_ge a 2 with h' | h'
    · interval_cases a <;> omega
    · omega
  have hclean : ∃ p q : Corner, p ≠ q ∧ x p = 1 ∧ x q = 1 := by
    rcases hcorner with rfl | rfl
    · refine ⟨.endLast, if a = 1 ∧ d = 0 then .endFirst else .startLast, ?_, ?_, ?_⟩
      · split <;> simp
      · apply h4 <;> simp only [nbrPos, cornerPos] at hb ⊢ <;> omega
      · split
        · apply h4 <;> simp only [nbrPos, cornerPos] at hb ⊢ <;> omega
        · apply h4 <;> simp only [nbrPos, cornerPos] at hb ⊢ <;> omega
    · refine ⟨.startFirst, if a = 1 ∧ d = 0 then .startLast else .endFirst, ?_, ?_, ?_⟩
      · split <;> simp
      · apply h4 <;> simp only [nbrPos, cornerPos] at hb ⊢ <;> omega
      · split
        · rename_i had
          obtain ⟨rfl, rfl⟩ := had
          subst ha hd
          apply h4 <;> simp only [nbrPos, cornerPos] at hb ⊢ <;> omega
        · apply h4 <;> simp only [nbrPos, cornerPos] at hb ⊢ <;> omega
  obtain ⟨p, q, hpq, hp1, hq1⟩ := hclean
  obtain ⟨sl, el, ef, -, -, -, hdec⟩ := gridDecision_eval hr hc hn hseen x hx
  rw [judge_tie hpq (by rw [hp1, hq1]) fun e => by rw [hp1]; exact h3 e] at hdec
  unfold extractKeyPoints
  rw [hdec]
  rfl

/-- A key point is counted for the first of the centres that it agrees with. -/
def Spec.CountedFor (centers : List V2) (k : KeyPoint) (j : Nat) : Prop :=
  (∃ c, centers[j]? = some c ∧ |c.x - k.pt.x| < dblEps ∧ |c.y - k.pt.y| < dblEps) ∧
    ∀ i < j, ∀ c, centers[i]? = some c → ¬ (|c.x - k.pt.x| < dblEps ∧ |c.y - k.pt.y| < dblEps)

open Classical in
theorem setFirst_counted (p : V2 → Prop) (v : ℝ) (cs : List V2) (ss : List ℝ) (h : ss.length = cs.length) (j : Nat) :
    (setFirst p v cs ss)[j]? = if (∃ c, cs[j]? = some c ∧ p c) ∧ ∀ i < j, ∀ c, cs[i]? = some c → ¬ p c then some v else ss[j]? := by
  induction cs generalizing ss j with
  | nil => simp [setFirst]
  | cons d cs ih =>
    cases ss with
    | nil => simp at h
    | cons s ss =>
      simp only [setFirst]
      split
      · rename_i hd
        cases j with
        | zero => simp [hd]
        | succ j =>
          rw [if_neg]
          · simp
          · rintro ⟨-, h2⟩
            exact h2 0 (by omega) d rfl hd
      · rename_i hd
        cases j with
        | zero => simp [hd]
        | succ j =>
          simp only [List.getElem?_cons_succ]
          rw [ih ss (by simpa using h)]
          congr 1
          apply propext
          constructor
          · rintro ⟨h1, h2⟩
            refine ⟨h1, fun i hi c hc => ?_⟩
            cases i with
            | zero => simp at hc; subst hc; exact hd
            | succ i => exact h2 i (by omega) c (by simpa using hc)
          · rintro ⟨h1, h2⟩
            exact ⟨h1, fun i hi c hc => h2 (i + 1) (by omega) c (by simpa using hc)⟩

open Classical in
/-- The size of a circle is that of the last key point counted for it, and zero if none is: of two circles whose centres agree only the first one gets a size. -/
theorem C97_sizes (centers : List V2) (ks : List KeyPoint) (j : Nat) (hj : j < centers.length) :
    (featureSizes centers ks)[j]? =
      some (((ks.filter fun k => decide (CountedFor centers k j)).getLast?.map KeyPoint.size).getD 0) := by
  unfold featureSizes
  have key : ∀ (ks : List KeyPoint) (ss : List ℝ) (v : ℝ), ss.length = centers.length → ss[j]? = some v →
      (ks.foldl (fun ss k => setFirst (fun c => ptEqual dblEps c k.pt) k.size centers ss) ss)[j]? =
        some (((ks.filter fun k => decide (CountedFor centers k j)).getLast?.map KeyPoint.size).getD v) := by
    intro ks
    induction ks with
    | nil => intro ss v _ h; simpa using h
    | cons k ks ih =>
      intro ss v hl hv
      rw [List.foldl_cons]
      have hs := setFirst_counted (fun c => ptEqual dblEps c k.pt) k.size centers ss hl j
      by_cases hk : CountedFor centers k j
      · rw [if_pos (by simpa [CountedFor, ptEqual] using hk)] at hs
        rw [ih _ _ (by rw [setFirst_length, hl]) hs, List.filter_cons_of_pos (by simpa using hk)]
        generalize ks.filter _ = l
        rcases List.eq_nil_or_concat l with rfl | ⟨l, a, rfl⟩
        · simp
        · simp [List.getLast?_cons]
      · rw [if_neg (by simpa [CountedFor, ptEqual] using hk), hv] at hs
        rw [ih _ _ (by rw [setFirst_length, hl]) hs, List.filter_cons_of_neg (by simpa using hk)]
  exact key ks _ 0 (by simp) (by simp [hj])

open Classical in
/-- Two circles with the same centre: the second one is left without a size. -/
example : (featureSizes [⟨1, 2⟩, ⟨1, 2⟩] [⟨⟨1, 2⟩, 5⟩])[1]? = some 0 := by
  rw [C97_sizes _ _ 1 (by simp)]
  have : ¬ CountedFor [⟨1, 2⟩, ⟨1, 2⟩] ⟨⟨1, 2⟩, 5⟩ 1 := by
    rintro ⟨-, h⟩
    exact h 0 (by omega) ⟨1, 2⟩ rfl (by simp [dblEps_pos'])
  simp [this]
end RCT
