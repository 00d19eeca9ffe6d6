import Verif.Spec.CircleDetector

/-!
# Lemmas about grouping and averaging of circles
-/

namespace RCT

open Spec

theorem nearCenter_iff (p : DetectorParams) (a b : Center) :
    nearCenter p a b ↔ SameCircle p.circleInclusionRadius p.maxRadiusDiff a b := by
  unfold nearCenter SameCircle
  rw [Real.sqrt_le_iff, and_assoc]

/-- The two outcomes of an insertion. -/
theorem insertGroup_cases {α : Type} (near : α → α → Prop) (c : α) (gs : List (List α)) :
    (∃ l f g r, gs = l ++ (f :: g) :: r ∧ near f c ∧ insertGroup near c gs = l ++ (f :: g ++ [c]) :: r) ∨
    ((∀ f g, f :: g ∈ gs → ¬ near f c) ∧ insertGroup near c gs = gs ++ [[c]]) := by
  induction gs with
  | nil => right; simp [insertGroup]
  | cons h gs ih =>
    cases h with
    | nil =>
      rcases ih with ⟨l, f, g, r, h1, h2, h3⟩ | ⟨h1, h2⟩
      · left; exact ⟨[] :: l, f, g, r, by rw [h1]; rfl, h2, by rw [insertGroup, h3]; rfl⟩
      · right; refine ⟨?_, by rw [insertGroup, h2]; rfl⟩
        intro f g hm
        rcases List.mem_cons.1 hm with h | h
        · cases h
        · exact h1 f g h
    | cons f g =>
      by_cases hn : near f c
      · left
        exact ⟨[], f, g, gs, rfl, hn, by simp [insertGroup, hn]⟩
      · rcases ih with ⟨l, f', g', r, h1, h2, h3⟩ | ⟨h1, h2⟩
        · left
          exact ⟨(f :: g) :: l, f', g', r, by rw [h1]; rfl, h2, by rw [insertGroup, if_neg hn, h3]; rfl⟩
        · right
          refine ⟨?_, by rw [insertGroup, if_neg hn, h2]; rfl⟩
          intro f' g' hm
          rcases List.mem_cons.1 hm with h | h
          · cases h; exact hn
          · exact h1 f' g' h

theorem insertGroup_grouping {α : Type} {near : α → α → Prop} {c : α} {all : List α} {gs : List (List α)}
    (h : Grouping near all gs) : Grouping near (all ++ [c]) (insertGroup near c gs) := by
  rcases insertGroup_cases near c gs with ⟨l, f, g, r, h1, h2, h3⟩ | ⟨h1, h2⟩
  · rw [h3]
    constructor
    · have := h.perm
      rw [h1] at this
      simp only [List.flatten_append, List.flatten_cons, List.cons_append] at this ⊢
      refine List.Perm.trans ?_ (this.append_right [c])
      simp only [List.append_assoc, List.cons_append]
      refine List.Perm.append_left _ (List.Perm.cons _ (List.Perm.append_left _ ?_))
      simpa using List.perm_append_comm (l₁ := [c]) (l₂ := r.flatten)
    · intro x hx
      simp only [List.mem_append, List.mem_cons] at hx
      rcases hx with hx | hx | hx
      · exact (h.order x (by rw [h1]; simp [hx])).trans (List.sublist_append_left _ _)
      · rw [hx]
        exact (h.order (f :: g) (by rw [h1]; simp)).append (List.Sublist.refl [c])
      · exact (h.order x (by rw [h1]; simp [hx])).trans (List.sublist_append_left _ _)
    · intro x hx
      simp only [List.mem_append, List.mem_cons] at hx
      rcases hx with hx | hx | hx
      · exact h.nonempty x (by rw [h1]; simp [hx])
      · rw [hx]; simp
      · exact h.nonempty x (by rw [h1]; simp [hx])
    · intro a t hx d hd
      simp only [List.mem_append, List.mem_cons] at hx
      rcases hx with hx | hx | hx
      · exact h.close a t (by rw [h1]; simp [hx]) d hd
      · simp only [List.cons_append, List.cons.injEq] at hx
        obtain ⟨rfl, rfl⟩ := hx
        rcases List.mem_append.1 hd with hd | hd
        · exact h.close a g (by rw [h1]; simp) d hd
        · rw [List.mem_singleton.1 hd]; exact h2
      · exact h.close a t (by rw [h1]; simp [hx]) d hd
    · -- heads do not change
      have hh : ∀ (i : Nat) a t, (l ++ (f :: g ++ [c]) :: r)[i]? = some (a :: t) → ∃ t', gs[i]? = some (a :: t') := by
        intro i a t hi
        rw [h1]
        rcases Nat.lt_trichotomy i l.length with hlt | heq | hgt
        · rw [List.getElem?_append_left hlt] at hi ⊢
          exact ⟨t, hi⟩
        · subst heq
          simp only [List.getElem?_append_right (Nat.le_refl _), Nat.sub_self, List.getElem?_cons_zero,
            Option.some.injEq, List.cons_append, List.cons.injEq] at hi
          refine ⟨g, ?_⟩
          simp [hi.1]
        · rw [List.getElem?_append_right (by omega)] at hi ⊢
          obtain ⟨m, hm⟩ : ∃ m, i - l.length = m + 1 := ⟨i - l.length - 1, by omega⟩
          rw [hm] at hi ⊢
          exact ⟨t, by simpa using hi⟩
      intro i j a t a' t' hij hi hj
      obtain ⟨u, hu⟩ := hh i a t hi
      obtain ⟨u', hu'⟩ := hh j a' t' hj
      exact h.apart i j a u a' u' hij hu hu'
  · rw [h2]
    constructor
    · simpa using h.perm.append_right [c]
    · intro x hx
      rcases List.mem_append.1 hx with hx | hx
      · exact (h.order x hx).trans (List.sublist_append_left _ _)
      · rw [List.mem_singleton.1 hx]; exact List.sublist_append_right _ _
    · intro x hx
      rcases List.mem_append.1 hx with hx | hx
      · exact h.nonempty x hx
      · rw [List.mem_singleton.1 hx]; simp
    · intro a t hx d hd
      rcases List.mem_append.1 hx with hx | hx
      · exact h.close a t hx d hd
      · simp only [List.mem_singleton, List.cons.injEq] at hx
        rw [hx.2] at hd; cases hd
    · intro i j a t a' t' hij hi hj
      have hjl := (List.getElem?_eq_some_iff.1 hj).1
      simp only [List.length_append, List.length_singleton] at hjl
      rw [List.getElem?_append_left (by omega)] at hi
      by_cases hjj : j < gs.length
      · rw [List.getElem?_append_left hjj] at hj
        exact h.apart i j a t a' t' hij hi hj
      · have : j = gs.length := by omega
        subst this
        simp only [List.getElem?_append_right (Nat.le_refl _), Nat.sub_self, List.getElem?_cons_zero,
          Option.some.injEq, List.cons.injEq] at hj
        rw [← hj.1]
        exact h1 a t (List.mem_of_getElem? hi)

theorem groupCenters_eq {α : Type} (near : α → α → Prop) (all : List (List α)) :
    groupCenters near all = all.flatten.foldl (fun gs c => insertGroup near c gs) [] := by
  unfold groupCenters
  rw [List.foldl_flatten]

theorem foldl_grouping {α : Type} {near : α → α → Prop} (l all : List α) (gs : List (List α)) (h : Grouping near all gs) :
    Grouping near (all ++ l) (l.foldl (fun gs c => insertGroup near c gs) gs) := by
  induction l generalizing all gs with
  | nil => simpa using h
  | cons a l ih =>
    have := ih (all ++ [a]) (insertGroup near a gs) (insertGroup_grouping h)
    simpa using this

theorem groupCenters_grouping {α : Type} (near : α → α → Prop) (all : List (List α)) :
    Grouping near all.flatten (groupCenters near all) := by
  rw [groupCenters_eq]
  have := foldl_grouping (near := near) all.flatten [] [] ⟨by simp, by simp, by simp, by simp, by simp⟩
  simpa using this

/-! ### Renaming of detections -/

theorem insertGroup_map {α β : Type} (φ : α → β) (near : β → β → Prop) (c : α) (gs : List (List α)) :
    (insertGroup (fun a b => near (φ a) (φ b)) c gs).map (List.map φ) =
      insertGroup near (φ c) (gs.map (List.map φ)) := by
  induction gs with
  | nil => simp [insertGroup]
  | cons h gs ih =>
    cases h with
    | nil => simp [insertGroup, ih]
    | cons f g =>
      by_cases hn : near (φ f) (φ c)
      · simp [insertGroup, hn]
      · simp [insertGroup, hn, ih]

theorem groupCenters_map {α β : Type} (φ : α → β) (near : β → β → Prop) (all : List (List α)) :
    (groupCenters (fun a b => near (φ a) (φ b)) all).map (List.map φ) =
      groupCenters near (all.map (List.map φ)) := by
  rw [groupCenters_eq, groupCenters_eq, ← List.map_flatten]
  generalize all.flatten = l
  suffices ∀ gs : List (List α),
      (l.foldl (fun gs c => insertGroup (fun a b => near (φ a) (φ b)) c gs) gs).map (List.map φ) =
        (l.map φ).foldl (fun gs c => insertGroup near c gs) (gs.map (List.map φ)) by simpa using this []
  induction l with
  | nil => intro gs; rfl
  | cons a l ih => intro gs; simp only [List.foldl_cons, List.map_cons]; rw [ih, insertGroup_map]

/-! ### Averages -/

theorem FRatio.add_fin (a b : ℝ) : (FRatio.fin a).add (.fin b) = .fin (a + b) := rfl
theorem FRatio.scale_fin (a b : ℝ) : (FRatio.fin a).scale b = .fin (a * b) := rfl
theorem FRatio.quot_fin {a b : ℝ} (h : b ≠ 0) : (FRatio.fin a).quot (.fin b) = .fin (a / b) := by
  simp [FRatio.quot, FRatio.div, h]

theorem foldl_scale_fin (f : Center → ℝ) (wt : Center → ℝ) (g : List Center)
    (h : ∀ c ∈ g, c.confidence = .fin (wt c)) (a : ℝ) :
    g.foldl (fun (s : FRatio) c => s.add (c.confidence.scale (f c))) (.fin a) =
      .fin (a + (g.map fun c => wt c * f c).sum) := by
  induction g generalizing a with
  | nil => simp
  | cons c g ih =>
    simp only [List.foldl_cons, List.map_cons, List.sum_cons]
    rw [h c (by simp)]
    rw [FRatio.scale_fin, FRatio.add_fin]
    rw [ih (fun c hc => h c (by simp [hc])), add_assoc]

theorem foldl_conf_fin (wt : Center → ℝ) (g : List Center) (h : ∀ c ∈ g, c.confidence = .fin (wt c)) (a : ℝ) :
    g.foldl (fun (s : FRatio) c => s.add c.confidence) (.fin a) = .fin (a + (g.map wt).sum) := by
  induction g generalizing a with
  | nil => simp
  | cons c g ih =>
    simp only [List.foldl_cons, List.map_cons, List.sum_cons]
    rw [h c (by simp)]
    rw [FRatio.add_fin]
    rw [ih (fun c hc => h c (by simp [hc])), add_assoc]

theorem sum_pos_of {l : List Center} {wt : Center → ℝ} (hl : l ≠ []) (h : ∀ c ∈ l, 0 < wt c) : 0 < (l.map wt).sum := by
  induction l with
  | nil => exact absurd rfl hl
  | cons a l ih =>
    simp only [List.map_cons, List.sum_cons]
    have h1 := h a (by simp)
    by_cases hl' : l = []
    · subst hl'; simpa using h1
    · have := ih hl' (fun c hc => h c (by simp [hc]))
      linarith

theorem weighted_le (wt f : Center → ℝ) (g : List Center) (h : ∀ c ∈ g, 0 < wt c) (hi : ℝ) (hf : ∀ c ∈ g, f c ≤ hi) :
    (g.map fun c => wt c * f c).sum ≤ (g.map wt).sum * hi := by
  induction g with
  | nil => simp
  | cons a g ih =>
    simp only [List.map_cons, List.sum_cons]
    have := ih (fun c hc => h c (by simp [hc])) (fun c hc => hf c (by simp [hc]))
    have h1 := h a (by simp)
    have h2 := hf a (by simp)
    nlinarith [mul_le_mul_of_nonneg_left h2 h1.le]

theorem le_weighted (wt f : Center → ℝ) (g : List Center) (h : ∀ c ∈ g, 0 < wt c) (lo : ℝ) (hf : ∀ c ∈ g, lo ≤ f c) :
    (g.map wt).sum * lo ≤ (g.map fun c => wt c * f c).sum := by
  induction g with
  | nil => simp
  | cons a g ih =>
    simp only [List.map_cons, List.sum_cons]
    have := ih (fun c hc => h c (by simp [hc])) (fun c hc => hf c (by simp [hc]))
    have h1 := h a (by simp)
    have h2 := hf a (by simp)
    nlinarith [mul_le_mul_of_nonneg_left h2 h1.le]

/-- The average of a value over a group, weighted with the confidences. -/
noncomputable def wmean (wt f : Center → ℝ) (g : List Center) : ℝ := (g.map fun c => wt c * f c).sum / (g.map wt).sum

theorem averageGroup_fin (wt : Center → ℝ) (g : List Center) (hg : g ≠ [])
    (h : ∀ c ∈ g, c.confidence = .fin (wt c) ∧ 0 < wt c) :
    averageGroup g = ⟨.fin (wmean wt (·.location.x) g), .fin (wmean wt (·.location.y) g),
      .fin (wmean wt (·.radius) g * 2)⟩ := by
  have hc : ∀ c ∈ g, c.confidence = .fin (wt c) := fun c hc => (h c hc).1
  have hs := sum_pos_of hg (fun c hc => (h c hc).2)
  unfold averageGroup wmean
  simp only [foldl_scale_fin (·.location.x) wt g hc, foldl_scale_fin (·.location.y) wt g hc,
    foldl_scale_fin (·.radius) wt g hc, foldl_conf_fin wt g hc, zero_add, FRatio.quot_fin hs.ne', FRatio.scale_fin]

theorem wmean_bounds (wt f : Center → ℝ) (g : List Center) (hg : g ≠ []) (h : ∀ c ∈ g, 0 < wt c) (lo hi : ℝ)
    (hf : ∀ c ∈ g, lo ≤ f c ∧ f c ≤ hi) : lo ≤ wmean wt f g ∧ wmean wt f g ≤ hi := by
  have hs := sum_pos_of hg h
  unfold wmean
  constructor
  · rw [le_div_iff₀ hs, mul_comm]
    exact le_weighted wt f g h lo (fun c hc => (hf c hc).1)
  · rw [div_le_iff₀ hs, mul_comm]
    exact weighted_le wt f g h hi (fun c hc => (hf c hc).2)

/-- Not a finite number. -/
def FRatio.NonFin : FRatio → Prop
  | .fin _ => False
  | _ => True

theorem FRatio.add_nonFin_left {a : FRatio} (h : a.NonFin) (b : FRatio) : (a.add b).NonFin := by
  cases a <;> cases b <;> simp_all [FRatio.NonFin, FRatio.add]

theorem FRatio.add_nonFin_right {b : FRatio} (h : b.NonFin) (a : FRatio) : (a.add b).NonFin := by
  cases a <;> cases b <;> simp_all [FRatio.NonFin, FRatio.add]

theorem FRatio.scale_nonFin {a : FRatio} (h : a.NonFin) (x : ℝ) : (a.scale x).NonFin := by
  cases a <;> simp_all [FRatio.NonFin, FRatio.scale] <;> split_ifs <;> simp_all

theorem FRatio.quot_nonFin {a b : FRatio} (ha : a.NonFin) (hb : b.NonFin) : a.quot b = .nan := by
  cases a <;> cases b <;> simp_all [FRatio.NonFin, FRatio.quot]

theorem foldl_nonFin_acc (t : Center → FRatio) (g : List Center) (s : FRatio) (h : s.NonFin) :
    (g.foldl (fun (s : FRatio) c => s.add (t c)) s).NonFin := by
  induction g generalizing s with
  | nil => exact h
  | cons a g ih => exact ih _ (FRatio.add_nonFin_left h _)

theorem foldl_nonFin (t : Center → FRatio) (g : List Center) (s : FRatio) (h : ∃ c ∈ g, (t c).NonFin) :
    (g.foldl (fun (s : FRatio) c => s.add (t c)) s).NonFin := by
  induction g generalizing s with
  | nil => obtain ⟨c, hc, -⟩ := h; cases hc
  | cons a g ih =>
    obtain ⟨c, hc, hn⟩ := h
    rcases List.mem_cons.1 hc with rfl | hc
    · exact foldl_nonFin_acc t g _ (FRatio.add_nonFin_right hn _)
    · exact ih _ ⟨c, hc, hn⟩

/-- One member without finite confidence spoils the key point. -/
theorem averageGroup_nan (g : List Center) (h : ∃ c ∈ g, c.confidence.NonFin) :
    averageGroup g = ⟨.nan, .nan, .nan⟩ := by
  obtain ⟨c, hc, hn⟩ := h
  have hs : ∀ f : Center → ℝ,
      (g.foldl (fun (s : FRatio) c => s.add (c.confidence.scale (f c))) (.fin 0)).NonFin := fun f =>
    foldl_nonFin (fun c => c.confidence.scale (f c)) g _ ⟨c, hc, FRatio.scale_nonFin hn _⟩
  have hw : (g.foldl (fun (s : FRatio) c => s.add c.confidence) (.fin 0)).NonFin :=
    foldl_nonFin (fun c => c.confidence) g _ ⟨c, hc, hn⟩
  have h1 := FRatio.quot_nonFin (hs (·.location.x)) hw
  have h2 := FRatio.quot_nonFin (hs (·.location.y)) hw
  have h3 := FRatio.quot_nonFin (hs (·.radius)) hw
  unfold averageGroup
  simp only [h1, h2, h3]
  rfl

end RCT
