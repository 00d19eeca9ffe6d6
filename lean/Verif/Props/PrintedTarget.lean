import Verif.Spec.PrintedTarget
import Verif.Props.Targets
import Mathlib.Data.Set.Card
import Mathlib.Data.Finset.Prod
import Mathlib.Order.Interval.Finset.Nat
import Mathlib.Algebra.Order.Floor.Ring

/-!
# C167-C170: the script that prints targets
-/

namespace RCT

open Spec

/-! ## C167 The printed dot target is the circle grid target -/

theorem target_mem (t : CircleTarget) (h : t.rows + 1 < 2 ^ 32) (q : V3) :
    q ∈ t.createPoints ↔ ∃ c r : Nat, c < t.cols ∧ r < t.rows ∧ q = ⟨c * t.spacing, r * t.spacing, 0⟩ := by
  rw [createPoints_eq t h, mem_gridList]
  constructor
  · rintro ⟨r, c, hr, hc, rfl⟩
    exact ⟨c, t.rows - 1 - r, hc, by omega, rfl⟩
  · rintro ⟨c, r, hc, hr, rfl⟩
    refine ⟨t.rows - 1 - r, c, by omega, hc, ?_⟩
    have : t.rows - 1 - (t.rows - 1 - r) = r := by omega
    rw [this]

open Classical in
/-- One step of painting. -/
noncomputable def paint (p : V2) (i : Ink) (s : Shape) : Ink := if Covers s p then fillOf s else i

theorem inkAt_eq (D : Drawing) (p : V2) : inkAt D p = D.shapes.foldl (paint p) .white := rfl

open Classical in
theorem paint_circle (p : V2) (i f : Ink) (x y r : ℝ) : paint p i (.circle x y r f) = if Within r ⟨x, y⟩ p then f else i := rfl

theorem within_apart {a b : ℝ} {c c' p : V2} (ha : 0 ≤ a) (hb : 0 ≤ b) (h : Within a c p) (h' : Within b c' p) :
    planeDistSq c c' ≤ (a + b) ^ 2 := by
  unfold Within planeDistSq at *
  nlinarith [sq_nonneg (b * (p.x - c.x) + a * (p.x - c'.x)), sq_nonneg (b * (p.y - c.y) + a * (p.y - c'.y)), mul_nonneg ha hb,
    sq_nonneg ((p.x - c.x) * (p.y - c'.y) - (p.y - c.y) * (p.x - c'.x))]

open Classical in
theorem paint_dots (p : V2) (R h : ℝ) (fg bg : Ink) (hh : h ≤ R) (h0 : 0 ≤ h) (l : List V2)
    (hsep : ∀ c ∈ l, ∀ c' ∈ l, c ≠ c' → ¬ (Within h c p ∧ Within R c' p)) (i : Ink) :
    (l.flatMap fun c => [Shape.circle c.x c.y R fg, .circle c.x c.y h bg]).foldl (paint p) i =
      if ∃ c ∈ l, Within h c p then bg else if ∃ c ∈ l, Within R c p then fg else i := by
  induction l using List.reverseRecOn with
  | nil => simp
  | append_singleton l c ih =>
    obtain ⟨x, y⟩ := c
    rw [List.flatMap_append, List.foldl_append, ih (fun c h1 c' h2 => hsep c (by simp [h1]) c' (by simp [h2]))]
    simp only [List.flatMap_cons, List.flatMap_nil, List.append_nil, List.foldl_cons, List.foldl_nil, paint_circle]
    by_cases h1 : Within h ⟨x, y⟩ p
    · rw [if_pos h1, if_pos ⟨⟨x, y⟩, by simp, h1⟩]
    · rw [if_neg h1]
      by_cases h2 : Within R ⟨x, y⟩ p
      · rw [if_pos h2, if_neg, if_pos ⟨⟨x, y⟩, by simp, h2⟩]
        rintro ⟨c', hc', h3⟩
        by_cases he : c' = ⟨x, y⟩
        · exact h1 (he ▸ h3)
        · exact hsep c' (by simp [hc']) ⟨x, y⟩ (by simp) he ⟨h3, h2⟩
      · rw [if_neg h2]
        have e : ∀ r : ℝ, ¬ Within r ⟨x, y⟩ p → ((∃ c' ∈ l ++ [⟨x, y⟩], Within r c' p) ↔ ∃ c' ∈ l, Within r c' p) := by
          intro r hr
          constructor
          · rintro ⟨c', hc', h3⟩
            rcases List.mem_append.1 hc' with h4 | h4
            · exact ⟨c', h4, h3⟩
            · rw [List.mem_singleton] at h4
              exact absurd (h4 ▸ h3) hr
          · rintro ⟨c', hc', h3⟩
            exact ⟨c', by simp [hc'], h3⟩
        simp only [e h h1, e R h2]

/-- The centres of the dots, in the order in which they are drawn. -/
noncomputable def dotCentres (nx ny : Nat) (o : V2) (s : ℝ) : List V2 :=
  (List.range nx).flatMap fun (c : Nat) => (List.range ny).map fun (r : Nat) => ⟨o.x + (c : ℝ) * s, o.y + (r : ℝ) * s⟩

theorem mem_dotCentres {nx ny : Nat} {o : V2} {s : ℝ} {p : V2} :
    p ∈ dotCentres nx ny o s ↔ ∃ c r : Nat, c < nx ∧ r < ny ∧ p = ⟨o.x + c * s, o.y + r * s⟩ := by
  simp only [dotCentres, List.mem_flatMap, List.mem_range, List.mem_map]
  constructor
  · rintro ⟨c, hc, r, hr, rfl⟩; exact ⟨c, r, hc, hr, rfl⟩
  · rintro ⟨c, r, hc, hr, rfl⟩; exact ⟨c, hc, r, hr, rfl⟩

/-- Different dots are at least one spacing apart. -/
theorem dotCentres_apart {nx ny : Nat} {o : V2} {s : ℝ} {p q : V2} (hp : p ∈ dotCentres nx ny o s) (hq : q ∈ dotCentres nx ny o s)
    (h : p ≠ q) : s ^ 2 ≤ planeDistSq p q := by
  obtain ⟨c, r, -, -, rfl⟩ := mem_dotCentres.1 hp
  obtain ⟨c', r', -, -, rfl⟩ := mem_dotCentres.1 hq
  have key : (1 : ℝ) ≤ ((c : ℝ) - c') ^ 2 + ((r : ℝ) - r') ^ 2 := by
    have hz : (1 : ℤ) ≤ ((c : ℤ) - c') ^ 2 + ((r : ℤ) - r') ^ 2 := by
      by_cases hcc : c = c'
      · have hrr : r ≠ r' := fun e => h (by rw [e, hcc])
        have := sq_pos_of_ne_zero (show ((r : ℤ) - r') ≠ 0 by omega)
        have := sq_nonneg ((c : ℤ) - c')
        omega
      · have := sq_pos_of_ne_zero (show ((c : ℤ) - c') ≠ 0 by omega)
        have := sq_nonneg ((r : ℤ) - r')
        omega
    exact_mod_cast hz
  simp only [planeDistSq]
  nlinarith [mul_le_mul_of_nonneg_right key (sq_nonneg s)]

theorem dotDrawing_shapes (nx ny : Nat) (s d : ℝ) (bg fg : Ink) :
    (dotDrawing (nx, ny) (s, s) d bg fg).shapes =
      .rect 0 0 (dotDrawing (nx, ny) (s, s) d bg fg).width (dotDrawing (nx, ny) (s, s) d bg fg).height bg ::
      .circle (pageMargin + d) (pageMargin + d) d fg ::
      (dotCentres nx ny ⟨pageMargin + d, pageMargin + d⟩ s).flatMap fun c => [Shape.circle c.x c.y (d / 2) fg,
        .circle c.x c.y (3 / 100 * d) bg] := by
  simp only [dotDrawing, dotCentres, pyRange, Int.toNat_natCast, List.flatMap_assoc, List.flatMap_map]

theorem mmUnit_pos : 0 < mmUnit := by norm_num [mmUnit]

theorem onPaper_mem (nx ny : Nat) (h : ny + 1 < 2 ^ 32) (o : V2) (s : ℝ) (P : V2 → Prop) :
    (∃ q ∈ (CircleTarget.mk ny nx (s / 1000)).createPoints, P (onPaper o q)) ↔ ∃ c ∈ dotCentres nx ny o (s * mmUnit), P c := by
  have e : ∀ c : ℝ, c * (s / 1000) * (72 / (254 / 10000)) = c * (s * mmUnit) := by intro c; rw [mmUnit]; ring
  constructor
  · rintro ⟨q, hq, hP⟩
    obtain ⟨c, r, hc, hr, rfl⟩ := (target_mem _ h q).1 hq
    refine ⟨_, mem_dotCentres.2 ⟨c, r, hc, hr, rfl⟩, ?_⟩
    simpa only [onPaper, e] using hP
  · rintro ⟨q, hq, hP⟩
    obtain ⟨c, r, hc, hr, rfl⟩ := mem_dotCentres.1 hq
    refine ⟨_, (target_mem _ h _).2 ⟨c, r, hc, hr, rfl⟩, ?_⟩
    simpa only [onPaper, e] using hP

/-- The printed page shows, in the right colours and to scale, the dots of the circle grid target with the same numbers and
spacing, and the large dot at its origin; the centres of all dots are on the page. -/
theorem C167_printed (nx ny : Nat) (hny : ny + 1 < 2 ^ 32) (s d : ℝ) (hd : 0 < d) (hs : 53 / 100 * d < s) (invert : Bool) :
    ∃ D o, dotTarget (nx, ny) (.num s) invert d = .ok D ∧
      (∀ q ∈ (CircleTarget.mk ny nx (s / 1000)).createPoints, OnPage D (onPaper o q)) ∧ ∀ p, OnPage D p →
      (CirclePattern ⟨ny, nx, s / 1000⟩ o (d * (72 / (254 / 10))) p ↔ inkAt D p = if invert then .white else .black) ∧
      (¬ CirclePattern ⟨ny, nx, s / 1000⟩ o (d * (72 / (254 / 10))) p ↔ inkAt D p = if invert then .black else .white) := by
  have hm := mmUnit_pos
  obtain ⟨k, hk⟩ : ∃ k, k = d * mmUnit := ⟨_, rfl⟩
  have hk0 : 0 < k := by rw [hk]; positivity
  have hks : 53 / 100 * k < s * mmUnit := by
    rw [hk, ← mul_assoc]; exact mul_lt_mul_of_pos_right hs hm
  have ek : d * (72 / (254 / 10)) = k := by rw [hk, mmUnit]; ring
  refine ⟨dotDrawing (nx, ny) (s * mmUnit, s * mmUnit) k (inkOf invert).1 (inkOf invert).2, ⟨pageMargin + k, pageMargin + k⟩,
    by rw [hk]; rfl, ?_, fun p hp => ?_⟩
  · by_contra hout
    push Not at hout
    obtain ⟨c, hc, hout⟩ := (onPaper_mem nx ny hny _ s fun c => ¬ OnPage (dotDrawing (nx, ny) (s * mmUnit, s * mmUnit) k (inkOf invert).1
      (inkOf invert).2) c).1 hout
    obtain ⟨i, j, hi, hj, rfl⟩ := mem_dotCentres.1 hc
    refine hout ?_
    have hs0 : 0 < s * mmUnit := by linarith
    have hi' : (i : ℝ) + 1 ≤ nx := by exact_mod_cast hi
    have hj' : (j : ℝ) + 1 ≤ ny := by exact_mod_cast hj
    have hi0 : 0 ≤ (i : ℝ) * (s * mmUnit) := by positivity
    have hj0 : 0 ≤ (j : ℝ) * (s * mmUnit) := by positivity
    have hmar : (0 : ℝ) < pageMargin := by norm_num [pageMargin]
    have h1 : (i : ℝ) * (s * mmUnit) ≤ ((nx : ℝ) - 1) * (s * mmUnit) := mul_le_mul_of_nonneg_right (by linarith) hs0.le
    have h2 : (j : ℝ) * (s * mmUnit) ≤ ((ny : ℝ) - 1) * (s * mmUnit) := mul_le_mul_of_nonneg_right (by linarith) hs0.le
    refine ⟨?_, ?_, ?_, ?_⟩ <;> simp only [dotDrawing, Int.cast_natCast] <;> linarith
  have hink : inkAt (dotDrawing (nx, ny) (s * mmUnit, s * mmUnit) k (inkOf invert).1 (inkOf invert).2) p =
      (open Classical in if CirclePattern ⟨ny, nx, s / 1000⟩ ⟨pageMargin + k, pageMargin + k⟩ k p then (inkOf invert).2
        else (inkOf invert).1) := by
    obtain ⟨p1, p2, p3, p4⟩ := hp
    rw [inkAt_eq, dotDrawing_shapes, List.foldl_cons, List.foldl_cons, paint_dots p _ _ _ _ (by linarith) (by linarith)]
    · have h1 := onPaper_mem nx ny hny ⟨pageMargin + k, pageMargin + k⟩ s (fun c => Within (k / 2) c p)
      have h2 := onPaper_mem nx ny hny ⟨pageMargin + k, pageMargin + k⟩ s (fun c => Within (3 / 100 * k) c p)
      have hC : CirclePattern ⟨ny, nx, s / 1000⟩ ⟨pageMargin + k, pageMargin + k⟩ k p ↔
          ((∃ c ∈ dotCentres nx ny ⟨pageMargin + k, pageMargin + k⟩ (s * mmUnit), Within (k / 2) c p) ∨
            Within k ⟨pageMargin + k, pageMargin + k⟩ p) ∧
          ¬ ∃ c ∈ dotCentres nx ny ⟨pageMargin + k, pageMargin + k⟩ (s * mmUnit), Within (3 / 100 * k) c p := by
        rw [← h1, ← h2, CirclePattern]
        simp only [not_exists, not_and]
      have hb : Covers (.rect 0 0 (dotDrawing (nx, ny) (s * mmUnit, s * mmUnit) k (inkOf invert).1 (inkOf invert).2).width
        (dotDrawing (nx, ny) (s * mmUnit, s * mmUnit) k (inkOf invert).1 (inkOf invert).2).height (inkOf invert).1) p :=
        ⟨p1, by linarith, p3, by linarith⟩
      have hb' : paint p .white (.rect 0 0 (dotDrawing (nx, ny) (s * mmUnit, s * mmUnit) k (inkOf invert).1 (inkOf invert).2).width
        (dotDrawing (nx, ny) (s * mmUnit, s * mmUnit) k (inkOf invert).1 (inkOf invert).2).height (inkOf invert).1) =
          (inkOf invert).1 := by rw [paint, if_pos hb]; rfl
      rw [hb', paint_circle]
      by_cases hP : CirclePattern ⟨ny, nx, s / 1000⟩ ⟨pageMargin + k, pageMargin + k⟩ k p
      · rw [if_pos hP]
        obtain ⟨g1, g2⟩ := hC.1 hP
        rw [if_neg g2]
        split_ifs with g3 g4
        · rfl
        · rfl
        · exact absurd g1 (not_or.2 ⟨g3, g4⟩)
      · rw [if_neg hP]
        split_ifs with g2 g3 g4
        · rfl
        · exact absurd (hC.2 ⟨.inl g3, g2⟩) hP
        · exact absurd (hC.2 ⟨.inr g4, g2⟩) hP
        · rfl
    · rintro c hc c' hc' hne ⟨h1, h2⟩
      have h3 := dotCentres_apart hc hc' hne
      have h4 := within_apart (by linarith) (by linarith) h1 h2
      nlinarith
  rw [ek, hink]
  cases invert <;> by_cases h : CirclePattern ⟨ny, nx, s / 1000⟩ ⟨pageMargin + k, pageMargin + k⟩ k p <;> simp [h, inkOf]

/-- The default target of the script. -/
example : (10 : Nat) + 1 < 2 ^ 32 ∧ (0 : ℝ) < 10 ∧ (53 / 100 * 10 : ℝ) < 25 := by norm_num

/-! ## C168 All printed dots are complete and separate -/

theorem inkOf_ne (invert : Bool) : (inkOf invert).1 ≠ (inkOf invert).2 := by cases invert <;> simp [inkOf]

theorem mem_dotsOf {nx ny : Nat} {s d : ℝ} {bg fg : Ink} (hbf : bg ≠ fg) (e : V2 × ℝ) :
    e ∈ dotsOf fg (dotDrawing (nx, ny) (s, s) d bg fg) ↔ e = (⟨pageMargin + d, pageMargin + d⟩, d) ∨
      ∃ c ∈ dotCentres nx ny ⟨pageMargin + d, pageMargin + d⟩ s, e = (c, d / 2) := by
  rw [dotsOf, dotDrawing_shapes]
  simp only [List.mem_filterMap, List.mem_cons, List.mem_flatMap, List.not_mem_nil, or_false]
  constructor
  · rintro ⟨sh, rfl | rfl | ⟨c, hc, rfl | rfl⟩, h⟩
    · cases h
    · simp only [if_true] at h; cases h; exact .inl rfl
    · simp only [if_true] at h; cases h; exact .inr ⟨c, hc, rfl⟩
    · simp only [if_neg hbf] at h; cases h
  · rintro (rfl | ⟨c, hc, rfl⟩)
    · exact ⟨_, .inr (.inl rfl), by simp only [if_true]⟩
    · exact ⟨_, .inr (.inr ⟨c, hc, .inl rfl⟩), by simp only [if_true]⟩

/-- A disc is on the page exactly if its extreme points are. -/
theorem disc_on_page {D : Drawing} {c : V2} {r : ℝ} (hr : 0 ≤ r) : (∀ p, Within r c p → OnPage D p) ↔
    r ≤ c.x ∧ c.x + r ≤ D.width ∧ r ≤ c.y ∧ c.y + r ≤ D.height := by
  constructor
  · intro h
    have h1 := h ⟨c.x - r, c.y⟩ (by simp [Within, planeDistSq])
    have h2 := h ⟨c.x + r, c.y⟩ (by simp [Within, planeDistSq])
    have h3 := h ⟨c.x, c.y - r⟩ (by simp [Within, planeDistSq])
    have h4 := h ⟨c.x, c.y + r⟩ (by simp [Within, planeDistSq])
    simp only [OnPage] at h1 h2 h3 h4
    exact ⟨by linarith [h1.1], h2.2.1, by linarith [h3.2.2.1], h4.2.2.2⟩
  · rintro ⟨h1, h2, h3, h4⟩ p hp
    unfold Within planeDistSq at hp
    have hx := abs_le.1 (abs_le_of_sq_le_sq (show (p.x - c.x) ^ 2 ≤ r ^ 2 by nlinarith [sq_nonneg (p.y - c.y)]) hr)
    have hy := abs_le.1 (abs_le_of_sq_le_sq (show (p.y - c.y) ^ 2 ≤ r ^ 2 by nlinarith [sq_nonneg (p.x - c.x)]) hr)
    exact ⟨by linarith [hx.1], by linarith [hx.2], by linarith [hy.1], by linarith [hy.2]⟩

/-- Full statement of C168: whatever numbers are given, all printed dots are complete and separate. The dots are complete
exactly if their size is at most two inches, and the large dot, if it is the end of a row or column, at most one inch larger
than the grid. Missing: other sizes (`C168_negation`). -/
theorem C168_complete_partial (nx ny : Nat) (hx : 0 < nx) (hy : 0 < ny) (s d : ℝ) (hs : 0 ≤ s) (hd : 0 ≤ d) (invert : Bool) (D : Drawing)
    (h : dotTarget (nx, ny) (.num s) invert d = .ok D) :
    DotsComplete (if invert then .white else .black) D ↔
      d ≤ 2 * (254 / 10) ∧ d ≤ ((nx : ℝ) - 1) * s + 254 / 10 ∧ d ≤ ((ny : ℝ) - 1) * s + 254 / 10 := by
  have hm := mmUnit_pos
  have hfg : (if invert then Ink.white else .black) = (inkOf invert).2 := by cases invert <;> rfl
  rw [hfg]
  cases h
  have hinch : pageMargin * 2 = 254 / 10 * mmUnit := by norm_num [pageMargin, mmUnit]
  have hpm : 0 < pageMargin := by norm_num [pageMargin]
  have hk0 : 0 ≤ d * mmUnit := by positivity
  have hS0 : 0 ≤ s * mmUnit := by positivity
  have e1 : d ≤ 2 * (254 / 10) ↔ d * mmUnit ≤ 4 * pageMargin := by
    rw [show (4 : ℝ) * pageMargin = 2 * (254 / 10) * mmUnit by linarith]
    exact (mul_le_mul_iff_left₀ hm).symm
  have e2 : ∀ n : ℝ, d ≤ (n - 1) * s + 254 / 10 ↔ d * mmUnit ≤ (n - 1) * (s * mmUnit) + 2 * pageMargin := by
    intro n
    rw [show (n - 1) * (s * mmUnit) + 2 * pageMargin = ((n - 1) * s + 254 / 10) * mmUnit by linarith]
    exact (mul_le_mul_iff_left₀ hm).symm
  rw [e1, e2, e2, DotsComplete]
  generalize d * mmUnit = k at *
  generalize s * mmUnit = S at *
  have hw : (dotDrawing (nx, ny) (S, S) k (inkOf invert).1 (inkOf invert).2).width = ((nx : ℝ) - 1) * S + k + pageMargin * 3 := by
    simp [dotDrawing]
  have hh : (dotDrawing (nx, ny) (S, S) k (inkOf invert).1 (inkOf invert).2).height = ((ny : ℝ) - 1) * S + k + pageMargin * 3 := by
    simp [dotDrawing]
  have hnx : ((nx - 1 : Nat) : ℝ) = (nx : ℝ) - 1 := by rw [Nat.cast_sub (by omega)]; simp
  have hny : ((ny - 1 : Nat) : ℝ) = (ny : ℝ) - 1 := by rw [Nat.cast_sub (by omega)]; simp
  constructor
  · intro hall
    have hb := (disc_on_page hk0).1 (hall _ ((mem_dotsOf (inkOf_ne invert) _).2 (.inl rfl)))
    have hsm := (disc_on_page (by linarith)).1 (hall _ ((mem_dotsOf (inkOf_ne invert) _).2 (.inr ⟨_, mem_dotCentres.2
      ⟨nx - 1, ny - 1, by omega, by omega, rfl⟩, rfl⟩)))
    simp only [hw, hh, hnx, hny] at hb hsm
    refine ⟨by linarith [hsm.2.1], by linarith [hb.2.1], by linarith [hb.2.2.2]⟩
  · rintro ⟨h1, h2, h3⟩ e he
    rcases (mem_dotsOf (inkOf_ne invert) _).1 he with rfl | ⟨c, hc, rfl⟩
    · rw [disc_on_page hk0, hw, hh]
      refine ⟨?_, ?_, ?_, ?_⟩ <;> simp only <;> linarith
    · rw [disc_on_page (by simp only; linarith), hw, hh]
      obtain ⟨i, j, hi, hj, rfl⟩ := mem_dotCentres.1 hc
      have hi' : (i : ℝ) * S ≤ ((nx : ℝ) - 1) * S := by
        rw [← hnx]; exact mul_le_mul_of_nonneg_right (by exact_mod_cast (by omega : i ≤ nx - 1)) hS0
      have hj' : (j : ℝ) * S ≤ ((ny : ℝ) - 1) * S := by
        rw [← hny]; exact mul_le_mul_of_nonneg_right (by exact_mod_cast (by omega : j ≤ ny - 1)) hS0
      have : 0 ≤ (i : ℝ) * S := by positivity
      have : 0 ≤ (j : ℝ) * S := by positivity
      refine ⟨?_, ?_, ?_, ?_⟩ <;> simp only <;> linarith

/-- They are separate exactly if the spacing is more than one and a half dots. Missing from the full statement: smaller
spacings. -/
theorem C168_separate_partial (nx ny : Nat) (hx : 0 < nx) (hy : 0 < ny) (hxy : 1 < nx * ny) (s d : ℝ) (hs : 0 < s) (hd : 0 ≤ d)
    (invert : Bool) (D : Drawing) (h : dotTarget (nx, ny) (.num s) invert d = .ok D) :
    DotsSeparate (if invert then .white else .black) D ↔ 3 / 2 * d < s := by
  have hm := mmUnit_pos
  have hfg : (if invert then Ink.white else .black) = (inkOf invert).2 := by cases invert <;> rfl
  rw [hfg]
  cases h
  have hk0 : 0 ≤ d * mmUnit := by positivity
  have hS0 : 0 < s * mmUnit := by positivity
  have e1 : 3 / 2 * d < s ↔ 3 / 2 * (d * mmUnit) < s * mmUnit := by
    rw [← mul_assoc]; exact (mul_lt_mul_iff_left₀ hm).symm
  rw [e1, DotsSeparate]
  generalize d * mmUnit = k at *
  generalize s * mmUnit = S at *
  constructor
  · intro hall
    by_contra hlt
    rw [not_lt] at hlt
    -- the neighbour of the large dot
    obtain ⟨c, r, hc, hr, hcr⟩ : ∃ c r : Nat, c < nx ∧ r < ny ∧ (c = 1 ∧ r = 0 ∨ c = 0 ∧ r = 1) := by
      by_cases h1 : 1 < nx
      · exact ⟨1, 0, h1, hy, .inl ⟨rfl, rfl⟩⟩
      · have : nx = 1 := by omega
        subst this
        exact ⟨0, 1, hx, by omega, .inr ⟨rfl, rfl⟩⟩
    refine hall _ ((mem_dotsOf (inkOf_ne invert) _).2 (.inl rfl)) _ ((mem_dotsOf (inkOf_ne invert) _).2 (.inr ⟨_, mem_dotCentres.2
      ⟨c, r, hc, hr, rfl⟩, rfl⟩)) ?_ ⟨pageMargin + k + c * (2 / 3 * S), pageMargin + k + r * (2 / 3 * S)⟩ ⟨?_, ?_⟩
    · rcases hcr with ⟨rfl, rfl⟩ | ⟨rfl, rfl⟩ <;> simp [hS0.ne']
    · rcases hcr with ⟨rfl, rfl⟩ | ⟨rfl, rfl⟩ <;> simp only [Within, planeDistSq] <;> push_cast <;> nlinarith
    · rcases hcr with ⟨rfl, rfl⟩ | ⟨rfl, rfl⟩ <;> simp only [Within, planeDistSq] <;> push_cast <;> nlinarith
  · intro hlt e he e' he' hne p hp
    have ho : (⟨pageMargin + k, pageMargin + k⟩ : V2) ∈ dotCentres nx ny ⟨pageMargin + k, pageMargin + k⟩ S :=
      mem_dotCentres.2 ⟨0, 0, hx, hy, by simp⟩
    rcases (mem_dotsOf (inkOf_ne invert) _).1 he with rfl | ⟨c, hc, rfl⟩ <;>
      rcases (mem_dotsOf (inkOf_ne invert) _).1 he' with rfl | ⟨c', hc', rfl⟩
    · exact hne rfl
    · have h1 := dotCentres_apart ho hc' hne
      have h2 := within_apart hk0 (by simp only; linarith) hp.1 hp.2
      simp only at h1 h2
      nlinarith
    · have h1 := dotCentres_apart hc ho hne
      have h2 := within_apart (by simp only; linarith) hk0 hp.1 hp.2
      simp only at h1 h2
      nlinarith
    · have h1 := dotCentres_apart hc hc' hne
      have h2 := within_apart (by simp only; linarith) (by simp only; linarith) hp.1 hp.2
      simp only at h1 h2
      nlinarith

/-- Numbers that give incomplete or merged dots are accepted. -/
theorem C168_negation (nx ny : Nat) (hx : 1 < nx) (hy : 0 < ny) (invert : Bool) (s d : ℝ) (hs : 0 < s) (hd : 2 * (254 / 10) < d ∨ s ≤ 3 / 2 * d) :
    ∃ D, dotTarget (nx, ny) (.num s) invert d = .ok D ∧
      ¬ (DotsComplete (if invert then .white else .black) D ∧ DotsSeparate (if invert then .white else .black) D) := by
  refine ⟨_, rfl, ?_⟩
  have hd0 : 0 ≤ d := by rcases hd with h | h <;> linarith
  rintro ⟨h1, h2⟩
  have h1 := (C168_complete_partial nx ny (by omega) hy s d hs.le hd0 invert _ rfl).1 h1
  have h2 := (C168_separate_partial nx ny (by omega) hy (by nlinarith) s d hs hd0 invert _ rfl).1 h2
  rcases hd with h | h
  · linarith [h1.1]
  · linarith

/-- The default target is complete and separate; with dots of 20 mm it is not. -/
example : ((10 : ℝ) ≤ 2 * (254 / 10) ∧ (3 / 2 * 10 : ℝ) < 25) ∧ (25 : ℝ) ≤ 3 / 2 * 20 := by norm_num

/-! ## C169 The checkerboard has the requested number of crossings -/

theorem ink_black (p : V2) (l : List Shape) (hl : ∀ s ∈ l, fillOf s = .black) :
    l.foldl (paint p) .white = .black ↔ ∃ s ∈ l, Covers s p := by
  induction l using List.reverseRecOn with
  | nil => simp
  | append_singleton l s ih =>
    rw [List.foldl_append, List.foldl_cons, List.foldl_nil, paint]
    by_cases h : Covers s p
    · rw [if_pos h]
      exact ⟨fun _ => ⟨s, by simp, h⟩, fun _ => hl s (by simp)⟩
    · rw [if_neg h, ih (fun s hs => hl s (by simp [hs]))]
      constructor
      · rintro ⟨s', hs', h'⟩; exact ⟨s', by simp [hs'], h'⟩
      · rintro ⟨s', hs', h'⟩
        rcases List.mem_append.1 hs' with h1 | h1
        · exact ⟨s', h1, h'⟩
        · rw [List.mem_singleton] at h1; exact absurd (h1 ▸ h') h

/-- The colour of field `(i, j)`. -/
def Dark (nx ny : Nat) (i j : Int) : Prop := 0 ≤ i ∧ i < nx ∧ 0 ≤ j ∧ j < ny ∧ (i + j) % 2 = 0

theorem checker_ink (nx ny : Nat) (s : ℝ) (hs : 0 < s) (p : V2) (i j : Int)
    (hx : pageMargin + i * s < p.x ∧ p.x < pageMargin + (i + 1) * s) (hy : pageMargin + j * s < p.y ∧ p.y < pageMargin + (j + 1) * s) :
    inkAt (checkerDrawing (nx, ny) (s, s)) p = .black ↔ Dark nx ny i j := by
  have hcell : ∀ {u : ℝ} {a : Int} {c : Nat}, pageMargin + a * s < u ∧ u < pageMargin + (a + 1) * s →
      pageMargin + c * s ≤ u → u ≤ pageMargin + c * s + s → (c : Int) = a := by
    intro u a c h h1 h2
    have l1 : (a : ℝ) < c + 1 := by
      by_contra hc; rw [not_lt] at hc; nlinarith [mul_le_mul_of_nonneg_right hc hs.le]
    have l2 : (c : ℝ) < a + 1 := by
      by_contra hc; rw [not_lt] at hc; nlinarith [mul_le_mul_of_nonneg_right hc hs.le]
    have l1' : a < (c : Int) + 1 := by exact_mod_cast l1
    have l2' : (c : Int) < a + 1 := by exact_mod_cast l2
    omega
  rw [inkAt_eq, ink_black]
  · simp only [checkerDrawing, pyRange, Int.toNat_natCast, List.mem_flatMap, List.mem_range]
    constructor
    · rintro ⟨sh, ⟨c, hc, r, hr, hsh⟩, hcov⟩
      split_ifs at hsh with hpar
      · rw [List.mem_singleton] at hsh
        subst hsh
        obtain ⟨h1, h2, h3, h4⟩ := hcov
        have e1 := hcell hx h1 h2
        have e2 := hcell hy h3 h4
        refine ⟨?_, ?_, ?_, ?_, ?_⟩ <;> omega
      · simp at hsh
    · rintro ⟨h1, h2, h3, h4, h5⟩
      obtain ⟨c, rfl⟩ := Int.eq_ofNat_of_zero_le h1
      obtain ⟨r, rfl⟩ := Int.eq_ofNat_of_zero_le h3
      refine ⟨.rect (pageMargin + (c : ℝ) * s) (pageMargin + (r : ℝ) * s) s s .black, ⟨c, by omega, r, by omega, ?_⟩, ?_⟩
      · rw [if_pos (by omega)]; exact List.mem_singleton.2 rfl
      · push_cast at hx hy
        exact ⟨hx.1.le, by linarith [hx.2], hy.1.le, by linarith [hy.2]⟩
  · intro sh hsh
    simp only [checkerDrawing, List.mem_flatMap] at hsh
    obtain ⟨c, -, r, -, hsh⟩ := hsh
    split_ifs at hsh
    · rw [List.mem_singleton] at hsh; rw [hsh]; rfl
    · simp at hsh

/-- The fields on both sides of a coordinate. -/
theorem sides (s : ℝ) (hs : 0 < s) (u : ℝ) : ∃ i i' : Int, ∃ e > 0, (i' = i ∨ i' = i - 1 ∧ u = pageMargin + i * s) ∧
    ∀ a, 0 < a → a < e → (pageMargin + i * s < u + a ∧ u + a < pageMargin + (i + 1) * s) ∧
      (pageMargin + i' * s < u - a ∧ u - a < pageMargin + (i' + 1) * s) := by
  obtain ⟨i, hi⟩ : ∃ i : Int, i = ⌊(u - pageMargin) / s⌋ := ⟨_, rfl⟩
  have h1 : (i : ℝ) * s ≤ u - pageMargin := by
    rw [← le_div_iff₀ hs, hi]; exact Int.floor_le _
  have h2 : u - pageMargin < ((i : ℝ) + 1) * s := by
    rw [← div_lt_iff₀ hs, hi]; exact Int.lt_floor_add_one _
  rcases h1.lt_or_eq with h | h
  · refine ⟨i, i, min (u - pageMargin - i * s) (((i : ℝ) + 1) * s - (u - pageMargin)), lt_min (by linarith) (by linarith), .inl rfl,
      fun a ha hae => ?_⟩
    obtain ⟨h3, h4⟩ := lt_min_iff.1 hae
    refine ⟨⟨?_, ?_⟩, ?_, ?_⟩ <;> linarith
  · refine ⟨i, i - 1, s, hs, .inr ⟨rfl, by linarith⟩, fun a ha hae => ?_⟩
    push_cast
    refine ⟨⟨?_, ?_⟩, ?_, ?_⟩ <;> linarith

theorem checker_crossing (nx ny : Nat) (s : ℝ) (hs : 0 < s) (p : V2) : Crossing (checkerDrawing (nx, ny) (s, s)) p ↔
    ∃ i j : Nat, 0 < i ∧ i < nx ∧ 0 < j ∧ j < ny ∧ p = ⟨pageMargin + i * s, pageMargin + j * s⟩ := by
  obtain ⟨i, i', e, he, hi, hx⟩ := sides s hs p.x
  obtain ⟨j, j', f, hf, hj, hy⟩ := sides s hs p.y
  have hink : ∀ (q q' : V2) (P Q : Prop), (inkAt (checkerDrawing (nx, ny) (s, s)) q = .black ↔ P) →
      (inkAt (checkerDrawing (nx, ny) (s, s)) q' = .black ↔ Q) →
      (inkAt (checkerDrawing (nx, ny) (s, s)) q = inkAt (checkerDrawing (nx, ny) (s, s)) q' ↔ (P ↔ Q)) := by
    intro q q' P Q h1 h2
    rw [← h1, ← h2]
    cases inkAt (checkerDrawing (nx, ny) (s, s)) q <;> cases inkAt (checkerDrawing (nx, ny) (s, s)) q' <;> simp
  have key : ∀ a b, 0 < a → a < e → 0 < b → b < f →
      ((inkAt (checkerDrawing (nx, ny) (s, s)) ⟨p.x + a, p.y + b⟩ = inkAt (checkerDrawing (nx, ny) (s, s)) ⟨p.x - a, p.y - b⟩ ∧
        inkAt (checkerDrawing (nx, ny) (s, s)) ⟨p.x + a, p.y - b⟩ = inkAt (checkerDrawing (nx, ny) (s, s)) ⟨p.x - a, p.y + b⟩ ∧
        inkAt (checkerDrawing (nx, ny) (s, s)) ⟨p.x + a, p.y + b⟩ ≠ inkAt (checkerDrawing (nx, ny) (s, s)) ⟨p.x + a, p.y - b⟩) ↔
      ((Dark nx ny i j ↔ Dark nx ny i' j') ∧ (Dark nx ny i j' ↔ Dark nx ny i' j) ∧ ¬ (Dark nx ny i j ↔ Dark nx ny i j'))) := by
    intro a b ha ha' hb hb'
    obtain ⟨x1, x2⟩ := hx a ha ha'
    obtain ⟨y1, y2⟩ := hy b hb hb'
    have k1 := checker_ink nx ny s hs ⟨p.x + a, p.y + b⟩ i j x1 y1
    have k2 := checker_ink nx ny s hs ⟨p.x - a, p.y - b⟩ i' j' x2 y2
    have k3 := checker_ink nx ny s hs ⟨p.x + a, p.y - b⟩ i j' x1 y2
    have k4 := checker_ink nx ny s hs ⟨p.x - a, p.y + b⟩ i' j x2 y1
    rw [hink _ _ _ _ k1 k2, hink _ _ _ _ k3 k4, Ne, hink _ _ _ _ k1 k3]
  constructor
  · rintro ⟨g, hg, hall⟩
    have hlt : 0 < min g (min e f) := lt_min hg (lt_min he hf)
    have l1 : min g (min e f) / 2 < g := lt_of_lt_of_le (half_lt_self hlt) (min_le_left _ _)
    have l2 : min g (min e f) / 2 < e := lt_of_lt_of_le (half_lt_self hlt) ((min_le_right _ _).trans (min_le_left _ _))
    have l3 : min g (min e f) / 2 < f := lt_of_lt_of_le (half_lt_self hlt) ((min_le_right _ _).trans (min_le_right _ _))
    obtain ⟨d1, d2, d3⟩ := (key _ _ (half_pos hlt) l2 (half_pos hlt) l3).1 (hall _ _ (half_pos hlt) l1 (half_pos hlt) l1)
    rcases hi with rfl | ⟨rfl, ei⟩
    · exact absurd d1 d3
    rcases hj with rfl | ⟨rfl, ej⟩
    · exact absurd Iff.rfl d3
    unfold Dark at d1 d2 d3
    have hi0 : 0 < i ∧ i < nx ∧ 0 < j ∧ j < ny := by
      by_contra hc
      apply d3
      omega
    refine ⟨i.toNat, j.toNat, by omega, by omega, by omega, by omega, ?_⟩
    have c1 : ((i.toNat : Nat) : ℝ) = i := by exact_mod_cast Int.toNat_of_nonneg hi0.1.le
    have c2 : ((j.toNat : Nat) : ℝ) = j := by exact_mod_cast Int.toNat_of_nonneg hi0.2.2.1.le
    rw [c1, c2]
    exact V2.ext ei ej
  · rintro ⟨a, b, ha, ha', hb, hb', hp⟩
    have cell : ∀ {u : ℝ} {i i' : Int} {e : ℝ} {a : Nat}, 0 < e → u = pageMargin + a * s → (i' = i ∨ i' = i - 1 ∧ u = pageMargin + i * s) →
        (∀ t, 0 < t → t < e → (pageMargin + i * s < u + t ∧ u + t < pageMargin + (i + 1) * s) ∧
          (pageMargin + i' * s < u - t ∧ u - t < pageMargin + (i' + 1) * s)) → i = a ∧ i' = a - 1 := by
      intro u i i' e a he hu hii hcell
      have hge : (a : ℝ) < i + 1 := by
        have := (hcell (e / 2) (by linarith) (by linarith)).1.2
        by_contra hc; rw [not_lt] at hc; nlinarith [mul_le_mul_of_nonneg_right hc hs.le]
      have hle : (i : ℝ) ≤ a := by
        by_contra hc; rw [not_le] at hc
        have h1 : (a : ℝ) + 1 ≤ i := by exact_mod_cast (by exact_mod_cast hc : (a : Int) < i)
        have := (hcell (min (e / 2) (s / 2)) (lt_min (by linarith) (by linarith)) (lt_of_le_of_lt (min_le_left _ _) (by linarith))).1.1
        have h2 : min (e / 2) (s / 2) ≤ s / 2 := min_le_right _ _
        nlinarith [mul_le_mul_of_nonneg_right h1 hs.le]
      have h1 : (a : Int) < i + 1 := by exact_mod_cast hge
      have h2 : i ≤ (a : Int) := by exact_mod_cast hle
      have hia : i = a := by omega
      refine ⟨hia, ?_⟩
      rcases hii with rfl | ⟨rfl, -⟩
      · exfalso
        have := (hcell (e / 2) (by linarith) (by linarith)).2.1
        rw [hia] at this
        push_cast at this
        linarith
      · omega
    obtain ⟨rfl, rfl⟩ := cell he (by rw [hp]) hi hx
    obtain ⟨rfl, rfl⟩ := cell hf (by rw [hp]) hj hy
    refine ⟨min e f, lt_min he hf, fun u v hu hu' hv hv' => (key u v hu (lt_of_lt_of_le hu' (min_le_left _ _)) hv
      (lt_of_lt_of_le hv' (min_le_right _ _))).2 ?_⟩
    unfold Dark
    refine ⟨?_, ?_, ?_⟩ <;> omega

theorem checker_count (nx ny : Nat) (s : ℝ) (hs : 0 < s) :
    {p | Crossing (checkerDrawing (nx, ny) (s, s)) p}.ncard = (nx - 1) * (ny - 1) := by
  classical
  have : {p | Crossing (checkerDrawing (nx, ny) (s, s)) p} = ((Finset.Ioo 0 nx ×ˢ Finset.Ioo 0 ny).image
      fun e : Nat × Nat => (⟨pageMargin + e.1 * s, pageMargin + e.2 * s⟩ : V2) : Finset V2) := by
    ext p
    simp only [Set.mem_setOf_eq, checker_crossing nx ny s hs p, Finset.coe_image, Set.mem_image, Finset.mem_coe, Finset.mem_product,
      Finset.mem_Ioo, Prod.exists]
    constructor
    · rintro ⟨i, j, h1, h2, h3, h4, rfl⟩; exact ⟨i, j, ⟨⟨h1, h2⟩, h3, h4⟩, rfl⟩
    · rintro ⟨i, j, ⟨⟨h1, h2⟩, h3, h4⟩, rfl⟩; exact ⟨i, j, h1, h2, h3, h4, rfl⟩
  rw [this, Set.ncard_coe_finset, Finset.card_image_of_injective]
  · simp
  · rintro ⟨i, j⟩ ⟨i', j'⟩ h
    simp only [V2.mk.injEq, add_right_inj] at h
    have h1 := mul_right_cancel₀ hs.ne' h.1
    have h2 := mul_right_cancel₀ hs.ne' h.2
    exact Prod.ext (by exact_mod_cast h1) (by exact_mod_cast h2)

/-- Full statement of C169: the printed checkerboard has as many crossings in either direction as requested, `s` millimetres
apart. It has crossings `s` millimetres apart, starting one field inside the margin of half an inch. Missing: their number is one
less in both directions (`C169_negation`). -/
theorem C169_partial (a : TargetArgs) (nx ny : Nat) (hk : a.kind = .checker) (hx : a.gridX = nx) (hy : a.gridY = ny)
    (hs : 0 < a.spacing) : ∃ D, printTarget a = .ok D ∧ ∀ p, Crossing D p ↔ ∃ i j : Nat, 0 < i ∧ i < nx ∧ 0 < j ∧ j < ny ∧
      p = ⟨36 + i * (a.spacing * (72 / (254 / 10))), 36 + j * (a.spacing * (72 / (254 / 10)))⟩ := by
  refine ⟨checkerDrawing (nx, ny) (a.spacing * mmUnit, a.spacing * mmUnit), ?_, fun p => ?_⟩
  · rw [printTarget, hk, hx, hy]; rfl
  · rw [checker_crossing nx ny _ (mul_pos hs mmUnit_pos) p]
    have e1 : a.spacing * mmUnit = a.spacing * (72 / (254 / 10)) := by rw [mmUnit]; ring
    have e2 : pageMargin = 36 := by rw [pageMargin]; norm_num
    rw [e1, e2]

/-- No checkerboard has the requested number of crossings: a row and a column are missing. -/
theorem C169_negation (a : TargetArgs) (nx ny : Nat) (hk : a.kind = .checker) (hx : a.gridX = nx) (hy : a.gridY = ny)
    (hx0 : 0 < nx) (hy0 : 0 < ny) (hs : 0 < a.spacing) : ∃ D, printTarget a = .ok D ∧
      {p | Crossing D p}.ncard = (nx - 1) * (ny - 1) ∧ {p | Crossing D p}.ncard < nx * ny := by
  refine ⟨checkerDrawing (nx, ny) (a.spacing * mmUnit, a.spacing * mmUnit), ?_, checker_count nx ny _ (mul_pos hs mmUnit_pos), ?_⟩
  · rw [printTarget, hk, hx, hy]; rfl
  · rw [checker_count nx ny _ (mul_pos hs mmUnit_pos)]
    exact Nat.mul_lt_mul'' (by omega) (by omega)

/-- `calibration_target.py checker 9 7 --spacing 30`. -/
example : ∃ D, printTarget { kind := .checker, gridX := 9, gridY := 7, spacing := 30 } = .ok D ∧ {p | Crossing D p}.ncard = 48 := by
  obtain ⟨D, h, h', -⟩ := C169_negation { kind := .checker, gridX := 9, gridY := 7, spacing := 30 } 9 7 rfl rfl rfl (by norm_num)
    (by norm_num) (by norm_num)
  exact ⟨D, h, h'⟩

/-! ## C170 The options of the script mean what their descriptions say -/

/-- Full statement of C170: dots are white on black if the word after `--invert` says "true", and black on white otherwise; the
checkerboard is inverted likewise; the spacing can be given separately for both directions. They are white on black exactly if
there is a word and it is not empty. Missing: words that say "false", checkerboards and separate spacings (`C170_negation`). -/
theorem C170_partial (a : TargetArgs) (nx ny : Nat) (hk : a.kind = .dot) (hx : a.gridX = nx) (hy : a.gridY = ny)
    (hny : ny + 1 < 2 ^ 32) (hd : 0 < a.dotSize) (hs : 53 / 100 * a.dotSize < a.spacing) :
    ∃ D o, printTarget a = .ok D ∧ (∀ q ∈ (CircleTarget.mk ny nx (a.spacing / 1000)).createPoints, OnPage D (onPaper o q)) ∧
      ∀ p, OnPage D p → ((∃ w, a.invert = some w ∧ w ≠ "") →
        (inkAt D p = .white ↔ CirclePattern ⟨ny, nx, a.spacing / 1000⟩ o (a.dotSize * (72 / (254 / 10))) p)) ∧
      ((a.invert = none ∨ a.invert = some "") →
        (inkAt D p = .black ↔ CirclePattern ⟨ny, nx, a.spacing / 1000⟩ o (a.dotSize * (72 / (254 / 10))) p)) := by
  obtain ⟨D, o, h, hon, h'⟩ := C167_printed nx ny hny a.spacing a.dotSize hd hs a.inverted
  refine ⟨D, o, ?_, hon, fun p hp => ⟨?_, ?_⟩⟩
  · rw [printTarget, hk, hx, hy]; exact h
  · rintro ⟨w, hw, hne⟩
    have hi : a.inverted = true := by
      rw [TargetArgs.inverted, hw]
      simp [hne]
    have := (h' p hp).1
    rw [hi, if_pos rfl] at this
    exact this.symm
  · intro hw
    have hi : a.inverted = false := by
      rw [TargetArgs.inverted]
      rcases hw with hw | hw <;> rw [hw] <;> rfl
    have := (h' p hp).1
    rw [hi, if_neg (by simp)] at this
    exact this.symm

/-- `--invert False` (or `no`, `0`, …) inverts; a checkerboard is never inverted; separate spacings fail. -/
theorem C170_negation :
    (∀ w ∈ ["False", "false", "no", "0"], ∀ nx ny : Nat, ny + 1 < 2 ^ 32 → ∀ s d : ℝ, 0 < d → 53 / 100 * d < s →
      ∃ D o, printTarget { kind := .dot, gridX := nx, gridY := ny, spacing := s, dotSize := d, invert := some w } = .ok D ∧
        (∀ q ∈ (CircleTarget.mk ny nx (s / 1000)).createPoints, OnPage D (onPaper o q)) ∧
        ∀ p, OnPage D p → (inkAt D p = .white ↔ CirclePattern ⟨ny, nx, s / 1000⟩ o (d * (72 / (254 / 10))) p)) ∧
    (∀ (a : TargetArgs) w, a.kind = .checker → printTarget { a with invert := w } = printTarget a) ∧
    (∀ count (sx sy : ℝ) invert d, dotTarget count (.seq [sx, sy]) invert d = .throw .other ∧
      checkerTarget count (.seq [sx, sy]) invert = .throw .other) := by
  refine ⟨fun w hw nx ny hny s d hd hs => ?_, fun a w hk => ?_, fun _ _ _ _ _ => ⟨rfl, rfl⟩⟩
  · obtain ⟨D, o, h, hon, h'⟩ := C170_partial { kind := .dot, gridX := nx, gridY := ny, spacing := s, dotSize := d, invert := some w } nx ny
      rfl rfl rfl hny hd hs
    refine ⟨D, o, h, hon, fun p hp => (h' p hp).1 ⟨w, rfl, ?_⟩⟩
    simp only [List.mem_cons, List.not_mem_nil, or_false] at hw
    rcases hw with rfl | rfl | rfl | rfl <;> decide
  · unfold printTarget
    rw [hk]
    rfl

/-- `calibration_target.py dot 10 10 --invert False`. -/
example : ∃ a : TargetArgs, a.kind = .dot ∧ a.invert = some "False" ∧ a.gridX = (10 : Nat) ∧ 0 < a.dotSize ∧
    53 / 100 * a.dotSize < a.spacing ∧ ∃ w, a.invert = some w ∧ w ≠ "" :=
  ⟨{ kind := .dot, gridX := 10, gridY := 10, invert := some "False" }, rfl, rfl, rfl, by norm_num, by norm_num, _, rfl, by decide⟩

end RCT
