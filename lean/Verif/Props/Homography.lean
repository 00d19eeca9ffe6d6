import Verif.Model.Homography
import Verif.Spec.Homography
import Verif.Lemmas.Vec
import Mathlib.Tactic.FinCases

/-!
# Homography check: C50, C51, C52, C53, C95
-/

namespace RCT
open Spec

/-! ## C50 Grid sampler -/

theorem szMul_of_lt {a b : Nat} (h : a * b < 2 ^ 64) : szMul a b = a * b := Nat.mod_eq_of_lt h

theorem szSub_of_le {a b : Nat} (h : b ≤ a) (ha : a < 2 ^ 64) : szSub a b = a - b := by
  unfold szSub; omega

/-- The sampler accepts exactly the grids with at least eight grid points. -/
theorem C50_accepts (rows cols stride : Nat) (h : rows * cols < 2 ^ 64) :
    (gridSampler rows cols stride).Returns ↔ 8 ≤ rows * cols := by
  unfold gridSampler
  rw [szMul_of_lt h]
  simp only
  split
  · simp; omega
  · simp; omega

/-- It throws otherwise. -/
theorem C50_rejects (rows cols stride : Nat) (h : rows * cols < 8) :
    gridSampler rows cols stride = .throw .runtimeError := by
  unfold gridSampler
  rw [szMul_of_lt (by omega), if_pos (by omega)]

theorem grid_ne_zero {rows cols : Nat} (h : 8 ≤ rows * cols) : 1 ≤ rows ∧ 1 ≤ cols := by
  constructor
  · rcases Nat.eq_zero_or_pos rows with h0 | h0
    · subst h0; omega
    · exact h0
  · rcases Nat.eq_zero_or_pos cols with h0 | h0
    · subst h0; omega
    · exact h0

/-- What is returned are the indices of the first features of the four corner points. -/
theorem C50_corners (rows cols stride : Nat) (hst : 1 ≤ stride) (hb : rows * cols * stride < 2 ^ 64)
    (h8 : 8 ≤ rows * cols) :
    gridSampler rows cols stride = .ok [gridIndex cols stride 0 0 0, gridIndex cols stride 0 (cols - 1) 0,
      gridIndex cols stride (rows - 1) 0 0, gridIndex cols stride (rows - 1) (cols - 1) 0] := by
  obtain ⟨hr, hc⟩ := grid_ne_zero h8
  obtain ⟨r, rfl⟩ : ∃ r, rows = r + 1 := ⟨rows - 1, by omega⟩
  obtain ⟨c, rfl⟩ : ∃ c, cols = c + 1 := ⟨cols - 1, by omega⟩
  have h1 : (r + 1) * (c + 1) ≤ (r + 1) * (c + 1) * stride := Nat.le_mul_of_pos_right _ hst
  have h2 : r + 1 ≤ (r + 1) * (c + 1) := Nat.le_mul_of_pos_right _ (by omega)
  have h3 : c + 1 ≤ (r + 1) * (c + 1) := Nat.le_mul_of_pos_left _ (by omega)
  have e : (r + 1) * (c + 1) * stride = r * ((c + 1) * stride) + c * stride + stride := by ring
  have h4 : (c + 1) * stride = c * stride + stride := by ring
  have h5 : 0 ≤ r * ((c + 1) * stride) := Nat.zero_le _
  have h6 : (c + 1) * stride ≤ (r + 1) * (c + 1) * stride := by rw [e, h4]; omega
  unfold gridSampler
  rw [szMul_of_lt (a := r + 1) (b := c + 1) (by omega), szSub_of_le (a := c + 1) (by omega) (by omega),
    szSub_of_le (a := r + 1) (by omega) (by omega), szMul_of_lt (a := c + 1) (b := stride) (by omega),
    szMul_of_lt (a := (r + 1) * (c + 1)) hb, szMul_of_lt (a := c + 1 - 1) (by rw [Nat.add_sub_cancel]; omega),
    szMul_of_lt (a := r + 1 - 1) (by rw [Nat.add_sub_cancel]; omega),
    szSub_of_le (by rw [e]; omega) hb, if_neg (by omega)]
  simp only [Nat.add_sub_cancel, gridIndex, Res.ok.injEq]
  have e1 : (r + 1) * (c + 1) * stride - stride = (r * (c + 1) + c) * stride := by
    rw [e]
    have : (r * (c + 1) + c) * stride = r * ((c + 1) * stride) + c * stride := by ring
    omega
  rw [e1]
  have e2 : r * ((c + 1) * stride) = (r * (c + 1)) * stride := by ring
  rw [e2]
  simp

/-- Full statement: for a grid large enough to be accepted, the sampler returns the indices of the four corners of the
grid, all within the correspondence list and pairwise distinct. Proved for grids with at least two rows and two columns;
missing: grids with a single row or column, which are accepted although their corners coincide (`C50_negation`). -/
theorem C50_partial (rows cols stride : Nat) (l : List Nat) (hst : 1 ≤ stride) (hb : rows * cols * stride < 2 ^ 64)
    (hr : 2 ≤ rows) (hc : 2 ≤ cols) (h : gridSampler rows cols stride = .ok l) :
    l = [gridIndex cols stride 0 0 0, gridIndex cols stride 0 (cols - 1) 0, gridIndex cols stride (rows - 1) 0 0,
      gridIndex cols stride (rows - 1) (cols - 1) 0] ∧
    (∀ i ∈ l, i < rows * cols * stride) ∧ l.Nodup := by
  have h1 : rows * cols ≤ rows * cols * stride := Nat.le_mul_of_pos_right _ hst
  have h8 : 8 ≤ rows * cols := (C50_accepts rows cols stride (by omega)).1 ⟨l, h⟩
  rw [C50_corners rows cols stride hst hb h8] at h
  simp only [Res.ok.injEq] at h
  refine ⟨h.symm, ?_, ?_⟩
  all_goals
    subst h
    obtain ⟨r, rfl⟩ : ∃ r, rows = r + 2 := ⟨rows - 2, by omega⟩
    obtain ⟨c, rfl⟩ : ∃ c, cols = c + 2 := ⟨cols - 2, by omega⟩
    have e0 : r + 2 - 1 = r + 1 := by omega
    have e1 : c + 2 - 1 = c + 1 := by omega
    simp only [gridIndex, e0, e1]
    have p1 : (r + 2) * (c + 2) * stride = ((r + 1) * (c + 2) + (c + 1)) * stride + stride := by ring
    have p2 : ((r + 1) * (c + 2) + (c + 1)) * stride = (r + 1) * (c + 2) * stride + (c + 1) * stride := by ring
    have p3 : (r + 1) * (c + 2) * stride = r * ((c + 2) * stride) + (c + 1) * stride + stride := by ring
    have p4 : (c + 1) * stride = c * stride + stride := by ring
    have p5 : 0 ≤ r * ((c + 2) * stride) := Nat.zero_le _
    have p6 : 0 ≤ c * stride := Nat.zero_le _
    simp
  · rw [p1, p2, p3]; omega
  · have q1 : (c + 2) ≤ (r + 1) * (c + 2) := Nat.le_mul_of_pos_left _ (by omega)
    exact ⟨by omega, by omega, by omega⟩

example : gridSampler 3 4 2 = .ok [0, 6, 16, 22] := by decide

/-- Every grid with a single row of at least eight points is accepted, but the four samples are not distinct. -/
theorem C50_negation (cols stride : Nat) (hst : 1 ≤ stride) (hb : 1 * cols * stride < 2 ^ 64) (hc : 8 ≤ cols) :
    ∃ l, gridSampler 1 cols stride = .ok l ∧ ¬ l.Nodup := by
  refine ⟨_, C50_corners 1 cols stride hst hb (by omega), ?_⟩
  simp [gridIndex]

/-! ## C51 Random sampler -/

/-- Construction throws unless at least four samples and no more samples than correspondences are requested. -/
theorem C51_construct (n m : Nat) :
    (4 ≤ m ∧ m ≤ n → ∃ s, RandomSampler.make n m = .ok s) ∧
    (¬ (4 ≤ m ∧ m ≤ n) → RandomSampler.make n m = .throw .runtimeError) := by
  unfold RandomSampler.make
  constructor
  · rintro ⟨h1, h2⟩
    exact ⟨_, by rw [if_neg (by omega), if_neg (by omega)]⟩
  · intro h
    simp only
    split
    · rfl
    · rw [if_pos (by omega)]

/-- A constructed sampler returns the requested number of valid indices. -/
theorem C51_sample (draw : UniformInt) (hd : draw.WF) (n m : Nat) (hn : n < 2 ^ 64) (s : RandomSampler)
    (h : RandomSampler.make n m = .ok s) :
    ∃ l, s.sample draw = .ok l ∧ l.length = m ∧ 4 ≤ l.length ∧ ∀ i ∈ l, i < n := by
  have hc : 4 ≤ m ∧ m ≤ n := by
    by_contra hc
    rw [(C51_construct n m).2 hc] at h
    cases h
  unfold RandomSampler.make at h
  rw [if_neg (by omega), if_neg (by omega)] at h
  cases h
  refine ⟨_, rfl, by simp, by simp; omega, ?_⟩
  intro i hi
  simp only [List.mem_map] at hi
  obtain ⟨k, -, rfl⟩ := hi
  rw [szSub_of_le (by omega) hn]
  have := (hd 0 (n - 1) k (Nat.zero_le _)).2
  omega

example : (RandomSampler.make 100 4).Returns ∧ UniformInt.WF (fun _ b _ => b) :=
  ⟨⟨_, rfl⟩, fun _ _ _ h => ⟨h, le_refl _⟩⟩

/-! ## C53 Undersized sets -/

theorem atList_map {α β : Type} (l : List α) (f : α → β) (idx : List Nat) :
    (∀ i ∈ idx, i < l.length) → ∃ cs : List α, List.Forall₂ (fun i c => l[i]? = some c) idx cs ∧
      Res.mapList (fun i => (Res.atList l i).bind fun c => .ok (f c)) idx = .ok (cs.map f) := by
  induction idx with
  | nil => exact fun _ => ⟨[], .nil, rfl⟩
  | cons i idx ih =>
    intro h
    obtain ⟨cs, h1, h2⟩ := ih fun j hj => h j (List.mem_cons_of_mem _ hj)
    have hi : l[i]? = some (l[i]'(h i (by simp))) := List.getElem?_eq_getElem _
    have ha : Res.atList l i = .ok (l[i]'(h i (by simp))) := by unfold Res.atList; rw [hi]
    refine ⟨l[i]'(h i (by simp)) :: cs, .cons hi h1, ?_⟩
    simp only [Res.mapList, ha, h2, Res.ok_bind, List.map_cons]

theorem atList_map_throws {α β : Type} (l : List α) (f : α → β) (idx : List Nat) (h : ∃ i ∈ idx, l.length ≤ i) :
    Res.mapList (fun i => (Res.atList l i).bind fun c => .ok (f c)) idx = .throw .outOfRange := by
  induction idx with
  | nil => simp at h
  | cons i idx ih =>
    by_cases hi : l.length ≤ i
    · simp [Res.mapList, Res.atList, List.getElem?_eq_none hi]
    · obtain ⟨j, hj, hl⟩ := h
      have : ∃ i ∈ idx, l.length ≤ i := by
        rcases List.mem_cons.1 hj with rfl | hj
        · exact absurd hl hi
        · exact ⟨j, hj, hl⟩
      have hs : l[i]? = some (l[i]'(by omega)) := List.getElem?_eq_getElem _
      have ha : Res.atList l i = .ok (l[i]'(by omega)) := by unfold Res.atList; rw [hs]
      simp only [Res.mapList, ha, ih this, Res.ok_bind, Res.throw_bind]

/-- Fewer than twice as many correspondences as samples: an exception. -/
theorem C53_undersized (solve : LuSolve) (corrs : List Corr2) (idx : List Nat) (h : corrs.length < 2 * idx.length) :
    homographyError solve corrs (.ok idx) = .throw .runtimeError := by
  unfold homographyError
  rw [Res.ok_bind, if_pos h]

/-- A sample index outside the list: an exception. -/
theorem C53_range (solve : LuSolve) (corrs : List Corr2) (idx : List Nat) (h : ∃ i ∈ idx, corrs.length ≤ i) :
    (homographyError solve corrs (.ok idx)).Throws := by
  unfold homographyError
  rw [Res.ok_bind]
  split
  · simp
  · rw [atList_map_throws corrs homographyRows idx h]; simp

/-- An exception of the sampler is passed on. -/
theorem C53_sampler (solve : LuSolve) (corrs : List Corr2) (e : Exc) :
    homographyError solve corrs (.throw e) = .throw e := rfl

/-- In all other cases there is exactly one error per correspondence. -/
theorem C53_count (solve : LuSolve) (corrs : List Corr2) (idx : List Nat) (h : 2 * idx.length ≤ corrs.length)
    (hi : ∀ i ∈ idx, i < corrs.length) :
    ∃ errs, homographyError solve corrs (.ok idx) = .ok errs ∧ errs.length = corrs.length := by
  obtain ⟨cs, -, h2⟩ := atList_map corrs homographyRows idx hi
  refine ⟨corrs.map (homographyResidual (homographyMatrix (solve (cs.map homographyRows).flatten))), ?_, by simp⟩
  unfold homographyError
  rw [Res.ok_bind, if_neg (by omega), h2]
  rfl

/-- The same for measured points in space. -/
theorem C53_3d (solve : LuSolve) (corrs : List Corr3) (idx : List Nat) :
    (corrs.length < 2 * idx.length → homographyError3 solve corrs (.ok idx) = .throw .runtimeError) ∧
    ((∃ i ∈ idx, corrs.length ≤ i) → (homographyError3 solve corrs (.ok idx)).Throws) ∧
    (2 * idx.length ≤ corrs.length → (∀ i ∈ idx, i < corrs.length) →
      ∃ errs, homographyError3 solve corrs (.ok idx) = .ok errs ∧ errs.length = corrs.length) := by
  unfold homographyError3
  refine ⟨fun h => ?_, fun h => ?_, fun h hi => ?_⟩
  · simp only
    rw [C53_undersized _ _ _ (by simpa using h)]
    rfl
  · obtain ⟨e, he⟩ := C53_range solve (corrs.map fun c : Corr3 =>
      (⟨⟨c.inImage.x / c.inImage.z, c.inImage.y / c.inImage.z⟩, c.inTarget⟩ : Corr2)) idx (by simpa using h)
    simp only
    rw [he]
    exact ⟨e, rfl⟩
  · obtain ⟨errs, he, hl⟩ := C53_count solve (corrs.map fun c : Corr3 =>
      (⟨⟨c.inImage.x / c.inImage.z, c.inImage.y / c.inImage.z⟩, c.inTarget⟩ : Corr2)) idx (by simpa using h)
      (by simpa using hi)
    simp only
    rw [he]
    exact ⟨_, rfl, by simp [hl]⟩

/-! ## C52 Perfect planar data -/

/-- The vector of a matrix whose last entry is 1. -/
def homographyVec (H : M3) : Fin 8 → ℝ := ![H.m00, H.m01, H.m02, H.m10, H.m11, H.m12, H.m20, H.m21]

theorem solves_rows (c : Corr2) (h : Fin 8 → ℝ) :
    Solves (homographyRows c) h ↔ Incident (homographyMatrix h) c.inTarget c.inImage := by
  simp only [Solves, homographyRows, List.mem_cons, List.not_mem_nil, or_false, forall_eq_or_imp, forall_eq,
    Incident, homographyMatrix, M3.mulVec, V3.mk.injEq, Fin.sum_univ_eight]
  simp
  constructor
  · rintro ⟨h1, h2⟩
    exact ⟨by linear_combination -h1, by linear_combination -h2⟩
  · rintro ⟨h1, h2⟩
    exact ⟨by linear_combination -h1, by linear_combination -h2⟩

theorem residual_zero {H : M3} {c : Corr2} (h22 : H.m22 = 1) (h : MapsTo H c.inTarget c.inImage) :
    homographyResidual H c = 0 := by
  obtain ⟨hw, hx, hy⟩ := h
  unfold homographyResidual
  rw [V2.norm_eq_zero, V2.sub_eq_zero]
  rw [h22] at hw hx hy
  ext
  · simp only [M3.mulVec]; rw [hx]; field_simp
  · simp only [M3.mulVec]; rw [hy]; field_simp

theorem Spec.MapsTo.scale {H : M3} {p : V3} {q : V2} (h : MapsTo H p q) {k : ℝ} (hk : k ≠ 0) :
    MapsTo ⟨k * H.m00, k * H.m01, k * H.m02, k * H.m10, k * H.m11, k * H.m12, k * H.m20, k * H.m21, k * H.m22⟩ p q := by
  obtain ⟨hw, hx, hy⟩ := h
  have e : k * H.m20 * p.x + k * H.m21 * p.y + k * H.m22 = k * (H.m20 * p.x + H.m21 * p.y + H.m22) := by ring
  refine ⟨by simp only; rw [e]; exact mul_ne_zero hk hw, ?_, ?_⟩
  · simp only; rw [e, hx]; field_simp
  · simp only; rw [e, hy]; field_simp

theorem Spec.MapsTo.incident {H : M3} {p : V3} {q : V2} (h : MapsTo H p q) : Incident H p q := by
  obtain ⟨hw, hx, hy⟩ := h
  refine ⟨H.m20 * p.x + H.m21 * p.y + H.m22, ?_⟩
  · ext
    · simp only [M3.mulVec]; rw [hx, mul_div_cancel₀ _ hw]; ring
    · simp only [M3.mulVec]; rw [hy, mul_div_cancel₀ _ hw]; ring
    · simp only [M3.mulVec]; ring

/-- Perfect data of a homography with non-zero last entry (the image of the target origin is a finite point): all errors
are zero. -/
theorem homography_zero (solve : LuSolve) (hs : solve.WF) (H : M3) (h22 : H.m22 ≠ 0) (corrs : List Corr2)
    (hH : ∀ c ∈ corrs, MapsTo H c.inTarget c.inImage) (idx : List Nat) (h : 2 * idx.length ≤ corrs.length)
    (samples : List Corr2) (hi : List.Forall₂ (fun i c => corrs[i]? = some c) idx samples) (hd : Determines H samples) :
    homographyError solve corrs (.ok idx) = .ok (corrs.map fun _ => 0) := by
  have hlt : ∀ i ∈ idx, i < corrs.length := by
    intro i hm
    obtain ⟨k, hk⟩ := List.getElem_of_mem hm
    obtain ⟨hk', rfl⟩ := hk
    have hl := hi.length_eq
    have := List.forall₂_iff_get.1 hi
    have := this.2 k hk' (by omega)
    simp only [List.get_eq_getElem] at this
    by_contra hc
    rw [List.getElem?_eq_none (by omega)] at this
    cases this
  obtain ⟨cs, h1, h2⟩ := atList_map corrs homographyRows idx hlt
  have hcs : cs = samples := by
    clear h2 hd hlt h
    induction h1 generalizing samples with
    | nil => cases hi; rfl
    | cons ha _ ih =>
      cases hi with
      | cons hb hr =>
        rw [ha] at hb
        cases hb
        rw [ih _ hr]
  subst hcs
  unfold homographyError
  rw [Res.ok_bind, if_neg (by omega), h2]
  simp only [Res.ok_bind, Res.ok.injEq]
  have hmem : ∀ c ∈ cs, c ∈ corrs := by
    intro c hc
    obtain ⟨k, hk, rfl⟩ := List.getElem_of_mem hc
    have := (List.forall₂_iff_get.1 h1).2 k (by have := h1.length_eq; omega) hk
    exact List.mem_of_getElem? this
  obtain ⟨sys, hsys⟩ : ∃ sys, sys = (cs.map homographyRows).flatten := ⟨_, rfl⟩
  have hsol : ∀ v, Solves sys v ↔ ∀ c ∈ cs, Solves (homographyRows c) v := by
    intro v
    subst hsys
    unfold Solves
    constructor
    · intro hv c hc e he
      exact hv e (List.mem_flatten.2 ⟨_, List.mem_map.2 ⟨c, hc, rfl⟩, he⟩)
    · intro hv e he
      obtain ⟨l, hl, he⟩ := List.mem_flatten.1 he
      obtain ⟨c, hc, rfl⟩ := List.mem_map.1 hl
      exact hv c hc e he
  rw [← hsys]
  have hex : Solves sys (solve sys) := by
    apply hs
    refine ⟨homographyVec ⟨1 / H.m22 * H.m00, 1 / H.m22 * H.m01, 1 / H.m22 * H.m02, 1 / H.m22 * H.m10,
      1 / H.m22 * H.m11, 1 / H.m22 * H.m12, 1 / H.m22 * H.m20, 1 / H.m22 * H.m21, 1 / H.m22 * H.m22⟩, ?_⟩
    rw [hsol]
    intro c hc
    rw [solves_rows]
    have := ((hH c (hmem c hc)).scale (k := 1 / H.m22) (by simp [h22])).incident
    have e : homographyMatrix (homographyVec ⟨1 / H.m22 * H.m00, 1 / H.m22 * H.m01, 1 / H.m22 * H.m02, 1 / H.m22 * H.m10,
      1 / H.m22 * H.m11, 1 / H.m22 * H.m12, 1 / H.m22 * H.m20, 1 / H.m22 * H.m21, 1 / H.m22 * H.m22⟩) =
      ⟨1 / H.m22 * H.m00, 1 / H.m22 * H.m01, 1 / H.m22 * H.m02, 1 / H.m22 * H.m10,
      1 / H.m22 * H.m11, 1 / H.m22 * H.m12, 1 / H.m22 * H.m20, 1 / H.m22 * H.m21, 1 / H.m22 * H.m22⟩ := by
      have h1 : (1 / H.m22) * H.m22 = 1 := by field_simp
      rw [h1]
      ext <;> simp [homographyMatrix, homographyVec]
    rw [e]
    exact this
  rw [hsol] at hex
  obtain ⟨k, hk⟩ := hd (homographyMatrix (solve sys)) fun c hc => (solves_rows c _).1 (hex c hc)
  have hk1 : k * H.m22 = 1 := by
    have := congrArg M3.m22 hk
    simp only [homographyMatrix] at this
    exact this.symm
  have hk0 : k ≠ 0 := by rintro rfl; simp at hk1
  apply List.map_congr_left
  intro c hc
  apply residual_zero rfl
  rw [hk]
  exact (hH c hc).scale hk0

theorem row_zero {a b c : V3} (h : area2 a b c ≠ 0) {r0 r1 r2 : ℝ} (h1 : r0 * a.x + r1 * a.y + r2 = 0)
    (h2 : r0 * b.x + r1 * b.y + r2 = 0) (h3 : r0 * c.x + r1 * c.y + r2 = 0) : r0 = 0 ∧ r1 = 0 ∧ r2 = 0 := by
  have e0 : area2 a b c * r0 = 0 := by
    unfold area2; linear_combination (c.y - a.y) * (h2 - h1) - (b.y - a.y) * (h3 - h1)
  have e1 : area2 a b c * r1 = 0 := by
    unfold area2; linear_combination (b.x - a.x) * (h3 - h1) - (c.x - a.x) * (h2 - h1)
  have f0 := (mul_eq_zero.1 e0).resolve_left h
  have f1 := (mul_eq_zero.1 e1).resolve_left h
  refine ⟨f0, f1, ?_⟩
  rw [f0, f1] at h1
  linarith

theorem comb_zero {a b c : V3} (h : area2 a b c ≠ 0) {s1 s2 s3 : ℝ} (h0 : s1 + s2 + s3 = 0)
    (hx : s1 * a.x + s2 * b.x + s3 * c.x = 0) (hy : s1 * a.y + s2 * b.y + s3 * c.y = 0) : s1 = 0 ∧ s2 = 0 ∧ s3 = 0 := by
  have e2 : area2 a b c * s2 = 0 := by
    unfold area2; linear_combination (c.y - a.y) * (hx - a.x * h0) - (c.x - a.x) * (hy - a.y * h0)
  have e3 : area2 a b c * s3 = 0 := by
    unfold area2; linear_combination (b.x - a.x) * (hy - a.y * h0) - (b.y - a.y) * (hx - a.x * h0)
  have f2 := (mul_eq_zero.1 e2).resolve_left h
  have f3 := (mul_eq_zero.1 e3).resolve_left h
  exact ⟨by linarith, f2, f3⟩

theorem mulVec_zero_of_det {H : M3} (h : H.det ≠ 0) {v : V3} (hv : H.mulVec v = 0) : v = 0 := by
  have h0 : H.m00 * v.x + H.m01 * v.y + H.m02 * v.z = 0 := congrArg V3.x hv
  have h1 : H.m10 * v.x + H.m11 * v.y + H.m12 * v.z = 0 := congrArg V3.y hv
  have h2 : H.m20 * v.x + H.m21 * v.y + H.m22 * v.z = 0 := congrArg V3.z hv
  have e0 : H.det * v.x = 0 := by
    unfold M3.det
    linear_combination (H.m11 * H.m22 - H.m12 * H.m21) * h0 - (H.m01 * H.m22 - H.m02 * H.m21) * h1 +
      (H.m01 * H.m12 - H.m02 * H.m11) * h2
  have e1 : H.det * v.y = 0 := by
    unfold M3.det
    linear_combination -(H.m10 * H.m22 - H.m12 * H.m20) * h0 + (H.m00 * H.m22 - H.m02 * H.m20) * h1 -
      (H.m00 * H.m12 - H.m02 * H.m10) * h2
  have e2 : H.det * v.z = 0 := by
    unfold M3.det
    linear_combination (H.m10 * H.m21 - H.m11 * H.m20) * h0 - (H.m00 * H.m21 - H.m01 * H.m20) * h1 +
      (H.m00 * H.m11 - H.m01 * H.m10) * h2
  ext
  · exact (mul_eq_zero.1 e0).resolve_left h
  · exact (mul_eq_zero.1 e1).resolve_left h
  · exact (mul_eq_zero.1 e2).resolve_left h

theorem incident_ratio {H H' : M3} {p : V3} {q : V2} (h : MapsTo H p q) (h' : Incident H' p q) :
    ∃ m : ℝ, H'.mulVec ⟨p.x, p.y, 1⟩ = V3.smul m (H.mulVec ⟨p.x, p.y, 1⟩) := by
  obtain ⟨k', hk'⟩ := h'
  have hw := h.1
  obtain ⟨hw', hx, hy⟩ := h
  refine ⟨k' / (H.m20 * p.x + H.m21 * p.y + H.m22), ?_⟩
  rw [hk', hx, hy]
  ext
  · simp only [M3.mulVec, V3.smul]; field_simp
  · simp only [M3.mulVec, V3.smul]; field_simp
  · simp only [M3.mulVec, V3.smul]; field_simp

/-- Four samples in general position determine an invertible homography. -/
theorem determines_of_general (H : M3) (hdet : H.det ≠ 0) (s : List Corr2) (hs : ∀ c ∈ s, MapsTo H c.inTarget c.inImage)
    (a b c d : Corr2) (ha : a ∈ s) (hb : b ∈ s) (hc : c ∈ s) (hd : d ∈ s)
    (hg : GeneralPosition a.inTarget b.inTarget c.inTarget d.inTarget) : Determines H s := by
  intro H' hH'
  obtain ⟨ma, ea⟩ := incident_ratio (hs a ha) (hH' a ha)
  obtain ⟨mb, eb⟩ := incident_ratio (hs b hb) (hH' b hb)
  obtain ⟨mc, ec⟩ := incident_ratio (hs c hc) (hH' c hc)
  obtain ⟨md, ed⟩ := incident_ratio (hs d hd) (hH' d hd)
  obtain ⟨g1, g2, g3, g4⟩ := hg
  generalize a.inTarget = A at *
  generalize b.inTarget = B at *
  generalize c.inTarget = C at *
  generalize d.inTarget = D at *
  clear hs hH' ha hb hc hd
  -- barycentric coordinates of the fourth point
  obtain ⟨al, hal⟩ : ∃ al, al = area2 B C D := ⟨_, rfl⟩
  obtain ⟨be, hbe⟩ : ∃ be, be = -area2 A C D := ⟨_, rfl⟩
  obtain ⟨ga, hga⟩ : ∃ ga, ga = area2 A B D := ⟨_, rfl⟩
  have hv : H.mulVec ⟨al * (ma - md) * A.x + be * (mb - md) * B.x + ga * (mc - md) * C.x,
      al * (ma - md) * A.y + be * (mb - md) * B.y + ga * (mc - md) * C.y,
      al * (ma - md) + be * (mb - md) + ga * (mc - md)⟩ = 0 := by
    have xa := congrArg V3.x ea
    have xb := congrArg V3.x eb
    have xc := congrArg V3.x ec
    have xd := congrArg V3.x ed
    have ya := congrArg V3.y ea
    have yb := congrArg V3.y eb
    have yc := congrArg V3.y ec
    have yd := congrArg V3.y ed
    have za := congrArg V3.z ea
    have zb := congrArg V3.z eb
    have zc := congrArg V3.z ec
    have zd := congrArg V3.z ed
    simp only [M3.mulVec, V3.smul] at xa xb xc xd ya yb yc yd za zb zc zd
    have b1 : al * A.x + be * B.x + ga * C.x = area2 A B C * D.x := by rw [hal, hbe, hga]; unfold area2; ring
    have b2 : al * A.y + be * B.y + ga * C.y = area2 A B C * D.y := by rw [hal, hbe, hga]; unfold area2; ring
    have b3 : al + be + ga = area2 A B C := by rw [hal, hbe, hga]; unfold area2; ring
    ext
    · simp only [M3.mulVec, V3.zero_x]
      linear_combination -al * xa - be * xb - ga * xc + area2 A B C * xd + (H'.m00 - md * H.m00) * b1 +
        (H'.m01 - md * H.m01) * b2 + (H'.m02 - md * H.m02) * b3
    · simp only [M3.mulVec, V3.zero_y]
      linear_combination -al * ya - be * yb - ga * yc + area2 A B C * yd + (H'.m10 - md * H.m10) * b1 +
        (H'.m11 - md * H.m11) * b2 + (H'.m12 - md * H.m12) * b3
    · simp only [M3.mulVec, V3.zero_z]
      linear_combination -al * za - be * zb - ga * zc + area2 A B C * zd + (H'.m20 - md * H.m20) * b1 +
        (H'.m21 - md * H.m21) * b2 + (H'.m22 - md * H.m22) * b3
  have hz := mulVec_zero_of_det hdet hv
  obtain ⟨z1, z2, z3⟩ := comb_zero g1 (congrArg V3.z hz) (congrArg V3.x hz) (congrArg V3.y hz)
  have a1 : ma = md := by
    have := (mul_eq_zero.1 z1).resolve_left (by rw [hal]; exact g4)
    linarith
  have a2 : mb = md := by
    have := (mul_eq_zero.1 z2).resolve_left (by rw [hbe]; exact neg_ne_zero.2 g3)
    linarith
  have a3 : mc = md := by
    have := (mul_eq_zero.1 z3).resolve_left (by rw [hga]; exact g2)
    linarith
  subst a1 a2 a3
  refine ⟨mc, ?_⟩
  have xa := congrArg V3.x ea
  have xb := congrArg V3.x eb
  have xc := congrArg V3.x ec
  have ya := congrArg V3.y ea
  have yb := congrArg V3.y eb
  have yc := congrArg V3.y ec
  have za := congrArg V3.z ea
  have zb := congrArg V3.z eb
  have zc := congrArg V3.z ec
  simp only [M3.mulVec, V3.smul] at xa xb xc ya yb yc za zb zc
  obtain ⟨r1, r2, r3⟩ := row_zero g1 (r0 := H'.m00 - mc * H.m00) (r1 := H'.m01 - mc * H.m01) (r2 := H'.m02 - mc * H.m02)
    (by linear_combination xa) (by linear_combination xb) (by linear_combination xc)
  obtain ⟨r4, r5, r6⟩ := row_zero g1 (r0 := H'.m10 - mc * H.m10) (r1 := H'.m11 - mc * H.m11) (r2 := H'.m12 - mc * H.m12)
    (by linear_combination ya) (by linear_combination yb) (by linear_combination yc)
  obtain ⟨r7, r8, r9⟩ := row_zero g1 (r0 := H'.m20 - mc * H.m20) (r1 := H'.m21 - mc * H.m21) (r2 := H'.m22 - mc * H.m22)
    (by linear_combination za) (by linear_combination zb) (by linear_combination zc)
  ext <;> simp only <;> linarith

/-- Full statement: if all image points are images of the target points under one homography, the reported error is zero
for every correspondence, for every sampler whose samples determine the homography.
Proved for homographies with a non-zero last entry, i.e. under which the origin of the target has a finite image; missing:
the others, which the check cannot represent (`C52_negation`). -/
theorem C52_partial (solve : LuSolve) (hs : solve.WF) (H : M3) (h22 : H.m22 ≠ 0) (corrs : List Corr2)
    (hH : ∀ c ∈ corrs, MapsTo H c.inTarget c.inImage) (idx : List Nat) (h : 2 * idx.length ≤ corrs.length)
    (samples : List Corr2) (hi : List.Forall₂ (fun i c => corrs[i]? = some c) idx samples) (hd : Determines H samples) :
    ∃ errs, homographyError solve corrs (.ok idx) = .ok errs ∧ errs.length = corrs.length ∧ ∀ e ∈ errs, e = 0 :=
  ⟨_, homography_zero solve hs H h22 corrs hH idx h samples hi hd, by simp, by simp⟩

/-- The same for measured points in space: multiples of the homogeneous image points. -/
theorem C52_3d_partial (solve : LuSolve) (hs : solve.WF) (H : M3) (h22 : H.m22 ≠ 0) (corrs : List Corr3)
    (hH : ∀ c ∈ corrs, c.inImage.z ≠ 0 ∧
      MapsTo H c.inTarget ⟨c.inImage.x / c.inImage.z, c.inImage.y / c.inImage.z⟩)
    (idx : List Nat) (h : 2 * idx.length ≤ corrs.length)
    (samples : List Corr3) (hi : List.Forall₂ (fun i c => corrs[i]? = some c) idx samples)
    (hd : Determines H (samples.map fun c => ⟨⟨c.inImage.x / c.inImage.z, c.inImage.y / c.inImage.z⟩, c.inTarget⟩)) :
    ∃ errs, homographyError3 solve corrs (.ok idx) = .ok errs ∧ errs.length = corrs.length ∧ ∀ e ∈ errs, e = 0 := by
  obtain ⟨f, hf⟩ : ∃ f : Corr3 → Corr2, f = fun c =>
    ⟨⟨c.inImage.x / c.inImage.z, c.inImage.y / c.inImage.z⟩, c.inTarget⟩ := ⟨_, rfl⟩
  have hz := homography_zero solve hs H h22 (corrs.map f) (by
      intro c hc
      obtain ⟨c0, h0, rfl⟩ := List.mem_map.1 hc
      rw [hf]
      exact (hH c0 h0).2) idx (by simpa using h) (samples.map f) (by
      rw [List.forall₂_map_right_iff]
      refine hi.imp ?_
      intro i c hic
      simp [hic]) (by rw [hf]; exact hd)
  unfold homographyError3
  simp only
  rw [← hf, hz]
  refine ⟨_, rfl, by simp, ?_⟩
  intro e he
  obtain ⟨k, hk, rfl⟩ := List.getElem_of_mem he
  simp

/-- The geometric condition is met by four samples in general position and an invertible homography. -/
theorem C52_general_partial (solve : LuSolve) (hs : solve.WF) (H : M3) (hdet : H.det ≠ 0) (h22 : H.m22 ≠ 0)
    (corrs : List Corr2) (hH : ∀ c ∈ corrs, MapsTo H c.inTarget c.inImage) (h8 : 8 ≤ corrs.length)
    (i j k l : Nat) (a b c d : Corr2) (ha : corrs[i]? = some a) (hb : corrs[j]? = some b) (hc : corrs[k]? = some c)
    (hd : corrs[l]? = some d) (hg : GeneralPosition a.inTarget b.inTarget c.inTarget d.inTarget) :
    ∃ errs, homographyError solve corrs (.ok [i, j, k, l]) = .ok errs ∧ errs.length = corrs.length ∧ ∀ e ∈ errs, e = 0 := by
  refine C52_partial solve hs H h22 corrs hH [i, j, k, l] (by simpa using h8) [a, b, c, d]
    (.cons ha (.cons hb (.cons hc (.cons hd .nil)))) ?_
  refine determines_of_general H hdet _ ?_ a b c d (by simp) (by simp) (by simp) (by simp) hg
  intro e he
  simp only [List.mem_cons, List.not_mem_nil, or_false] at he
  rcases he with rfl | rfl | rfl | rfl
  · exact hH _ (List.mem_of_getElem? ha)
  · exact hH _ (List.mem_of_getElem? hb)
  · exact hH _ (List.mem_of_getElem? hc)
  · exact hH _ (List.mem_of_getElem? hd)

/-- A solver meeting the contract exists. -/
theorem luSolve_exists : ∃ solve : LuSolve, solve.WF := by
  classical
  refine ⟨fun sys => if h : ∃ v, Solves sys v then h.choose else 0, ?_⟩
  intro sys h
  simp only [dif_pos h]
  exact h.choose_spec

/-- The hypotheses of `C52_general_partial` (hence of `C52_partial`) hold for eight points seen by a tilted camera. -/
example : ∃ (H : M3) (corrs : List Corr2) (a b c d : Corr2), H.det ≠ 0 ∧ H.m22 ≠ 0 ∧ H.m20 ≠ 0 ∧
    (∀ c ∈ corrs, MapsTo H c.inTarget c.inImage) ∧ 8 ≤ corrs.length ∧ corrs[0]? = some a ∧ corrs[1]? = some b ∧
    corrs[6]? = some c ∧ corrs[7]? = some d ∧ GeneralPosition a.inTarget b.inTarget c.inTarget d.inTarget := by
  refine ⟨⟨2, 0, 1, 0, 2, 3, 1, 0, 4⟩, [(0, 0), (0, 1), (1, 0), (1, 1), (2, 0), (2, 1), (3, 0), (3, 1)].map
    fun e : ℝ × ℝ => ⟨⟨(2 * e.1 + 1) / (e.1 + 4), (2 * e.2 + 3) / (e.1 + 4)⟩, ⟨e.1, e.2, 0⟩⟩,
    _, _, _, _, by norm_num [M3.det], by norm_num, by norm_num, ?_, by simp, rfl, rfl, rfl, rfl,
    by norm_num [GeneralPosition, area2]⟩
  intro c hc
  simp only [List.map_cons, List.map_nil, List.mem_cons, List.not_mem_nil, or_false] at hc
  rcases hc with rfl | rfl | rfl | rfl | rfl | rfl | rfl | rfl <;> norm_num [MapsTo]

/-- Images of a 4 x 2 grid under the projective map `(x, y) ↦ (1 / x, y / x)`. -/
noncomputable def hmExCorrs : List Corr2 :=
  [⟨⟨1, 0⟩, ⟨1, 0, 0⟩⟩, ⟨⟨1, 1⟩, ⟨1, 1, 0⟩⟩, ⟨⟨1 / 2, 0⟩, ⟨2, 0, 0⟩⟩, ⟨⟨1 / 2, 1 / 2⟩, ⟨2, 1, 0⟩⟩,
   ⟨⟨1 / 3, 0⟩, ⟨3, 0, 0⟩⟩, ⟨⟨1 / 3, 1 / 3⟩, ⟨3, 1, 0⟩⟩, ⟨⟨1 / 4, 0⟩, ⟨4, 0, 0⟩⟩, ⟨⟨1 / 4, 1 / 4⟩, ⟨4, 1, 0⟩⟩]

theorem residual_eq_zero {H : M3} (h22 : H.m22 = 1) {c : Corr2} (hne : c.inImage ≠ 0) (h : homographyResidual H c = 0) :
    MapsTo H c.inTarget c.inImage := by
  unfold homographyResidual at h
  rw [V2.norm_eq_zero, V2.sub_eq_zero] at h
  have hx := congrArg V2.x h
  have hy := congrArg V2.y h
  simp only [M3.mulVec] at hx hy
  have hw : H.m20 * c.inTarget.x + H.m21 * c.inTarget.y + 1 ≠ 0 := by
    intro h0
    apply hne
    rw [h0] at hx hy
    ext
    · rw [hx]; simp
    · rw [hy]; simp
  refine ⟨by rw [h22]; exact hw, ?_, ?_⟩
  · rw [h22, hx]; field_simp
  · rw [h22, hy]; field_simp

/-- Perfect data of an invertible homography, with samples that determine it, for which an error is reported whatever the
linear solver returns. -/
theorem C52_negation : ∃ (H : M3) (corrs samples : List Corr2) (idx : List Nat), H.det ≠ 0 ∧
    (∀ c ∈ corrs, MapsTo H c.inTarget c.inImage) ∧ gridSampler 4 2 1 = .ok idx ∧
    List.Forall₂ (fun i c => corrs[i]? = some c) idx samples ∧ Determines H samples ∧
    ∀ solve, ∃ errs, homographyError solve corrs (.ok idx) = .ok errs ∧ errs.length = corrs.length ∧ ∃ e ∈ errs, e ≠ 0 := by
  have hM : ∀ c ∈ hmExCorrs, MapsTo ⟨0, 0, 1, 0, 1, 0, 1, 0, 0⟩ c.inTarget c.inImage := by
    intro c hc
    simp only [hmExCorrs, List.mem_cons, List.not_mem_nil, or_false] at hc
    rcases hc with rfl | rfl | rfl | rfl | rfl | rfl | rfl | rfl <;> simp [MapsTo]
  refine ⟨⟨0, 0, 1, 0, 1, 0, 1, 0, 0⟩, hmExCorrs, [⟨⟨1, 0⟩, ⟨1, 0, 0⟩⟩, ⟨⟨1, 1⟩, ⟨1, 1, 0⟩⟩, ⟨⟨1 / 4, 0⟩, ⟨4, 0, 0⟩⟩,
    ⟨⟨1 / 4, 1 / 4⟩, ⟨4, 1, 0⟩⟩], [0, 1, 6, 7], by norm_num [M3.det], hM, by decide, ?_, ?_, ?_⟩
  · exact .cons rfl (.cons rfl (.cons rfl (.cons rfl .nil)))
  · refine determines_of_general _ (by norm_num [M3.det]) _ ?_ ⟨⟨1, 0⟩, ⟨1, 0, 0⟩⟩ ⟨⟨1, 1⟩, ⟨1, 1, 0⟩⟩
      ⟨⟨1 / 4, 0⟩, ⟨4, 0, 0⟩⟩ ⟨⟨1 / 4, 1 / 4⟩, ⟨4, 1, 0⟩⟩ (by simp) (by simp) (by simp) (by simp)
      (by norm_num [GeneralPosition, area2])
    intro c hc
    apply hM
    simp only [List.mem_cons, List.not_mem_nil, or_false] at hc
    rcases hc with rfl | rfl | rfl | rfl <;> simp [hmExCorrs]
  · intro solve
    obtain ⟨errs, h, hlen⟩ := C53_count solve hmExCorrs [0, 1, 6, 7] (by simp [hmExCorrs]) (by simp [hmExCorrs])
    refine ⟨errs, h, hlen, ?_⟩
    by_contra hcon
    push Not at hcon
    unfold homographyError at h
    rw [Res.ok_bind, if_neg (by simp [hmExCorrs])] at h
    simp only [Res.bind_ok_iff, Res.ok.injEq] at h
    obtain ⟨rows, -, h⟩ := h
    obtain ⟨M, hMd⟩ : ∃ M, M = homographyMatrix (solve rows.flatten) := ⟨_, rfl⟩
    rw [← hMd] at h
    have h22 : M.m22 = 1 := by rw [hMd]; rfl
    have key : ∀ c ∈ hmExCorrs, c.inImage ≠ 0 → MapsTo M c.inTarget c.inImage := by
      intro c hc hne
      refine residual_eq_zero h22 hne (hcon _ ?_)
      rw [← h]
      exact List.mem_map.2 ⟨c, hc, rfl⟩
    have p : ∀ n : ℝ, n ≠ 0 → (⟨⟨1 / n, 0⟩, ⟨n, 0, 0⟩⟩ : Corr2) ∈ hmExCorrs →
        n * (M.m00 * n + M.m02) = M.m20 * n + 1 := by
      intro n hn hm
      obtain ⟨hw, hx, -⟩ := key _ hm (by
        intro h0
        have := congrArg V2.x h0
        simp [hn] at this)
      simp only at hw hx
      rw [eq_div_iff hw, h22] at hx
      field_simp at hx
      linarith
    have p1 := p 1 one_ne_zero (by simp [hmExCorrs])
    have p2 := p 2 two_ne_zero (by simp [hmExCorrs])
    have p3 := p 3 three_ne_zero (by simp [hmExCorrs])
    linarith

/-! ## C95 Homography errors are distances -/

/-- Errors in the image are never negative. -/
theorem C95_nonneg (solve : LuSolve) (corrs : List Corr2) (sampler : Res (List Nat)) (errs : List ℝ)
    (h : homographyError solve corrs sampler = .ok errs) : ∀ e ∈ errs, 0 ≤ e := by
  unfold homographyError at h
  simp only [Res.bind_ok_iff] at h
  obtain ⟨idx, -, h⟩ := h
  split at h
  · cases h
  · simp only [Res.bind_ok_iff, Res.ok.injEq] at h
    obtain ⟨rows, -, rfl⟩ := h
    intro e he
    obtain ⟨c, -, rfl⟩ := List.mem_map.1 he
    exact V2.norm_nonneg _

/-- The entries for points in space are those of the scaled points times the depth. -/
theorem homographyError3_ok {solve : LuSolve} {corrs : List Corr3} {sampler : Res (List Nat)} {errs : List ℝ}
    (h : homographyError3 solve corrs sampler = .ok errs) :
    ∃ es, homographyError solve (corrs.map fun c : Corr3 =>
      (⟨⟨c.inImage.x / c.inImage.z, c.inImage.y / c.inImage.z⟩, c.inTarget⟩ : Corr2)) sampler = .ok es ∧
      errs = List.zipWith (· * ·) es (corrs.map fun c => c.inImage.z) := by
  unfold homographyError3 at h
  simp only [Res.bind_ok_iff, Res.ok.injEq] at h
  obtain ⟨es, h1, rfl⟩ := h
  exact ⟨es, h1, rfl⟩

/-- Full statement: every reported error is a distance, in particular not negative. Proved for points with non-negative
depth; missing: points with negative depth (`C95_negation`). -/
theorem C95_3d_partial (solve : LuSolve) (corrs : List Corr3) (sampler : Res (List Nat)) (errs : List ℝ)
    (h : homographyError3 solve corrs sampler = .ok errs) (hz : ∀ c ∈ corrs, 0 ≤ c.inImage.z) : ∀ e ∈ errs, 0 ≤ e := by
  obtain ⟨es, h1, rfl⟩ := homographyError3_ok h
  have h2 := C95_nonneg _ _ _ _ h1
  intro e he
  obtain ⟨k, hk, rfl⟩ := List.getElem_of_mem he
  rw [List.getElem_zipWith]
  refine mul_nonneg (h2 _ (List.getElem_mem _)) ?_
  rw [List.getElem_map]
  exact hz _ (List.getElem_mem _)

/-- If all depths are negative no entry is positive: the sign is wrong for every wrong point. -/
theorem C95_sign (solve : LuSolve) (corrs : List Corr3) (sampler : Res (List Nat)) (errs : List ℝ)
    (h : homographyError3 solve corrs sampler = .ok errs) (hz : ∀ c ∈ corrs, c.inImage.z < 0) : ∀ e ∈ errs, e ≤ 0 := by
  obtain ⟨es, h1, rfl⟩ := homographyError3_ok h
  have h2 := C95_nonneg _ _ _ _ h1
  intro e he
  obtain ⟨k, hk, rfl⟩ := List.getElem_of_mem he
  rw [List.getElem_zipWith]
  refine mul_nonpos_of_nonneg_of_nonpos (h2 _ (List.getElem_mem _)) ?_
  rw [List.getElem_map]
  exact (hz _ (List.getElem_mem _)).le

/-- There are inputs for which a negative error is returned whatever the linear solver does. -/
theorem C95_negation : ∃ (corrs : List Corr3) (idx : List Nat), gridSampler 4 2 1 = .ok idx ∧
    ∀ solve, ∃ errs, homographyError3 solve corrs (.ok idx) = .ok errs ∧ ∃ e ∈ errs, e < 0 := by
  obtain ⟨H, corrs, samples, idx, -, -, hg, hf, -, hn⟩ := C52_negation
  refine ⟨corrs.map fun c => ⟨⟨-c.inImage.x, -c.inImage.y, -1⟩, c.inTarget⟩, idx, hg, fun solve => ?_⟩
  obtain ⟨f, hff⟩ : ∃ f : Corr3 → Corr2, f = fun c =>
    ⟨⟨c.inImage.x / c.inImage.z, c.inImage.y / c.inImage.z⟩, c.inTarget⟩ := ⟨_, rfl⟩
  have hflat : (corrs.map fun c : Corr2 => (⟨⟨-c.inImage.x, -c.inImage.y, -1⟩, c.inTarget⟩ : Corr3)).map f = corrs := by
    rw [hff, List.map_map]
    have : (fun c : Corr3 => (⟨⟨c.inImage.x / c.inImage.z, c.inImage.y / c.inImage.z⟩, c.inTarget⟩ : Corr2)) ∘
        (fun c : Corr2 => (⟨⟨-c.inImage.x, -c.inImage.y, -1⟩, c.inTarget⟩ : Corr3)) = id := by
      funext c
      simp
    rw [this, List.map_id]
  obtain ⟨es, h1, hlen, e, hm, hne⟩ := hn solve
  have hpos := C95_nonneg _ _ _ _ h1 e hm
  have he : homographyError3 solve (corrs.map fun c => ⟨⟨-c.inImage.x, -c.inImage.y, -1⟩, c.inTarget⟩) (.ok idx) =
      .ok (List.zipWith (· * ·) es (corrs.map fun _ => -1)) := by
    unfold homographyError3
    simp only
    rw [← hff, hflat, h1, List.map_map]
    rfl
  refine ⟨_, he, -e, ?_, by have := lt_of_le_of_ne hpos (Ne.symm hne); linarith⟩
  obtain ⟨k, hk, rfl⟩ := List.getElem_of_mem hm
  rw [List.mem_iff_getElem]
  exact ⟨k, by simp; omega, by simp⟩

end RCT
