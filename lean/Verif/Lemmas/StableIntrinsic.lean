import Verif.Lemmas.Zhang
import Verif.Lemmas.Stable
import Verif.Spec.StableIntrinsic

/-!
# Almost the true images mean almost the true camera

With the pixels of the true camera written as rays, another camera with a plane target gives a linear map from the plane to rays.
The map and the form that belongs to the other camera are scaled to length one; on the compact set of these only the true camera
has the true images.
-/

namespace RCT

open Spec

/-- Where `g` is small, `f` is small, if `f` vanishes where `g` does. -/
theorem compact_small {X : Type} [TopologicalSpace X] {K : Set X} (hK : IsCompact K) {g f : X → ℝ} (hg : Continuous g)
    (hf : Continuous f) (h : ∀ x ∈ K, g x ≤ 0 → f x ≤ 0) {e : ℝ} (he : 0 < e) : ∃ d : ℝ, 0 < d ∧ ∀ x ∈ K, g x ≤ d → f x < e := by
  have hc : IsCompact (K ∩ {x | e ≤ f x}) := hK.inter_right (isClosed_le continuous_const hf)
  rcases Set.eq_empty_or_nonempty (K ∩ {x | e ≤ f x}) with h0 | h0
  · refine ⟨1, one_pos, fun x hx _ => not_le.1 fun h1 => ?_⟩
    have : x ∈ K ∩ {x | e ≤ f x} := ⟨hx, h1⟩
    rw [h0] at this
    exact this
  · obtain ⟨v, hv, hmin⟩ := hc.exists_isMinOn h0 hg.continuousOn
    have hpos : 0 < g v := by
      by_contra hle
      have h1 := h v hv.1 (not_lt.1 hle)
      have h2 : e ≤ f v := hv.2
      linarith
    refine ⟨g v / 2, by linarith, fun x hx hgx => not_le.1 fun h1 => ?_⟩
    have : g v ≤ g x := hmin ⟨hx, h1⟩
    linarith

/-- Vectors of length one. -/
def unitSphere (n : Nat) : Set (Fin n → ℝ) := {v | ∑ i, v i ^ 2 = 1}

theorem unitSphere_compact (n : Nat) : IsCompact (unitSphere n) := by
  have h : IsCompact (Set.Icc (fun _ : Fin n => (-1 : ℝ)) (fun _ => 1) ∩ unitSphere n) :=
    isCompact_Icc.inter_right (isClosed_eq (by fun_prop) continuous_const)
  convert h using 1
  refine (Set.inter_eq_right.2 fun v hv => ?_).symm
  have k : ∀ i, |v i| ≤ 1 := by
    intro i
    have h1 : v i ^ 2 ≤ ∑ j, v j ^ 2 := Finset.single_le_sum (f := fun j => v j ^ 2) (fun j _ => sq_nonneg _) (Finset.mem_univ i)
    have h2 : ∑ j, v j ^ 2 = 1 := hv
    exact abs_le_of_sq_le_sq (by rw [h2] at h1; linarith) one_pos.le
  exact ⟨fun i => (abs_le.1 (k i)).1, fun i => (abs_le.1 (k i)).2⟩

/-- One bound for all elements of a list. -/
theorem uniform_bound {α : Type} (P : α → ℝ → Prop) (hmono : ∀ a r r', P a r → r' ≤ r → P a r') (l : List α)
    (h : ∀ a ∈ l, ∃ r : ℝ, 0 < r ∧ P a r) : ∃ r : ℝ, 0 < r ∧ ∀ a ∈ l, P a r := by
  induction l with
  | nil => exact ⟨1, one_pos, by simp⟩
  | cons a l ih =>
    obtain ⟨r1, h1, p1⟩ := h a (by simp)
    obtain ⟨r2, h2, p2⟩ := ih fun b hb => h b (by simp [hb])
    refine ⟨min r1 r2, lt_min h1 h2, fun b hb => ?_⟩
    rcases List.mem_cons.1 hb with rfl | hb
    · exact hmono _ _ _ p1 (min_le_left _ _)
    · exact hmono _ _ _ (p2 b hb) (min_le_right _ _)

/-- The form with the five coefficients. -/
def formOf (w : Fin 5 → ℝ) (x y : V3) : ℝ := form5 (w 0) (w 1) (w 2) (w 3) (w 4) x y

/-- How far the form is from a multiple of the scalar product on the plane of `x` and `y`, which are orthogonal and of equal length. -/
def formDefect (w : Fin 5 → ℝ) (x y : V3) : ℝ := (formOf w x x - formOf w y y) ^ 2 + formOf w x y ^ 2

theorem formDefect_nonneg (w : Fin 5 → ℝ) (x y : V3) : 0 ≤ formDefect w x y := by unfold formDefect; positivity

theorem formOf_smul (w : Fin 5 → ℝ) (k : ℝ) (x y : V3) : formOf w (V3.smul k x) (V3.smul k y) = k ^ 2 * formOf w x y := by
  simp only [formOf, form5, V3.smul]; ring

theorem formDefect_smul (w : Fin 5 → ℝ) (k : ℝ) (x y : V3) : formDefect w (V3.smul k x) (V3.smul k y) = (k ^ 2) ^ 2 * formDefect w x y := by
  simp only [formDefect, formOf_smul]; ring

theorem formDefect_scale (w : Fin 5 → ℝ) (k : ℝ) (x y : V3) : formDefect (fun i => k * w i) x y = k ^ 2 * formDefect w x y := by
  simp only [formDefect, formOf, form5]; ring

/-- The point `p.x u1 + p.y u2 + u0`, with the three vectors given by nine numbers. -/
def planePoint (u : Fin 9 → ℝ) (p : V3) : V3 :=
  ⟨u 0 + p.x * u 3 + p.y * u 6, u 1 + p.x * u 4 + p.y * u 7, u 2 + p.x * u 5 + p.y * u 8⟩

def col0 (u : Fin 9 → ℝ) : V3 := ⟨u 0, u 1, u 2⟩
def col1 (u : Fin 9 → ℝ) : V3 := ⟨u 3, u 4, u 5⟩
def col2 (u : Fin 9 → ℝ) : V3 := ⟨u 6, u 7, u 8⟩

theorem planePoint_eq (u : Fin 9 → ℝ) (p : V3) : planePoint u p = col0 u + V3.smul p.x (col1 u) + V3.smul p.y (col2 u) := by
  ext <;> simp [planePoint, col0, col1, col2, V3.smul]

def cols (a b c : V3) : Fin 9 → ℝ := ![a.x, a.y, a.z, b.x, b.y, b.z, c.x, c.y, c.z]

theorem apply_plane (T : Iso) (p : V3) (hp : p.z = 0) :
    T.apply p = T.t + V3.smul p.x T.R.c0 + V3.smul p.y T.R.c1 := by
  ext <;> simp [Iso.apply, M3.mulVec, V3.smul, M3.c0, M3.c1, hp] <;> ring

theorem columns_triple {T : Iso} (hT : T.IsRigid) : T.R.c0.triple T.R.c1 T.t = -T.inv.t.z := by
  obtain ⟨c1, c2, c3, c4, c5, c6, c7, c8, c9⟩ := M3.IsRot.cof hT
  simp only [V3.triple, V3.cross, V3.dot, M3.c0, M3.c1, Iso.inv, M3.tr, M3.mulVec, V3.neg_z]
  linear_combination (T.t.x * c7 + T.t.y * c8 + T.t.z * c9)

/-- The total defect of a map of the plane and a form. -/
def viewDefect (T : Iso) (a b c d : V3) (x : (Fin 9 → ℝ) × (Fin 5 → ℝ)) : ℝ :=
  rayDefect (T.apply a) (planePoint x.1 a) + rayDefect (T.apply b) (planePoint x.1 b) + rayDefect (T.apply c) (planePoint x.1 c) +
    rayDefect (T.apply d) (planePoint x.1 d) + formDefect x.2 (col1 x.1) (col2 x.1)

theorem viewDefect_continuous (T : Iso) (a b c d : V3) : Continuous (viewDefect T a b c d) := by
  unfold viewDefect rayDefect planePoint formDefect formOf form5 col1 col2
  fun_prop

theorem viewDefect_zero {T : Iso} (hT : T.IsRigid) (hcam : T.inv.t.z ≠ 0) {a b c d : V3} (hq : Quadrangle a b c d)
    (hz : ∀ p ∈ [a, b, c, d], (T.apply p).z ≠ 0) {x : (Fin 9 → ℝ) × (Fin 5 → ℝ)} (hx : x.1 ∈ unitSphere 9)
    (h : viewDefect T a b c d x ≤ 0) : formDefect x.2 T.R.c0 T.R.c1 ≤ 0 := by
  have n1 := rayDefect_nonneg (T.apply a) (planePoint x.1 a)
  have n2 := rayDefect_nonneg (T.apply b) (planePoint x.1 b)
  have n3 := rayDefect_nonneg (T.apply c) (planePoint x.1 c)
  have n4 := rayDefect_nonneg (T.apply d) (planePoint x.1 d)
  have n5 := formDefect_nonneg x.2 (col1 x.1) (col2 x.1)
  unfold viewDefect at h
  have key : ∀ p ∈ [a, b, c, d], p.z = 0 → rayDefect (T.apply p) (planePoint x.1 p) ≤ 0 →
      col0 x.1 + V3.smul p.x (col1 x.1) + V3.smul p.y (col2 x.1) =
        V3.smul ((planePoint x.1 p).z / (T.apply p).z) (T.t + V3.smul p.x T.R.c0 + V3.smul p.y T.R.c1) := by
    intro p hp hpz hd
    have := rayDefect_zero (hz p hp) hd
    rw [← planePoint_eq, ← apply_plane T p hpz]
    exact this
  have htr : T.R.c0.triple T.R.c1 T.t ≠ 0 := by rw [columns_triple hT]; exact neg_ne_zero.2 hcam
  obtain ⟨e0, e1, e2⟩ := plane_maps htr hq (key a (by simp) hq.za (by linarith)) (key b (by simp) hq.zb (by linarith))
    (key c (by simp) hq.zc (by linarith)) (key d (by simp) hq.zd (by linarith))
  obtain ⟨k, hk⟩ : ∃ k, k = (planePoint x.1 d).z / (T.apply d).z := ⟨_, rfl⟩
  rw [← hk] at e0 e1 e2
  have hk0 : k ≠ 0 := by
    rintro rfl
    have f0 : x.1 0 = 0 ∧ x.1 1 = 0 ∧ x.1 2 = 0 := by
      refine ⟨?_, ?_, ?_⟩
      · have := congrArg V3.x e0; simpa [col0, V3.smul] using this
      · have := congrArg V3.y e0; simpa [col0, V3.smul] using this
      · have := congrArg V3.z e0; simpa [col0, V3.smul] using this
    have f1 : x.1 3 = 0 ∧ x.1 4 = 0 ∧ x.1 5 = 0 := by
      refine ⟨?_, ?_, ?_⟩
      · have := congrArg V3.x e1; simpa [col1, V3.smul] using this
      · have := congrArg V3.y e1; simpa [col1, V3.smul] using this
      · have := congrArg V3.z e1; simpa [col1, V3.smul] using this
    have f2 : x.1 6 = 0 ∧ x.1 7 = 0 ∧ x.1 8 = 0 := by
      refine ⟨?_, ?_, ?_⟩
      · have := congrArg V3.x e2; simpa [col2, V3.smul] using this
      · have := congrArg V3.y e2; simpa [col2, V3.smul] using this
      · have := congrArg V3.z e2; simpa [col2, V3.smul] using this
    have hs : ∑ i, x.1 i ^ 2 = 1 := hx
    rw [Fin.sum_univ_succ, Fin.sum_univ_eight] at hs
    simp [Fin.succ] at hs
    rw [f0.1, f0.2.1, f0.2.2, f1.1, f1.2.1, f1.2.2, f2.1, f2.2.1, f2.2.2] at hs
    norm_num at hs
  have h5 : formDefect x.2 (col1 x.1) (col2 x.1) ≤ 0 := by linarith
  rw [e1, e2, formDefect_smul] at h5
  have : 0 < (k ^ 2) ^ 2 := by positivity
  exact nonpos_of_mul_nonpos_right h5 this

/-- The rays of the camera `i` through the pixels at which the camera `i'` sees points. -/
noncomputable def otherRay (i i' : Intr) (p : V3) : V3 :=
  shear (i'.fx / i.fx) ((i'.cx - i.cx) / i.fx) (i'.fy / i.fy) ((i'.cy - i.cy) / i.fy) p

theorem otherRay_linear (i i' : Intr) (T : Iso) (p : V3) (hp : p.z = 0) :
    otherRay i i' (T.apply p) = otherRay i i' T.t + V3.smul p.x (otherRay i i' T.R.c0) + V3.smul p.y (otherRay i i' T.R.c1) := by
  rw [apply_plane T p hp]
  ext <;> simp [otherRay, shear, V3.smul] <;> ring

/-- A view in which another camera sees the four points almost at the true pixels: a form for which the directions of the other
target are orthogonal and of equal length, does almost the same with the true directions. -/
theorem viewForm_stable {i : Intr} (hfx : i.fx ≠ 0) (hfy : i.fy ≠ 0) {T : Iso} (hT : T.IsRigid) (hcam : T.inv.t.z ≠ 0)
    {a b c d : V3} (hq : Quadrangle a b c d) (hz : ∀ p ∈ [a, b, c, d], (T.apply p).z ≠ 0) {e : ℝ} (he : 0 < e) :
    ∃ r : ℝ, 0 < r ∧ ∀ (i' : Intr) (T' : Iso) (w : Fin 5 → ℝ), w ∈ unitSphere 5 →
      (∀ p ∈ [a, b, c, d], (T'.apply p).z ≠ 0 ∧ |(pinhole i' (T'.apply p)).x - (pinhole i (T.apply p)).x| ≤ r ∧
        |(pinhole i' (T'.apply p)).y - (pinhole i (T.apply p)).y| ≤ r) →
      formDefect w (otherRay i i' T'.R.c0) (otherRay i i' T'.R.c1) = 0 → formDefect w T.R.c0 T.R.c1 < e := by
  have hf : Continuous fun x : (Fin 9 → ℝ) × (Fin 5 → ℝ) => formDefect x.2 T.R.c0 T.R.c1 := by
    unfold formDefect formOf form5; fun_prop
  obtain ⟨δ, hδ, hst⟩ := compact_small ((unitSphere_compact 9).prod (unitSphere_compact 5)) (viewDefect_continuous T a b c d) hf
    (fun x hx h => viewDefect_zero hT hcam hq hz hx.1 h) he
  -- bound of the rays
  obtain ⟨C, hC⟩ : ∃ C : V3 → ℝ, C = fun p => (1 + |p.x| + |p.y|) ^ 2 * (T.apply p).z ^ 2 * (1 / i.fx ^ 2 + 1 / i.fy ^ 2) := ⟨_, rfl⟩
  have hC0 : ∀ p, 0 ≤ C p := by intro p; rw [hC]; positivity
  obtain ⟨M, hM⟩ : ∃ M, M = C a + C b + C c + C d + 1 := ⟨_, rfl⟩
  have hM0 : 0 < M := by rw [hM]; linarith [hC0 a, hC0 b, hC0 c, hC0 d]
  refine ⟨Real.sqrt (δ / M), Real.sqrt_pos.2 (by positivity), fun i' T' w hw hp hform => ?_⟩
  obtain ⟨r, hr⟩ : ∃ r, r = Real.sqrt (δ / M) := ⟨_, rfl⟩
  have hrr : r ^ 2 * M = δ := by rw [hr, Real.sq_sqrt (by positivity)]; field_simp
  have hr0 : 0 ≤ r := by rw [hr]; exact Real.sqrt_nonneg _
  rw [← hr] at hp
  -- the map, scaled
  obtain ⟨v, hv⟩ : ∃ v, v = cols (otherRay i i' T'.t) (otherRay i i' T'.R.c0) (otherRay i i' T'.R.c1) := ⟨_, rfl⟩
  have hv0 : col0 v = otherRay i i' T'.t := by rw [hv]; rfl
  have hv1 : col1 v = otherRay i i' T'.R.c0 := by rw [hv]; rfl
  have hv2 : col2 v = otherRay i i' T'.R.c1 := by rw [hv]; rfl
  have hvp : ∀ p : V3, p.z = 0 → planePoint v p = otherRay i i' (T'.apply p) := by
    intro p hpz; rw [planePoint_eq, hv0, hv1, hv2, otherRay_linear i i' T' p hpz]
  obtain ⟨U2, hU2⟩ : ∃ U2, U2 = ∑ j, v j ^ 2 := ⟨_, rfl⟩
  have hU20 : 0 < U2 := by
    rw [hU2]
    refine lt_of_le_of_ne (Finset.sum_nonneg fun j _ => sq_nonneg _) fun h0 => ?_
    have hall : ∀ j, v j = 0 := by
      intro j
      have := (Finset.sum_eq_zero_iff_of_nonneg (fun j _ => sq_nonneg (v j))).1 h0.symm j (Finset.mem_univ j)
      exact pow_eq_zero_iff two_ne_zero |>.1 this
    have h1 := congrArg V3.z (hvp a hq.za)
    simp only [planePoint, hall, otherRay, shear] at h1
    exact (hp a (by simp)).1 (by linarith)
  obtain ⟨k, hk⟩ : ∃ k, k = 1 / Real.sqrt U2 := ⟨_, rfl⟩
  have hk0 : 0 < k := by rw [hk]; exact one_div_pos.2 (Real.sqrt_pos.2 hU20)
  have hkU : k ^ 2 * U2 = 1 := by rw [hk, div_pow, Real.sq_sqrt hU20.le]; field_simp
  obtain ⟨u, hu⟩ : ∃ u : Fin 9 → ℝ, u = fun j => k * v j := ⟨_, rfl⟩
  have husph : u ∈ unitSphere 9 := by
    show ∑ j, u j ^ 2 = 1
    rw [hu, ← hkU, hU2, Finset.mul_sum]
    exact Finset.sum_congr rfl fun j _ => by ring
  have hup : ∀ p : V3, p.z = 0 → planePoint u p = V3.smul k (otherRay i i' (T'.apply p)) := by
    intro p hpz; rw [← hvp p hpz, hu]; ext <;> simp only [planePoint, V3.smul] <;> ring
  have huz : ∀ p : V3, |(planePoint u p).z| ≤ 1 + |p.x| + |p.y| := by
    intro p
    have hb : ∀ j, |u j| ≤ 1 := by
      intro j
      have h1 : u j ^ 2 ≤ ∑ j, u j ^ 2 := Finset.single_le_sum (f := fun j => u j ^ 2) (fun j _ => sq_nonneg _) (Finset.mem_univ j)
      have h2 : ∑ j, u j ^ 2 = 1 := husph
      exact abs_le_of_sq_le_sq (by rw [h2] at h1; linarith) one_pos.le
    show |u 2 + p.x * u 5 + p.y * u 8| ≤ _
    refine (abs_add_three _ _ _).trans ?_
    rw [abs_mul, abs_mul]
    have h1 := mul_le_mul_of_nonneg_left (hb 5) (abs_nonneg p.x)
    have h2 := mul_le_mul_of_nonneg_left (hb 8) (abs_nonneg p.y)
    linarith [hb 2]
  have hray : ∀ p ∈ [a, b, c, d], p.z = 0 → rayDefect (T.apply p) (planePoint u p) ≤ r ^ 2 * C p := by
    intro p hpm hpz
    obtain ⟨g1, g2, g3⟩ := hp p hpm
    have hzp := hz p hpm
    have hub := huz p
    have e1 : (planePoint u p).z = k * (T'.apply p).z := by rw [hup p hpz]; rfl
    have e2 : (planePoint u p).x * (T.apply p).z - (T.apply p).x * (planePoint u p).z =
        (planePoint u p).z * (T.apply p).z * (((pinhole i' (T'.apply p)).x - (pinhole i (T.apply p)).x) / i.fx) := by
      rw [hup p hpz]
      simp only [V3.smul, otherRay, shear, pinhole]
      field_simp
      ring
    have e3 : (planePoint u p).y * (T.apply p).z - (T.apply p).y * (planePoint u p).z =
        (planePoint u p).z * (T.apply p).z * (((pinhole i' (T'.apply p)).y - (pinhole i (T.apply p)).y) / i.fy) := by
      rw [hup p hpz]
      simp only [V3.smul, otherRay, shear, pinhole]
      field_simp
      ring
    unfold rayDefect
    rw [e2, e3, hC]
    have hub2 : (planePoint u p).z ^ 2 ≤ (1 + |p.x| + |p.y|) ^ 2 := sq_le_sq' (by linarith [(abs_le.1 hub).1]) (abs_le.1 hub).2
    have g2' : ((pinhole i' (T'.apply p)).x - (pinhole i (T.apply p)).x) ^ 2 ≤ r ^ 2 := sq_le_sq' (by linarith [(abs_le.1 g2).1]) (abs_le.1 g2).2
    have g3' : ((pinhole i' (T'.apply p)).y - (pinhole i (T.apply p)).y) ^ 2 ≤ r ^ 2 := sq_le_sq' (by linarith [(abs_le.1 g3).1]) (abs_le.1 g3).2
    have k1 : ((planePoint u p).z * (T.apply p).z * (((pinhole i' (T'.apply p)).x - (pinhole i (T.apply p)).x) / i.fx)) ^ 2 ≤
        (1 + |p.x| + |p.y|) ^ 2 * (T.apply p).z ^ 2 * (r ^ 2 / i.fx ^ 2) := by
      rw [mul_pow, mul_pow, div_pow]
      exact mul_le_mul (mul_le_mul_of_nonneg_right hub2 (sq_nonneg _)) (div_le_div_of_nonneg_right g2' (sq_nonneg _)) (by positivity) (by positivity)
    have k2 : ((planePoint u p).z * (T.apply p).z * (((pinhole i' (T'.apply p)).y - (pinhole i (T.apply p)).y) / i.fy)) ^ 2 ≤
        (1 + |p.x| + |p.y|) ^ 2 * (T.apply p).z ^ 2 * (r ^ 2 / i.fy ^ 2) := by
      rw [mul_pow, mul_pow, div_pow]
      exact mul_le_mul (mul_le_mul_of_nonneg_right hub2 (sq_nonneg _)) (div_le_div_of_nonneg_right g3' (sq_nonneg _)) (by positivity) (by positivity)
    refine (add_le_add k1 k2).trans (le_of_eq ?_)
    ring
  refine hst (u, w) ⟨husph, hw⟩ ?_
  unfold viewDefect
  have hfd : formDefect w (col1 u) (col2 u) = 0 := by
    have c1 : col1 u = V3.smul k (otherRay i i' T'.R.c0) := by rw [← hv1, hu]; rfl
    have c2 : col2 u = V3.smul k (otherRay i i' T'.R.c1) := by rw [← hv2, hu]; rfl
    rw [c1, c2, formDefect_smul, hform, mul_zero]
  have l1 := hray a (by simp) hq.za
  have l2 := hray b (by simp) hq.zb
  have l3 := hray c (by simp) hq.zc
  have l4 := hray d (by simp) hq.zd
  simp only [hfd, add_zero]
  have : r ^ 2 * (C a + C b + C c + C d) ≤ δ := by rw [← hrr, hM]; nlinarith [sq_nonneg r]
  nlinarith

/-- A form that belongs to the camera `i'`. -/
theorem other_form (i i' : Intr) :
    ∃ w ∈ unitSphere 5, (∀ T' : Iso, T'.IsRigid → formDefect w (otherRay i i' T'.R.c0) (otherRay i i' T'.R.c1) = 0) ∧
      (w 1 ≠ 0 → w 0 * (i'.fx / i.fx) ^ 2 = w 1 * (i'.fy / i.fy) ^ 2 ∧ w 3 = -((i'.cx - i.cx) / i.fx) * w 0 ∧
        w 4 = -((i'.cy - i.cy) / i.fy) * w 1 ∧
        w 2 = ((i'.cx - i.cx) / i.fx) ^ 2 * w 0 + ((i'.cy - i.cy) / i.fy) ^ 2 * w 1 + w 0 * (i'.fx / i.fx) ^ 2) := by
  unfold otherRay
  generalize i'.fx / i.fx = a
  generalize (i'.cx - i.cx) / i.fx = b
  generalize i'.fy / i.fy = c
  generalize (i'.cy - i.cy) / i.fy = d
  -- scaling to length one
  suffices hs : ∃ w : Fin 5 → ℝ, 0 < ∑ j, w j ^ 2 ∧
      (∀ T' : Iso, T'.IsRigid → formDefect w (shear a b c d T'.R.c0) (shear a b c d T'.R.c1) = 0) ∧
      (w 1 ≠ 0 → w 0 * a ^ 2 = w 1 * c ^ 2 ∧ w 3 = -b * w 0 ∧ w 4 = -d * w 1 ∧ w 2 = b ^ 2 * w 0 + d ^ 2 * w 1 + w 0 * a ^ 2) by
    obtain ⟨w, hpos, h1, h2⟩ := hs
    obtain ⟨k, hk⟩ : ∃ k, k = 1 / Real.sqrt (∑ j, w j ^ 2) := ⟨_, rfl⟩
    have hk0 : 0 < k := by rw [hk]; exact one_div_pos.2 (Real.sqrt_pos.2 hpos)
    have hkU : k ^ 2 * ∑ j, w j ^ 2 = 1 := by rw [hk, div_pow, Real.sq_sqrt hpos.le]; field_simp
    refine ⟨fun j => k * w j, ?_, fun T' hT' => ?_, fun h => ?_⟩
    · show ∑ j, (k * w j) ^ 2 = 1
      rw [← hkU, Finset.mul_sum]
      exact Finset.sum_congr rfl fun j _ => by ring
    · rw [formDefect_scale, h1 T' hT', mul_zero]
    · obtain ⟨g1, g2, g3, g4⟩ := h2 (right_ne_zero_of_mul h)
      refine ⟨by linear_combination k * g1, by linear_combination k * g2, by linear_combination k * g3, by linear_combination k * g4⟩
  by_cases h0 : a = 0 ∧ c = 0
  · obtain ⟨rfl, rfl⟩ := h0
    refine ⟨![1, 0, b ^ 2, -b, 0], ?_, fun T' _ => ?_, fun h => absurd rfl h⟩
    · simp only [Fin.sum_univ_five]
      simp
      nlinarith [sq_nonneg (b ^ 2), sq_nonneg b]
    · simp [formDefect, formOf, form5, shear]
      ring
  · refine ⟨![c ^ 2, a ^ 2, b ^ 2 * c ^ 2 + a ^ 2 * d ^ 2 + a ^ 2 * c ^ 2, -b * c ^ 2, -d * a ^ 2], ?_, fun T' hT' => ?_, fun _ => ?_⟩
    · have : 0 < (c ^ 2) ^ 2 + (a ^ 2) ^ 2 := by
        by_cases ha : a = 0
        · have hc : c ≠ 0 := fun hc => h0 ⟨ha, hc⟩
          positivity
        · positivity
      simp only [Fin.sum_univ_five]
      simp
      nlinarith [sq_nonneg (b ^ 2 * c ^ 2 + a ^ 2 * d ^ 2 + a ^ 2 * c ^ 2), sq_nonneg (b * c ^ 2), sq_nonneg (d * a ^ 2)]
    · obtain ⟨g1, g2, -, g4, -, -⟩ := M3.IsRot.cols hT'
      have key : ∀ x y : V3, formOf ![c ^ 2, a ^ 2, b ^ 2 * c ^ 2 + a ^ 2 * d ^ 2 + a ^ 2 * c ^ 2, -b * c ^ 2, -d * a ^ 2]
          (shear a b c d x) (shear a b c d y) = a ^ 2 * c ^ 2 * x.dot y := by
        intro x y
        simp [formOf, form5, shear, V3.dot]
        ring
      have d1 : T'.R.c0.dot T'.R.c0 = 1 := by simp only [V3.dot, M3.c0]; exact g1
      have d2 : T'.R.c1.dot T'.R.c1 = 1 := by simp only [V3.dot, M3.c1]; exact g2
      have d3 : T'.R.c0.dot T'.R.c1 = 0 := by simp only [V3.dot, M3.c0, M3.c1]; exact g4
      rw [formDefect, key, key, key, d1, d2, d3]
      ring
    · simp
      refine ⟨by ring, by ring⟩

theorem term_le_sum {α : Type} (f : α → ℝ) (hf : ∀ a, 0 ≤ f a) (l : List α) {a : α} (ha : a ∈ l) : f a ≤ (l.map f).sum := by
  induction l with
  | nil => simp at ha
  | cons b l ih =>
    rw [List.map_cons, List.sum_cons]
    have hs : 0 ≤ (l.map f).sum := List.sum_nonneg fun x hx => by obtain ⟨c, -, rfl⟩ := List.mem_map.1 hx; exact hf c
    rcases List.mem_cons.1 ha with rfl | ha
    · linarith
    · linarith [ih ha, hf b]

/-- How far a form is from a multiple of the scalar product. -/
def scalarDefect (w : Fin 5 → ℝ) : ℝ := (w 0 - w 1) ^ 2 + (w 0 - w 2) ^ 2 + w 3 ^ 2 + w 4 ^ 2

/-- Forms that are almost a multiple of the scalar product on planes of not too few directions, are almost one everywhere. -/
theorem forms_stable {Ts : List Iso} (hT : ∀ T ∈ Ts, T.IsRigid) (hfew : ¬ FewDirections (Ts.map Spec.planeNormal)) {e : ℝ} (he : 0 < e) :
    ∃ r : ℝ, 0 < r ∧ ∀ w ∈ unitSphere 5, (∀ T ∈ Ts, formDefect w T.R.c0 T.R.c1 ≤ r) → scalarDefect w < e := by
  have hg : Continuous fun w : Fin 5 → ℝ => (Ts.map fun T => formDefect w T.R.c0 T.R.c1).sum := by
    refine continuous_list_sum _ fun T _ => ?_
    unfold formDefect formOf form5; fun_prop
  have hf : Continuous scalarDefect := by unfold scalarDefect; fun_prop
  obtain ⟨δ, hδ, hst⟩ := compact_small (unitSphere_compact 5) hg hf (fun w _ h => by
    have hall : ∀ T ∈ Ts, formDefect w T.R.c0 T.R.c1 ≤ 0 := by
      intro T hTm
      exact (term_le_sum (fun T : Iso => formDefect w T.R.c0 T.R.c1) (fun T => formDefect_nonneg ..) Ts hTm).trans h
    obtain ⟨h1, h2, h3, h4⟩ := form5_scalar (q00 := w 0) (q11 := w 1) (q22 := w 2) (q02 := w 3) (q12 := w 4)
      (ns := Ts.map Spec.planeNormal)
      (by
        intro n hn h0
        obtain ⟨T, hTm, rfl⟩ := List.mem_map.1 hn
        obtain ⟨-, -, c3, -⟩ := M3.IsRot.cols (hT T hTm)
        have e0 := congrArg V3.x h0; have e1 := congrArg V3.y h0; have e2 := congrArg V3.z h0
        simp only [Spec.planeNormal, V3.zero_x, V3.zero_y, V3.zero_z] at e0 e1 e2
        rw [e0, e1, e2] at c3
        norm_num at c3)
      hfew
      (by
        intro n hn
        obtain ⟨T, hTm, rfl⟩ := List.mem_map.1 hn
        have hd := hall T hTm
        unfold formDefect at hd
        have z1 : formOf w T.R.c0 T.R.c0 - formOf w T.R.c1 T.R.c1 = 0 := by
          have := sq_nonneg (formOf w T.R.c0 T.R.c0 - formOf w T.R.c1 T.R.c1); have := sq_nonneg (formOf w T.R.c0 T.R.c1)
          exact pow_eq_zero_iff two_ne_zero |>.1 (by linarith)
        have z2 : formOf w T.R.c0 T.R.c1 = 0 := by
          have := sq_nonneg (formOf w T.R.c0 T.R.c0 - formOf w T.R.c1 T.R.c1); have := sq_nonneg (formOf w T.R.c0 T.R.c1)
          exact pow_eq_zero_iff two_ne_zero |>.1 (by linarith)
        exact ⟨formOf w T.R.c0 T.R.c0, plane_form (hT T hTm) rfl (by show formOf w T.R.c1 T.R.c1 = _; linarith) z2⟩)
    unfold scalarDefect
    rw [h1, h2, h3, h4]
    simp) he
  refine ⟨δ / (Ts.length + 1), by positivity, fun w hw h => hst w hw ?_⟩
  have hb : (Ts.map fun T => formDefect w T.R.c0 T.R.c1).sum ≤ (Ts.length : ℝ) * (δ / (Ts.length + 1)) := by
    clear hst hg hfew hT
    generalize δ / ((Ts.length : ℝ) + 1) = r at h
    induction Ts with
    | nil => simp
    | cons T l ih =>
      have h1 := h T (by simp)
      have h2 := ih fun S hS => h S (by simp [hS])
      simp only [List.map_cons, List.sum_cons, List.length_cons]
      push_cast
      linarith
  refine hb.trans ?_
  rw [mul_div_assoc', div_le_iff₀ (by positivity)]
  nlinarith

theorem le_of_factor {x y A k : ℝ} (hx : 0 ≤ x) (hk : 0 < k) (hy : k ≤ y) (h : x * y ≤ A) : x ≤ A / k := by
  rw [le_div_iff₀ hk]
  exact (mul_le_mul_of_nonneg_left hy hx).trans h

theorem factor_le {x y A : ℝ} (hy : 0 ≤ y) (hy1 : y ≤ 1) (hA : 0 ≤ A) (h : x ≤ A) : x * y ≤ A :=
  (mul_le_mul h hy1 hy hA).trans (by linarith)

/-- Reading focal lengths and centre off a form that is almost a multiple of the scalar product. -/
theorem read_off {w : Fin 5 → ℝ} (hw : w ∈ unitSphere 5) {a b c d η : ℝ} (hη : 0 ≤ η) (hη8 : η ≤ 1 / 8) (h : scalarDefect w < η ^ 2)
    (hrel : w 1 ≠ 0 → w 0 * a ^ 2 = w 1 * c ^ 2 ∧ w 3 = -b * w 0 ∧ w 4 = -d * w 1 ∧ w 2 = b ^ 2 * w 0 + d ^ 2 * w 1 + w 0 * a ^ 2) :
    |a ^ 2 - 1| ≤ 40 * η ∧ |c ^ 2 - 1| ≤ 40 * η ∧ |b| ≤ 40 * η ∧ |d| ≤ 40 * η := by
  have hs : ∑ j, w j ^ 2 = 1 := hw
  rw [Fin.sum_univ_five] at hs
  unfold scalarDefect at h
  have s1 : |w 0 - w 1| ≤ η := abs_le_of_sq_le_sq (by nlinarith [sq_nonneg (w 0 - w 2), sq_nonneg (w 3), sq_nonneg (w 4)]) hη
  have s2 : |w 0 - w 2| ≤ η := abs_le_of_sq_le_sq (by nlinarith [sq_nonneg (w 0 - w 1), sq_nonneg (w 3), sq_nonneg (w 4)]) hη
  have s3 : |w 3| ≤ η := abs_le_of_sq_le_sq (by nlinarith [sq_nonneg (w 0 - w 2), sq_nonneg (w 0 - w 1), sq_nonneg (w 4)]) hη
  have s4 : |w 4| ≤ η := abs_le_of_sq_le_sq (by nlinarith [sq_nonneg (w 0 - w 2), sq_nonneg (w 3), sq_nonneg (w 0 - w 1)]) hη
  have b0 : |w 0| ≤ 1 := abs_le_of_sq_le_sq (by nlinarith [sq_nonneg (w 1), sq_nonneg (w 2), sq_nonneg (w 3), sq_nonneg (w 4)]) one_pos.le
  have b1 : |w 1| ≤ 1 := abs_le_of_sq_le_sq (by nlinarith [sq_nonneg (w 0), sq_nonneg (w 2), sq_nonneg (w 3), sq_nonneg (w 4)]) one_pos.le
  -- the first two coefficients are not small
  have t1 : |w 1| ≤ |w 0| + η := by have := abs_sub_abs_le_abs_sub (w 1) (w 0); rw [abs_sub_comm] at this; linarith
  have t2 : |w 2| ≤ |w 0| + η := by have := abs_sub_abs_le_abs_sub (w 2) (w 0); rw [abs_sub_comm] at this; linarith
  have t3 : |w 0| - η ≤ |w 1| := by have := abs_sub_abs_le_abs_sub (w 0) (w 1); linarith
  have big : 3 / 8 ≤ |w 0| := by
    by_contra hlt
    push Not at hlt
    have q0 : w 0 ^ 2 ≤ (3 / 8) ^ 2 := by rw [← sq_abs]; exact pow_le_pow_left₀ (abs_nonneg _) hlt.le 2
    have q1 : w 1 ^ 2 ≤ (1 / 2) ^ 2 := by rw [← sq_abs]; exact pow_le_pow_left₀ (abs_nonneg _) (by linarith) 2
    have q2 : w 2 ^ 2 ≤ (1 / 2) ^ 2 := by rw [← sq_abs]; exact pow_le_pow_left₀ (abs_nonneg _) (by linarith) 2
    have q3 : w 3 ^ 2 ≤ (1 / 8) ^ 2 := by rw [← sq_abs]; exact pow_le_pow_left₀ (abs_nonneg _) (by linarith) 2
    have q4 : w 4 ^ 2 ≤ (1 / 8) ^ 2 := by rw [← sq_abs]; exact pow_le_pow_left₀ (abs_nonneg _) (by linarith) 2
    norm_num at q0 q1 q2 q3 q4
    linarith
  have big1 : 1 / 4 ≤ |w 1| := by linarith
  obtain ⟨r1, r2, r3, r4⟩ := hrel (fun h0 => by rw [h0, abs_zero] at big1; linarith)
  have hb : |b| ≤ 4 * η := by
    have : |w 3| = |b| * |w 0| := by rw [r2, neg_mul, abs_neg, abs_mul]
    have := le_of_factor (abs_nonneg b) (by norm_num) big (this ▸ s3)
    linarith
  have hd : |d| ≤ 4 * η := by
    have : |w 4| = |d| * |w 1| := by rw [r3, neg_mul, abs_neg, abs_mul]
    have := le_of_factor (abs_nonneg d) (by norm_num) big1 (this ▸ s4)
    linarith
  have hb2 : b ^ 2 ≤ 2 * η := by
    rw [← sq_abs]
    refine (pow_le_pow_left₀ (abs_nonneg b) hb 2).trans ?_
    nlinarith only [hη, hη8]
  have hd2 : d ^ 2 ≤ 2 * η := by
    rw [← sq_abs]
    refine (pow_le_pow_left₀ (abs_nonneg d) hd 2).trans ?_
    nlinarith only [hη, hη8]
  have ha : |(a ^ 2 - 1) * w 0| ≤ 5 * η := by
    have e : (a ^ 2 - 1) * w 0 = -(w 0 - w 2) - b ^ 2 * w 0 - d ^ 2 * w 1 := by linear_combination -r4
    have l1 : |b ^ 2 * w 0| ≤ 2 * η := by rw [abs_mul, abs_of_nonneg (sq_nonneg b)]; exact factor_le (abs_nonneg _) b0 (by linarith) hb2
    have l2 : |d ^ 2 * w 1| ≤ 2 * η := by rw [abs_mul, abs_of_nonneg (sq_nonneg d)]; exact factor_le (abs_nonneg _) b1 (by linarith) hd2
    rw [e]
    rw [abs_le] at s2 l1 l2 ⊢
    constructor <;> linarith [s2.1, s2.2, l1.1, l1.2, l2.1, l2.2]
  have hc : |(c ^ 2 - 1) * w 1| ≤ 6 * η := by
    have e : (c ^ 2 - 1) * w 1 = (a ^ 2 - 1) * w 0 + (w 0 - w 1) := by linear_combination -r1
    rw [e]
    rw [abs_le] at s1 ha ⊢
    constructor <;> linarith [s1.1, s1.2, ha.1, ha.2]
  rw [abs_mul] at ha hc
  refine ⟨?_, ?_, by linarith, by linarith⟩
  · have := le_of_factor (abs_nonneg _) (by norm_num) big ha
    linarith
  · have := le_of_factor (abs_nonneg _) (by norm_num) big1 hc
    linarith

theorem focal_close {f f' η : ℝ} (hf : f ≠ 0) (h : |(f' / f) ^ 2 - 1| ≤ η) : |(|f'| - |f|)| ≤ η * |f| := by
  have hpos : 0 < |f| := abs_pos.2 hf
  have e : |f'| - |f| = (|f' / f| - 1) * |f| := by rw [abs_div]; field_simp
  rw [e, abs_mul, abs_abs]
  refine mul_le_mul_of_nonneg_right (le_trans ?_ h) hpos.le
  have e2 : (f' / f) ^ 2 - 1 = (|f' / f| - 1) * (|f' / f| + 1) := by rw [← sq_abs]; ring
  rw [e2, abs_mul]
  have h1 : 1 ≤ |(|f' / f| + 1)| := by rw [abs_of_nonneg (by positivity)]; linarith [abs_nonneg (f' / f)]
  exact le_mul_of_one_le_right (abs_nonneg _) h1

theorem centre_close {f x x' η : ℝ} (hf : f ≠ 0) (h : |(x' - x) / f| ≤ η) : |x' - x| ≤ η * |f| := by
  rw [abs_div, div_le_iff₀ (abs_pos.2 hf)] at h
  exact h

/-- Plane targets in poses of not too few directions: a camera that sees the four points of every view almost where the true
camera sees them, is almost the true camera. -/
theorem camera_stable {i : Intr} (hfx : i.fx ≠ 0) (hfy : i.fy ≠ 0) {good : List Nat} {T : Nat → Iso} {pts : Nat → List V3}
    (hv : ∀ j ∈ good, (T j).IsRigid ∧ (T j).inv.t.z ≠ 0 ∧ (∃ a ∈ pts j, ∃ b ∈ pts j, ∃ c ∈ pts j, ∃ d ∈ pts j, Quadrangle a b c d) ∧
      ∀ p ∈ pts j, ((T j).apply p).z ≠ 0)
    (hfew : ¬ FewDirections (good.map fun j => Spec.planeNormal (T j))) {e : ℝ} (he : 0 < e) :
    ∃ r : ℝ, 0 < r ∧ ∀ (i' : Intr) (T' : Nat → Iso), (∀ j ∈ good, (T' j).IsRigid ∧ ∀ p ∈ pts j, ((T' j).apply p).z ≠ 0 ∧
      |(pinhole i' ((T' j).apply p)).x - (pinhole i ((T j).apply p)).x| ≤ r ∧
      |(pinhole i' ((T' j).apply p)).y - (pinhole i ((T j).apply p)).y| ≤ r) → CloseCamera e i' i := by
  obtain ⟨η, hη⟩ : ∃ η, η = min (1 / 8) (e / (40 * (|i.fx| + |i.fy|))) := ⟨_, rfl⟩
  have hx0 : 0 < |i.fx| := abs_pos.2 hfx
  have hy0 : 0 < |i.fy| := abs_pos.2 hfy
  have hη0 : 0 < η := by rw [hη]; exact lt_min (by norm_num) (by positivity)
  have hη8 : η ≤ 1 / 8 := by rw [hη]; exact min_le_left _ _
  have hηe : 40 * η * (|i.fx| + |i.fy|) ≤ e := by
    have : η ≤ e / (40 * (|i.fx| + |i.fy|)) := by rw [hη]; exact min_le_right _ _
    rw [le_div_iff₀ (by positivity)] at this
    linarith
  obtain ⟨ρ, hρ, hforms⟩ := forms_stable (Ts := good.map T) (e := η ^ 2)
    (by intro S hS; obtain ⟨j, hj, rfl⟩ := List.mem_map.1 hS; exact (hv j hj).1) (by rw [List.map_map]; exact hfew) (by positivity)
  obtain ⟨r, hr, hall⟩ := uniform_bound (fun j r => ∀ (i' : Intr) (T' : Iso) (w : Fin 5 → ℝ), w ∈ unitSphere 5 →
      (∀ p ∈ pts j, (T'.apply p).z ≠ 0 ∧ |(pinhole i' (T'.apply p)).x - (pinhole i ((T j).apply p)).x| ≤ r ∧
        |(pinhole i' (T'.apply p)).y - (pinhole i ((T j).apply p)).y| ≤ r) →
      formDefect w (otherRay i i' T'.R.c0) (otherRay i i' T'.R.c1) = 0 → formDefect w (T j).R.c0 (T j).R.c1 < ρ)
    (fun j r r' h hle i' T' w hw hp hf => h i' T' w hw (fun p hpm => ⟨(hp p hpm).1, (hp p hpm).2.1.trans hle, (hp p hpm).2.2.trans hle⟩) hf)
    good (fun j hj => by
      obtain ⟨h1, h2, ⟨a, ha, b, hb, c, hc, d, hd, hq⟩, h4⟩ := hv j hj
      have hmem : ∀ p ∈ [a, b, c, d], p ∈ pts j := by
        intro p hp
        simp only [List.mem_cons, List.not_mem_nil, or_false] at hp
        rcases hp with rfl | rfl | rfl | rfl <;> assumption
      obtain ⟨r, hr, hst⟩ := viewForm_stable hfx hfy h1 h2 hq (fun p hp => h4 p (hmem p hp)) hρ
      exact ⟨r, hr, fun i' T' w hw hp hf => hst i' T' w hw (fun p hpm => hp p (hmem p hpm)) hf⟩)
  refine ⟨r, hr, fun i' T' h => ?_⟩
  obtain ⟨w, hw, hw1, hw2⟩ := other_form i i'
  have hsd := hforms w hw (by
    intro S hS
    obtain ⟨j, hj, rfl⟩ := List.mem_map.1 hS
    exact (hall j hj i' (T' j) w hw (h j hj).2 (hw1 _ (h j hj).1)).le)
  obtain ⟨r1, r2, r3, r4⟩ := read_off hw hη0.le hη8 hsd hw2
  refine ⟨(focal_close hfx r1).trans ?_, (focal_close hfy r2).trans ?_, (centre_close hfx r3).trans ?_, (centre_close hfy r4).trans ?_⟩ <;>
    nlinarith


/-- Same sign and almost the same size. -/
theorem abs_sub_of_sign {f f' ε : ℝ} (hs : 0 < f' * f) (h : |(|f'| - |f|)| ≤ ε) : |f' - f| ≤ ε := by
  rcases lt_or_ge 0 f with hf | hf
  · have hf' : 0 < f' := by
      by_contra h0
      have := mul_nonpos_of_nonpos_of_nonneg (not_lt.1 h0) hf.le
      linarith
    rwa [abs_of_pos hf, abs_of_pos hf'] at h
  · have hf' : f' < 0 := by
      by_contra h0
      have := mul_nonpos_of_nonneg_of_nonpos (not_lt.1 h0) hf
      linarith
    rw [abs_of_nonpos hf, abs_of_neg hf', ← abs_neg] at h
    convert h using 2
    ring

/-- One coordinate of a pixel: the true camera sees the point almost where the other camera does. -/
theorem coord_stable {f c u δ : ℝ} (hf : f ≠ 0) (hδ : 0 < δ) :
    ∃ ε : ℝ, 0 < ε ∧ ∀ f' c' X : ℝ, 0 < f' * f → |(|f'| - |f|)| ≤ ε → |c' - c| ≤ ε → |f' * X + c' - u| ≤ ε → |f * X + c - u| ≤ δ := by
  have hf0 : 0 < |f| := abs_pos.2 hf
  obtain ⟨B, hB⟩ : ∃ B, B = 2 * (|u| + |c| + 2) / |f| := ⟨_, rfl⟩
  have hB0 : 0 < B := by rw [hB]; positivity
  obtain ⟨ε, hε⟩ : ∃ ε, ε = min (min 1 (|f| / 2)) (δ / (B + 2)) := ⟨_, rfl⟩
  have hε0 : 0 < ε := by rw [hε]; exact lt_min (lt_min one_pos (by positivity)) (by positivity)
  have hε1 : ε ≤ 1 := by rw [hε]; exact (min_le_left _ _).trans (min_le_left _ _)
  have hεf : ε ≤ |f| / 2 := by rw [hε]; exact (min_le_left _ _).trans (min_le_right _ _)
  have hεδ : ε * (B + 2) ≤ δ := by
    have : ε ≤ δ / (B + 2) := by rw [hε]; exact min_le_right _ _
    rwa [le_div_iff₀ (by positivity)] at this
  refine ⟨ε, hε0, fun f' c' X hs h1 h2 h3 => ?_⟩
  have hff := abs_sub_of_sign hs h1
  have hf' : |f| / 2 ≤ |f'| := by have := (abs_le.1 h1).1; linarith
  have hX : |X| ≤ B := by
    have e : |f' * X| ≤ |u| + |c| + 2 := by
      have k1 : f' * X = (f' * X + c' - u) + u - (c' - c) - c := by ring
      rw [k1]
      have a1 := le_abs_self u; have a2 := neg_abs_le u; have a3 := le_abs_self c; have a4 := neg_abs_le c
      rw [abs_le] at h2 h3 ⊢
      constructor <;> linarith [h2.1, h2.2, h3.1, h3.2]
    rw [abs_mul, mul_comm] at e
    have := le_of_factor (abs_nonneg X) (by positivity) hf' e
    rw [hB]
    refine this.trans (le_of_eq ?_)
    field_simp
  have e : f * X + c - u = (f' * X + c' - u) - (f' - f) * X - (c' - c) := by ring
  have l1 : |(f' - f) * X| ≤ ε * B := by rw [abs_mul]; exact mul_le_mul hff hX (abs_nonneg _) hε0.le
  rw [e]
  rw [abs_le] at h2 h3 l1 ⊢
  constructor <;> nlinarith [h2.1, h2.2, h3.1, h3.2, l1.1, l1.2]

/-- If all is in front of the camera and the signs of the focal lengths are right, the poses are almost the true poses too. -/
theorem pose_stable {i : Intr} (hfx : i.fx ≠ 0) (hfy : i.fy ≠ 0) {T : Iso} {pts : List V3} (hT : T.IsRigid) (hcam : T.inv.t.z ≠ 0)
    (hq : ∃ a ∈ pts, ∃ b ∈ pts, ∃ c ∈ pts, ∃ d ∈ pts, Quadrangle a b c d) (hz : ∀ p ∈ pts, 0 < (T.apply p).z) {e : ℝ} (he : 0 < e) :
    ∃ r : ℝ, 0 < r ∧ ∀ (i' : Intr) (T' : Iso), CloseCamera r i' i → 0 < i'.fx * i.fx → 0 < i'.fy * i.fy → T'.IsRigid →
      (∀ p ∈ pts, 0 < (T'.apply p).z ∧ |(pinhole i' (T'.apply p)).x - (pinhole i (T.apply p)).x| ≤ r ∧
        |(pinhole i' (T'.apply p)).y - (pinhole i (T.apply p)).y| ≤ r) → Close e T' T := by
  obtain ⟨a, ha, b, hb, c, hc, d, hd, hq⟩ := hq
  have hmem : ∀ p ∈ [a, b, c, d], p ∈ pts := by
    intro p hp
    simp only [List.mem_cons, List.not_mem_nil, or_false] at hp
    rcases hp with rfl | rfl | rfl | rfl <;> assumption
  obtain ⟨δ, hδ, hst⟩ := planar_stable hfx hfy hT hq hcam (fun k hk => hz k (hmem k hk)) he
  obtain ⟨r, hr, hall⟩ := uniform_bound (fun (p : V3) r => (∀ f' c' X : ℝ, 0 < f' * i.fx → |(|f'| - |i.fx|)| ≤ r → |c' - i.cx| ≤ r →
        |f' * X + c' - (pinhole i (T.apply p)).x| ≤ r → |i.fx * X + i.cx - (pinhole i (T.apply p)).x| ≤ δ) ∧
      (∀ f' c' X : ℝ, 0 < f' * i.fy → |(|f'| - |i.fy|)| ≤ r → |c' - i.cy| ≤ r →
        |f' * X + c' - (pinhole i (T.apply p)).y| ≤ r → |i.fy * X + i.cy - (pinhole i (T.apply p)).y| ≤ δ))
    (fun p r r' h hle => ⟨fun f' c' X g1 g2 g3 g4 => h.1 f' c' X g1 (g2.trans hle) (g3.trans hle) (g4.trans hle),
      fun f' c' X g1 g2 g3 g4 => h.2 f' c' X g1 (g2.trans hle) (g3.trans hle) (g4.trans hle)⟩) [a, b, c, d]
    (fun p _ => by
      obtain ⟨ε1, p1, h1⟩ := coord_stable (c := i.cx) (u := (pinhole i (T.apply p)).x) hfx hδ
      obtain ⟨ε2, p2, h2⟩ := coord_stable (c := i.cy) (u := (pinhole i (T.apply p)).y) hfy hδ
      refine ⟨min ε1 ε2, lt_min p1 p2, fun f' c' X g1 g2 g3 g4 => h1 f' c' X g1 ?_ ?_ ?_, fun f' c' X g1 g2 g3 g4 => h2 f' c' X g1 ?_ ?_ ?_⟩
      · exact g2.trans (min_le_left _ _)
      · exact g3.trans (min_le_left _ _)
      · exact g4.trans (min_le_left _ _)
      · exact g2.trans (min_le_right _ _)
      · exact g3.trans (min_le_right _ _)
      · exact g4.trans (min_le_right _ _))
  refine ⟨r, hr, fun i' T' hcc s1 s2 hT' h => hst T' hT' fun p hp => ?_⟩
  obtain ⟨c1, c2, c3, c4⟩ := hcc
  obtain ⟨g1, g2, g3⟩ := h p (hmem p hp)
  exact ⟨g1, (hall p hp).1 _ _ _ s1 c1 c3 g2, (hall p hp).2 _ _ _ s2 c2 c4 g3⟩

end RCT
