import Verif.Spec.Stable
import Verif.Lemmas.Noise
import Mathlib.Topology.Order.Compact
import Mathlib.Topology.Instances.Real.Lemmas
import Mathlib.Topology.Order.Real
import Mathlib.Algebra.BigOperators.Fin
import Mathlib.Topology.Algebra.Monoid

/-!
# Small errors in the image mean small errors of the pose

The rotations form a compact set; that only the true pose has the true image therefore implies that poses with almost the true
image are almost the true pose.
-/

namespace RCT

open Spec

/-- A pose from its entries. -/
def isoOf (v : Fin 12 → ℝ) : Iso := ⟨⟨v 0, v 1, v 2, v 3, v 4, v 5, v 6, v 7, v 8⟩, ⟨v 9, v 10, v 11⟩⟩

def Iso.entries (T : Iso) : Fin 12 → ℝ :=
  ![T.R.m00, T.R.m01, T.R.m02, T.R.m10, T.R.m11, T.R.m12, T.R.m20, T.R.m21, T.R.m22, T.t.x, T.t.y, T.t.z]

theorem isoOf_entries (T : Iso) : isoOf T.entries = T := rfl

/-- Sum of the squared differences of the entries. -/
def entryDiff (v w : Fin 12 → ℝ) : ℝ := ∑ i, (v i - w i) ^ 2

theorem entryDiff_le {v w : Fin 12 → ℝ} {e : ℝ} (he : 0 ≤ e) (h : entryDiff v w ≤ e ^ 2) (i : Fin 12) : |v i - w i| ≤ e := by
  have h1 : (v i - w i) ^ 2 ≤ entryDiff v w := Finset.single_le_sum (f := fun j => (v j - w j) ^ 2) (fun j _ => sq_nonneg _) (Finset.mem_univ i)
  exact abs_le_of_sq_le_sq (h1.trans h) he

theorem V3.norm_le_abs (a : V3) : a.norm ≤ |a.x| + |a.y| + |a.z| := by
  refine V3.norm_le_of_normSq (by positivity) ?_
  simp only [V3.normSq, V3.dot]
  rw [← abs_mul_abs_self a.x, ← abs_mul_abs_self a.y, ← abs_mul_abs_self a.z]
  nlinarith [mul_nonneg (abs_nonneg a.x) (abs_nonneg a.y), mul_nonneg (abs_nonneg a.x) (abs_nonneg a.z),
    mul_nonneg (abs_nonneg a.y) (abs_nonneg a.z)]

theorem row_le {a b c t a' b' c' t' e : ℝ} (ha : |a - a'| ≤ e) (hb : |b - b'| ≤ e) (hc : |c - c'| ≤ e) (ht : |t - t'| ≤ e) (q : V3) :
    |a * q.x + b * q.y + c * q.z + t - (a' * q.x + b' * q.y + c' * q.z + t')| ≤ e * (1 + 3 * q.norm) := by
  have he : 0 ≤ e := (abs_nonneg _).trans ha
  have h1 : |(a - a') * q.x| ≤ e * q.norm := by rw [abs_mul]; exact mul_le_mul ha q.abs_x_le (abs_nonneg _) he
  have h2 : |(b - b') * q.y| ≤ e * q.norm := by rw [abs_mul]; exact mul_le_mul hb q.abs_y_le (abs_nonneg _) he
  have h3 : |(c - c') * q.z| ≤ e * q.norm := by rw [abs_mul]; exact mul_le_mul hc q.abs_z_le (abs_nonneg _) he
  rw [abs_le] at *
  constructor <;> nlinarith [h1.1, h1.2, h2.1, h2.2, h3.1, h3.2, ht.1, ht.2]

theorem close_of_entries {S T : Iso} {e : ℝ} (he : 0 ≤ e) (h : entryDiff S.entries T.entries ≤ e ^ 2) : Close (9 * e) S T := by
  intro q
  have k := entryDiff_le he h
  refine (V3.norm_le_abs _).trans ?_
  have h1 := row_le (k 0) (k 1) (k 2) (k 9) q
  have h2 := row_le (k 3) (k 4) (k 5) (k 10) q
  have h3 := row_le (k 6) (k 7) (k 8) (k 11) q
  have e1 : |(S.apply q - T.apply q).x| ≤ e * (1 + 3 * q.norm) := h1
  have e2 : |(S.apply q - T.apply q).y| ≤ e * (1 + 3 * q.norm) := h2
  have e3 : |(S.apply q - T.apply q).z| ≤ e * (1 + 3 * q.norm) := h3
  have := q.norm_nonneg
  nlinarith

theorem isRigid_closed : IsClosed {v | (isoOf v).IsRigid} := by
  have : {v | (isoOf v).IsRigid} = {v | v 0 * v 0 + v 3 * v 3 + v 6 * v 6 = 1} ∩ {v | v 1 * v 1 + v 4 * v 4 + v 7 * v 7 = 1} ∩
      {v | v 2 * v 2 + v 5 * v 5 + v 8 * v 8 = 1} ∩ {v | v 0 * v 1 + v 3 * v 4 + v 6 * v 7 = 0} ∩
      {v | v 0 * v 2 + v 3 * v 5 + v 6 * v 8 = 0} ∩ {v | v 1 * v 2 + v 4 * v 5 + v 7 * v 8 = 0} ∩
      {v | v 0 * (v 4 * v 8 - v 5 * v 7) - v 1 * (v 3 * v 8 - v 5 * v 6) + v 2 * (v 3 * v 7 - v 4 * v 6) = 1} := by
    ext v
    constructor
    · intro h
      obtain ⟨h1, h2, h3, h4, h5, h6⟩ := M3.IsRot.cols h
      exact ⟨⟨⟨⟨⟨⟨h1, h2⟩, h3⟩, h4⟩, h5⟩, h6⟩, h.2⟩
    · rintro ⟨⟨⟨⟨⟨⟨h1, h2⟩, h3⟩, h4⟩, h5⟩, h6⟩, h7⟩
      exact M3.IsRot.of_cols h1 h2 h3 h4 h5 h6 h7
  rw [this]
  refine ((((((isClosed_eq ?_ ?_).inter (isClosed_eq ?_ ?_)).inter (isClosed_eq ?_ ?_)).inter (isClosed_eq ?_ ?_)).inter
    (isClosed_eq ?_ ?_)).inter (isClosed_eq ?_ ?_)).inter (isClosed_eq ?_ ?_) <;> fun_prop

theorem sq_le_of_sum {a b c : ℝ} (h : a * a + b * b + c * c = 1) : |a| ≤ 1 ∧ |b| ≤ 1 ∧ |c| ≤ 1 := by
  refine ⟨?_, ?_, ?_⟩ <;> exact abs_le_of_sq_le_sq (by nlinarith [mul_self_nonneg a, mul_self_nonneg b, mul_self_nonneg c]) one_pos.le

theorem entries_box {S : Iso} (hS : S.IsRigid) {B : ℝ} (hB : S.t.norm ≤ B) (i : Fin 12) : |S.entries i| ≤ max 1 B := by
  obtain ⟨h1, h2, h3, -⟩ := M3.IsRot.cols hS
  obtain ⟨a1, a2, a3⟩ := sq_le_of_sum h1
  obtain ⟨b1, b2, b3⟩ := sq_le_of_sum h2
  obtain ⟨c1, c2, c3⟩ := sq_le_of_sum h3
  have k : ∀ x : ℝ, |x| ≤ 1 → |x| ≤ max 1 B := fun x hx => hx.trans (le_max_left _ _)
  have l : ∀ x : ℝ, |x| ≤ S.t.norm → |x| ≤ max 1 B := fun x hx => (hx.trans hB).trans (le_max_right _ _)
  fin_cases i
  · exact k _ a1
  · exact k _ b1
  · exact k _ c1
  · exact k _ a2
  · exact k _ b2
  · exact k _ c2
  · exact k _ a3
  · exact k _ b3
  · exact k _ c3
  · exact l _ S.t.abs_x_le
  · exact l _ S.t.abs_y_le
  · exact l _ S.t.abs_z_le

/-- If `g` vanishes at one rigid motion only, motions with small `g` are close to it. -/
theorem rigid_stable {T : Iso} {g : Iso → ℝ} (hg : Continuous fun v => g (isoOf v)) {P : Iso → Prop}
    (hP : IsClosed {v | P (isoOf v)}) (hu : ∀ S : Iso, S.IsRigid → P S → g S ≤ 0 → S = T) (B : ℝ) {e : ℝ} (he : 0 < e) :
    ∃ d : ℝ, 0 < d ∧ ∀ S : Iso, S.IsRigid → S.t.norm ≤ B → P S → g S ≤ d → Close e S T := by
  have hc : IsCompact (Set.Icc (fun _ : Fin 12 => -max 1 B) (fun _ => max 1 B) ∩ ({v | (isoOf v).IsRigid} ∩ {v | P (isoOf v)} ∩
      {v | (e / 9) ^ 2 ≤ entryDiff v T.entries})) := by
    refine isCompact_Icc.inter_right ((isRigid_closed.inter hP).inter (isClosed_le continuous_const ?_))
    unfold entryDiff
    fun_prop
  have hmem : ∀ S : Iso, S.IsRigid → S.t.norm ≤ B → P S → (e / 9) ^ 2 ≤ entryDiff S.entries T.entries →
      S.entries ∈ Set.Icc (fun _ : Fin 12 => -max 1 B) (fun _ => max 1 B) ∩ ({v | (isoOf v).IsRigid} ∩ {v | P (isoOf v)} ∩
      {v | (e / 9) ^ 2 ≤ entryDiff v T.entries}) := by
    intro S h1 h2 h3 h4
    have hb := entries_box h1 h2
    exact ⟨⟨fun i => (abs_le.1 (hb i)).1, fun i => (abs_le.1 (hb i)).2⟩, ⟨h1, h3⟩, h4⟩
  have hclose : ∀ S : Iso, entryDiff S.entries T.entries < (e / 9) ^ 2 → Close e S T := by
    intro S h
    have := close_of_entries (by positivity) h.le
    rwa [show 9 * (e / 9) = e by ring] at this
  rcases Set.eq_empty_or_nonempty (Set.Icc (fun _ : Fin 12 => -max 1 B) (fun _ => max 1 B) ∩ ({v | (isoOf v).IsRigid} ∩
      {v | P (isoOf v)} ∩ {v | (e / 9) ^ 2 ≤ entryDiff v T.entries})) with h0 | h0
  · refine ⟨1, one_pos, fun S h1 h2 h3 _ => hclose S (not_le.1 fun h4 => ?_)⟩
    have := hmem S h1 h2 h3 h4
    rw [h0] at this
    exact this
  · obtain ⟨v, hv, hmin⟩ := hc.exists_isMinOn h0 hg.continuousOn
    have hpos : 0 < g (isoOf v) := by
      by_contra hle
      have h1 := hu _ hv.2.1.1 hv.2.1.2 (not_lt.1 hle)
      have h2 : (e / 9) ^ 2 ≤ entryDiff v T.entries := hv.2.2
      have h3 : v = T.entries := by
        rw [← h1]
        funext i
        fin_cases i <;> rfl
      rw [h3] at h2
      have h4 : (0 : ℝ) < (e / 9) ^ 2 := by positivity
      simp only [entryDiff, sub_self, ne_eq, OfNat.ofNat_ne_zero, not_false_eq_true, zero_pow, Finset.sum_const_zero] at h2
      linarith
    refine ⟨g (isoOf v) / 2, by linarith, fun S h1 h2 h3 h4 => hclose S (not_le.1 fun h5 => ?_)⟩
    have := hmin (hmem S h1 h2 h3 h5)
    simp only [Set.mem_setOf_eq, isoOf_entries] at this
    linarith

/-- How far the rays through two points are apart, times their depths. -/
def rayDefect (p q : V3) : ℝ := (q.x * p.z - p.x * q.z) ^ 2 + (q.y * p.z - p.y * q.z) ^ 2

theorem rayDefect_zero {p q : V3} (hp : p.z ≠ 0) (h : rayDefect p q ≤ 0) : q = V3.smul (q.z / p.z) p := by
  unfold rayDefect at h
  have h1 : q.x * p.z - p.x * q.z = 0 := by
    have := sq_nonneg (q.y * p.z - p.y * q.z); have := sq_nonneg (q.x * p.z - p.x * q.z); exact pow_eq_zero_iff two_ne_zero |>.1 (by linarith)
  have h2 : q.y * p.z - p.y * q.z = 0 := by
    have := sq_nonneg (q.y * p.z - p.y * q.z); have := sq_nonneg (q.x * p.z - p.x * q.z); exact pow_eq_zero_iff two_ne_zero |>.1 (by linarith)
  ext <;> simp only [V3.smul] <;> field_simp <;> linarith

theorem rayDefect_nonneg (p q : V3) : 0 ≤ rayDefect p q := by unfold rayDefect; positivity

theorem abs_quot_le {f c d x z y w : ℝ} (hf : f ≠ 0) (hz : 0 < z) (hw : 0 < w) (h : |f * (y / w) + c - (f * (x / z) + c)| ≤ d) :
    |y * z - x * w| ≤ d / |f| * (z * w) := by
  have e : f * (y / w) + c - (f * (x / z) + c) = f * ((y * z - x * w) / (z * w)) := by field_simp; ring
  rw [e, abs_mul, abs_div, abs_of_pos (mul_pos hz hw)] at h
  have hf' : 0 < |f| := abs_pos.2 hf
  have hzw : 0 < z * w := mul_pos hz hw
  rw [div_mul_eq_mul_div, le_div_iff₀ hf']
  rw [← mul_div_assoc, div_le_iff₀ hzw] at h
  linarith

/-- A point that is seen almost where the point `p` is seen. -/
theorem rayDefect_le {i : Intr} (hx : i.fx ≠ 0) (hy : i.fy ≠ 0) {p q : V3} (hp : 0 < p.z) (hq : 0 < q.z) {d f : ℝ} (hd : 0 ≤ d)
    (hf : 0 < f) (hfx : f ≤ |i.fx|) (hfy : f ≤ |i.fy|)
    (h : |(pinhole i q).x - (pinhole i p).x| ≤ d ∧ |(pinhole i q).y - (pinhole i p).y| ≤ d) :
    |q.x * p.z - p.x * q.z| ≤ d / f * (p.z * q.z) ∧ |q.y * p.z - p.y * q.z| ≤ d / f * (p.z * q.z) := by
  have h1 := abs_quot_le hx hp hq h.1
  have h2 := abs_quot_le hy hp hq h.2
  have hpq := (mul_pos hp hq).le
  have k1 : d / |i.fx| ≤ d / f := div_le_div_of_nonneg_left hd hf hfx
  have k2 : d / |i.fy| ≤ d / f := div_le_div_of_nonneg_left hd hf hfy
  exact ⟨h1.trans (mul_le_mul_of_nonneg_right k1 hpq), h2.trans (mul_le_mul_of_nonneg_right k2 hpq)⟩

/-- Two points with different images in one coordinate: a pose with almost the same images is not far away. -/
theorem depth_bound {xa xb za zb ya yb wa wb r D : ℝ} (hza : 0 < za) (hzb : 0 < zb) (hwa : 0 < wa) (hwb : 0 < wb)
    (hne : xa / za ≠ xb / zb) (h1 : |ya * za - xa * wa| ≤ r * (za * wa)) (h2 : |yb * zb - xb * wb| ≤ r * (zb * wb))
    (hr : r ≤ |xa / za - xb / zb| / 4) (hy : |ya - yb| ≤ D) (hw : |wa - wb| ≤ D) :
    wa ≤ 4 * D * (1 + |xb / zb| + |xa / za - xb / zb|) / |xa / za - xb / zb| := by
  obtain ⟨a, ha⟩ : ∃ a, a = xa / za := ⟨_, rfl⟩
  obtain ⟨b, hb⟩ : ∃ b, b = xb / zb := ⟨_, rfl⟩
  rw [← ha, ← hb] at hne hr ⊢
  have k1 : |ya - a * wa| ≤ r * wa := by
    have : ya * za - xa * wa = (ya - a * wa) * za := by rw [ha]; field_simp
    rw [this, abs_mul, abs_of_pos hza] at h1
    exact le_of_mul_le_mul_right (by linarith) hza
  have k2 : |yb - b * wb| ≤ r * wb := by
    have : yb * zb - xb * wb = (yb - b * wb) * zb := by rw [hb]; field_simp
    rw [this, abs_mul, abs_of_pos hzb] at h2
    exact le_of_mul_le_mul_right (by linarith) hzb
  have hpos : 0 < |a - b| := abs_pos.2 (sub_ne_zero.2 hne)
  have hD : 0 ≤ D := (abs_nonneg _).trans hy
  have hr0 : 0 ≤ r := by
    have := (abs_nonneg _).trans k1
    by_contra hneg
    nlinarith
  have key : |a - b| * wa ≤ D + |b| * D + r * wa + r * wb := by
    have e : (a - b) * wa = (ya - yb) - b * (wa - wb) - (ya - a * wa) + (yb - b * wb) := by ring
    have : |a - b| * wa = |(a - b) * wa| := by rw [abs_mul, abs_of_pos hwa]
    rw [this, e]
    have l1 : |b * (wa - wb)| ≤ |b| * D := by rw [abs_mul]; exact mul_le_mul_of_nonneg_left hw (abs_nonneg _)
    rw [abs_le] at hy l1 k1 k2 ⊢
    constructor <;> linarith [hy.1, hy.2, l1.1, l1.2, k1.1, k1.2, k2.1, k2.2]
  have hwb' : wb ≤ wa + D := by have := (abs_le.1 hw).1; linarith
  rw [le_div_iff₀ hpos]
  have m1 : r * wb ≤ r * (wa + D) := mul_le_mul_of_nonneg_left hwb' hr0
  have m2 : r * wa ≤ |a - b| / 4 * wa := mul_le_mul_of_nonneg_right hr hwa.le
  have m3 : r * D ≤ |a - b| / 4 * D := mul_le_mul_of_nonneg_right hr hD
  nlinarith [mul_nonneg (abs_nonneg b) hD, mul_nonneg hpos.le hD]

/-- Seen from outside its plane, two points of a plane have different images. -/
theorem images_differ {T : Iso} (hT : T.IsRigid) {a b : V3} (ha : a.z = 0) (hb : b.z = 0) (hab : a ≠ b) (hcam : T.inv.t.z ≠ 0)
    (hza : (T.apply a).z ≠ 0) (hzb : (T.apply b).z ≠ 0) :
    (T.apply a).x / (T.apply a).z ≠ (T.apply b).x / (T.apply b).z ∨ (T.apply a).y / (T.apply a).z ≠ (T.apply b).y / (T.apply b).z := by
  by_contra h
  push Not at h
  obtain ⟨h1, h2⟩ := h
  obtain ⟨k, hk⟩ : ∃ k, k = (T.apply a).z / (T.apply b).z := ⟨_, rfl⟩
  have e : T.apply a = V3.smul k (T.apply b) := by
    rw [hk]
    rw [div_eq_div_iff hza hzb] at h1 h2
    ext <;> simp only [V3.smul] <;> field_simp <;> linarith
  rw [hT.apply_eq, hT.apply_eq] at e
  have e' : T.R.tr.mulVec (T.R.mulVec (a - T.inv.t)) = T.R.tr.mulVec (V3.smul k (T.R.mulVec (b - T.inv.t))) := by rw [e]
  rw [M3.mulVec_smul, ← M3.mulVec_mul, ← M3.mulVec_mul, hT.1, M3.one_mulVec, M3.one_mulVec] at e'
  have hz := congrArg V3.z e'
  have hx := congrArg V3.x e'
  have hy := congrArg V3.y e'
  simp only [V3.smul, V3.sub_x, V3.sub_y, V3.sub_z, ha, hb] at hx hy hz
  have hk1 : k = 1 := by
    have : (k - 1) * T.inv.t.z = 0 := by linarith
    rcases mul_eq_zero.1 this with h | h
    · linarith
    · exact absurd h hcam
  rw [hk1] at hx hy
  refine hab ?_
  ext
  · linarith
  · linarith
  · rw [ha, hb]

theorem rigid_diff {S : Iso} (hS : S.IsRigid) (a b : V3) : (S.apply a - S.apply b).norm = (a - b).norm := by
  have : S.apply a - S.apply b = S.R.mulVec (a - b) := by
    rw [M3.mulVec_sub]
    ext <;> simp [Iso.apply]
  rw [this, M3.IsRot.norm hS]

/-- A pose in which four points of a plane are seen almost where they are seen in pose `T` is almost the pose `T`. -/
theorem planar_stable {i : Intr} (hfx : i.fx ≠ 0) (hfy : i.fy ≠ 0) {T : Iso} (hT : T.IsRigid) {a b c d : V3} (hq : Quadrangle a b c d)
    (hcam : T.inv.t.z ≠ 0) (hz : ∀ k ∈ [a, b, c, d], 0 < (T.apply k).z) {e : ℝ} (he : 0 < e) :
    ∃ r : ℝ, 0 < r ∧ ∀ S : Iso, S.IsRigid → (∀ k ∈ [a, b, c, d], 0 < (S.apply k).z ∧
      |(pinhole i (S.apply k)).x - (pinhole i (T.apply k)).x| ≤ r ∧ |(pinhole i (S.apply k)).y - (pinhole i (T.apply k)).y| ≤ r) →
      Close e S T := by
  obtain ⟨f, hf⟩ : ∃ f, f = min |i.fx| |i.fy| := ⟨_, rfl⟩
  have hf0 : 0 < f := by rw [hf]; exact lt_min (abs_pos.2 hfx) (abs_pos.2 hfy)
  have hfx' : f ≤ |i.fx| := by rw [hf]; exact min_le_left _ _
  have hfy' : f ≤ |i.fy| := by rw [hf]; exact min_le_right _ _
  have za := hz a (by simp); have zb := hz b (by simp); have zc := hz c (by simp); have zd := hz d (by simp)
  have hab : a ≠ b := hq.abc.1
  -- the defects of all four points
  obtain ⟨g, hgdef⟩ : ∃ g : Iso → ℝ, g = fun S => rayDefect (T.apply a) (S.apply a) + rayDefect (T.apply b) (S.apply b) +
    rayDefect (T.apply c) (S.apply c) + rayDefect (T.apply d) (S.apply d) := ⟨_, rfl⟩
  have hg : Continuous fun v => g (isoOf v) := by
    rw [hgdef]
    simp only [rayDefect, isoOf, Iso.apply, M3.mulVec, V3.add_x, V3.add_y, V3.add_z]
    fun_prop
  have hP : IsClosed {v | 0 ≤ ((isoOf v).apply a).z} := by
    refine isClosed_le continuous_const ?_
    simp only [isoOf, Iso.apply, M3.mulVec, V3.add_z]
    fun_prop
  have hu : ∀ S : Iso, S.IsRigid → 0 ≤ (S.apply a).z → g S ≤ 0 → S = T := by
    intro S hS h0 h
    rw [hgdef] at h
    have n1 := rayDefect_nonneg (T.apply a) (S.apply a); have n2 := rayDefect_nonneg (T.apply b) (S.apply b)
    have n3 := rayDefect_nonneg (T.apply c) (S.apply c); have n4 := rayDefect_nonneg (T.apply d) (S.apply d)
    simp only at h
    exact planar_unique_le hS hT hq hcam (div_nonneg h0 za.le) (rayDefect_zero za.ne' (by linarith)) (rayDefect_zero zb.ne' (by linarith))
      (rayDefect_zero zc.ne' (by linarith)) (rayDefect_zero zd.ne' (by linarith))
  -- all such poses are in a bounded region
  have hbound : ∃ r₀ : ℝ, 0 < r₀ ∧ ∃ W : ℝ, 0 < W ∧ ∀ S : Iso, S.IsRigid → (∀ k ∈ [a, b, c, d], 0 < (S.apply k).z ∧
      |(S.apply k).x * (T.apply k).z - (T.apply k).x * (S.apply k).z| ≤ r₀ * ((T.apply k).z * (S.apply k).z) ∧
      |(S.apply k).y * (T.apply k).z - (T.apply k).y * (S.apply k).z| ≤ r₀ * ((T.apply k).z * (S.apply k).z)) → (S.apply a).z ≤ W := by
    have hdist : ∀ S : Iso, S.IsRigid → |(S.apply a).x - (S.apply b).x| ≤ (a - b).norm ∧
        |(S.apply a).y - (S.apply b).y| ≤ (a - b).norm ∧ |(S.apply a).z - (S.apply b).z| ≤ (a - b).norm := by
      intro S hS
      rw [← rigid_diff hS]
      exact ⟨V3.abs_x_le (S.apply a - S.apply b), V3.abs_y_le (S.apply a - S.apply b), V3.abs_z_le (S.apply a - S.apply b)⟩
    rcases images_differ hT hq.za hq.zb hab hcam za.ne' zb.ne' with hd | hd
    · refine ⟨|(T.apply a).x / (T.apply a).z - (T.apply b).x / (T.apply b).z| / 4,
        div_pos (abs_pos.2 (sub_ne_zero.2 hd)) (by norm_num), max 1 (4 * (a - b).norm * (1 + |(T.apply b).x / (T.apply b).z| +
        |(T.apply a).x / (T.apply a).z - (T.apply b).x / (T.apply b).z|) / |(T.apply a).x / (T.apply a).z - (T.apply b).x / (T.apply b).z|),
        lt_max_of_lt_left one_pos, fun S hS h => ?_⟩
      obtain ⟨wa, h1, -⟩ := h a (by simp)
      obtain ⟨wb, h2, -⟩ := h b (by simp)
      exact (depth_bound za zb wa wb hd h1 h2 le_rfl (hdist S hS).1 (hdist S hS).2.2).trans (le_max_right _ _)
    · refine ⟨|(T.apply a).y / (T.apply a).z - (T.apply b).y / (T.apply b).z| / 4,
        div_pos (abs_pos.2 (sub_ne_zero.2 hd)) (by norm_num), max 1 (4 * (a - b).norm * (1 + |(T.apply b).y / (T.apply b).z| +
        |(T.apply a).y / (T.apply a).z - (T.apply b).y / (T.apply b).z|) / |(T.apply a).y / (T.apply a).z - (T.apply b).y / (T.apply b).z|),
        lt_max_of_lt_left one_pos, fun S hS h => ?_⟩
      obtain ⟨wa, -, h1⟩ := h a (by simp)
      obtain ⟨wb, -, h2⟩ := h b (by simp)
      exact (depth_bound za zb wa wb hd h1 h2 le_rfl (hdist S hS).2.1 (hdist S hS).2.2).trans (le_max_right _ _)
  obtain ⟨r₀, hr₀, W, hW, hbound⟩ := hbound
  obtain ⟨A, hA⟩ : ∃ A, A = (T.apply a).z + (T.apply b).z + (T.apply c).z + (T.apply d).z := ⟨_, rfl⟩
  obtain ⟨D, hD⟩ : ∃ D, D = (a - b).norm + (a - c).norm + (a - d).norm := ⟨_, rfl⟩
  have hzA : ∀ k ∈ [a, b, c, d], (T.apply k).z ≤ A := by
    intro k hk
    simp only [List.mem_cons, List.not_mem_nil, or_false] at hk
    rcases hk with rfl | rfl | rfl | rfl <;> linarith
  have hzD : ∀ k ∈ [a, b, c, d], (a - k).norm ≤ D := by
    intro k hk
    have n1 := (a - b).norm_nonneg; have n2 := (a - c).norm_nonneg; have n3 := (a - d).norm_nonneg
    have n0 : (a - a).norm = 0 := by rw [V3.sub_self]; exact norm_zero_v3
    simp only [List.mem_cons, List.not_mem_nil, or_false] at hk
    rcases hk with rfl | rfl | rfl | rfl <;> linarith
  have hA0 : 0 < A := by linarith
  have hD0 : 0 ≤ D := by
    have n1 := (a - b).norm_nonneg; have n2 := (a - c).norm_nonneg; have n3 := (a - d).norm_nonneg
    linarith
  obtain ⟨B, hB⟩ : ∃ B, B = W * ((|(T.apply a).x| + |(T.apply a).y|) / (T.apply a).z + 2 * r₀ + 1) + a.norm := ⟨_, rfl⟩
  obtain ⟨δ, hδ, hclose⟩ := rigid_stable hg hP hu B he
  obtain ⟨M, hM⟩ : ∃ M, M = A * (W + D) := ⟨_, rfl⟩
  have hM0 : 0 < M := by rw [hM]; positivity
  obtain ⟨t, ht⟩ : ∃ t, t = min r₀ (Real.sqrt (δ / 8) / M) := ⟨_, rfl⟩
  have ht0 : 0 < t := by
    rw [ht]
    exact lt_min hr₀ (div_pos (Real.sqrt_pos.2 (by linarith)) hM0)
  refine ⟨t * f, mul_pos ht0 hf0, fun S hS h => ?_⟩
  have hray : ∀ k ∈ [a, b, c, d], 0 < (S.apply k).z ∧
      |(S.apply k).x * (T.apply k).z - (T.apply k).x * (S.apply k).z| ≤ t * ((T.apply k).z * (S.apply k).z) ∧
      |(S.apply k).y * (T.apply k).z - (T.apply k).y * (S.apply k).z| ≤ t * ((T.apply k).z * (S.apply k).z) := by
    intro k hk
    obtain ⟨h1, h2⟩ := h k hk
    have := rayDefect_le hfx hfy (hz k hk) h1 (mul_pos ht0 hf0).le hf0 hfx' hfy' h2
    rw [mul_div_assoc, div_self hf0.ne', mul_one] at this
    exact ⟨h1, this⟩
  have htr : t ≤ r₀ := by rw [ht]; exact min_le_left _ _
  have htM : t * M ≤ Real.sqrt (δ / 8) := by
    have : t ≤ Real.sqrt (δ / 8) / M := by rw [ht]; exact min_le_right _ _
    rwa [le_div_iff₀ hM0] at this
  have hWa : (S.apply a).z ≤ W := by
    refine hbound S hS fun k hk => ?_
    obtain ⟨h1, h2, h3⟩ := hray k hk
    have hpos := (mul_pos (hz k hk) h1).le
    exact ⟨h1, h2.trans (mul_le_mul_of_nonneg_right htr hpos), h3.trans (mul_le_mul_of_nonneg_right htr hpos)⟩
  have hWk : ∀ k ∈ [a, b, c, d], (S.apply k).z ≤ W + D := by
    intro k hk
    have h1 := V3.abs_z_le (S.apply a - S.apply k)
    rw [rigid_diff hS] at h1
    have h2 := (abs_le.1 h1).1
    have h3 := hzD k hk
    rw [V3.sub_z] at h2
    linarith
  refine hclose S hS ?_ (h a (by simp)).1.le ?_
  · obtain ⟨h1, h2, h3⟩ := hray a (by simp)
    have hzw := mul_pos za h1
    have k1 : |(S.apply a).x| ≤ W * (|(T.apply a).x| / (T.apply a).z + r₀) := by
      have : |(S.apply a).x| * (T.apply a).z ≤ |(T.apply a).x| * (S.apply a).z + t * ((T.apply a).z * (S.apply a).z) := by
        have e1 : |(S.apply a).x| * (T.apply a).z = |(S.apply a).x * (T.apply a).z| := by rw [abs_mul, abs_of_pos za]
        have e2 : |(T.apply a).x| * (S.apply a).z = |(T.apply a).x * (S.apply a).z| := by rw [abs_mul, abs_of_pos h1]
        rw [e1, e2]
        have := abs_sub_abs_le_abs_sub ((S.apply a).x * (T.apply a).z) ((T.apply a).x * (S.apply a).z)
        linarith
      have e3 : |(S.apply a).x| ≤ (S.apply a).z * (|(T.apply a).x| / (T.apply a).z + t) := by
        have : |(S.apply a).x| * (T.apply a).z ≤ (S.apply a).z * (|(T.apply a).x| / (T.apply a).z + t) * (T.apply a).z := by
          have e4 : (S.apply a).z * (|(T.apply a).x| / (T.apply a).z + t) * (T.apply a).z =
            |(T.apply a).x| * (S.apply a).z + t * ((T.apply a).z * (S.apply a).z) := by field_simp
          rw [e4]; exact this
        exact le_of_mul_le_mul_right this za
      refine e3.trans (mul_le_mul hWa (by linarith) (by positivity) hW.le)
    have k2 : |(S.apply a).y| ≤ W * (|(T.apply a).y| / (T.apply a).z + r₀) := by
      have : |(S.apply a).y| * (T.apply a).z ≤ |(T.apply a).y| * (S.apply a).z + t * ((T.apply a).z * (S.apply a).z) := by
        have e1 : |(S.apply a).y| * (T.apply a).z = |(S.apply a).y * (T.apply a).z| := by rw [abs_mul, abs_of_pos za]
        have e2 : |(T.apply a).y| * (S.apply a).z = |(T.apply a).y * (S.apply a).z| := by rw [abs_mul, abs_of_pos h1]
        rw [e1, e2]
        have := abs_sub_abs_le_abs_sub ((S.apply a).y * (T.apply a).z) ((T.apply a).y * (S.apply a).z)
        linarith
      have e3 : |(S.apply a).y| ≤ (S.apply a).z * (|(T.apply a).y| / (T.apply a).z + t) := by
        have : |(S.apply a).y| * (T.apply a).z ≤ (S.apply a).z * (|(T.apply a).y| / (T.apply a).z + t) * (T.apply a).z := by
          have e4 : (S.apply a).z * (|(T.apply a).y| / (T.apply a).z + t) * (T.apply a).z =
            |(T.apply a).y| * (S.apply a).z + t * ((T.apply a).z * (S.apply a).z) := by field_simp
          rw [e4]; exact this
        exact le_of_mul_le_mul_right this za
      refine e3.trans (mul_le_mul hWa (by linarith) (by positivity) hW.le)
    have k3 : (S.apply a).norm ≤ W * ((|(T.apply a).x| + |(T.apply a).y|) / (T.apply a).z + 2 * r₀ + 1) := by
      refine (V3.norm_le_abs _).trans ?_
      rw [abs_of_pos h1, add_div]
      linarith
    have e : S.t = S.apply a - S.R.mulVec a := by ext <;> simp [Iso.apply]
    rw [hB, e]
    have h4 := V3.norm_sub_le (S.apply a) 0 (S.R.mulVec a)
    have h5 : (0 - S.R.mulVec a).norm = a.norm := by
      rw [V3.norm_sub_comm]
      have : S.R.mulVec a - 0 = S.R.mulVec a := by ext <;> simp
      rw [this, M3.IsRot.norm hS]
    have h6 : (S.apply a - 0).norm = (S.apply a).norm := by congr 1; ext <;> simp
    linarith
  · have hdef : ∀ k ∈ [a, b, c, d], rayDefect (T.apply k) (S.apply k) ≤ δ / 4 := by
      intro k hk
      obtain ⟨h1, h2, h3⟩ := hray k hk
      have hm : t * ((T.apply k).z * (S.apply k).z) ≤ Real.sqrt (δ / 8) := by
        refine le_trans (mul_le_mul_of_nonneg_left ?_ ht0.le) htM
        rw [hM]
        exact mul_le_mul (hzA k hk) (hWk k hk) h1.le hA0.le
      have s1 := sq_le_sq.2 ((h2.trans hm).trans (le_abs_self _))
      have s2 := sq_le_sq.2 ((h3.trans hm).trans (le_abs_self _))
      have hs := Real.sq_sqrt (show 0 ≤ δ / 8 by linarith)
      unfold rayDefect
      linarith
    have q1 := hdef a (by simp); have q2 := hdef b (by simp); have q3 := hdef c (by simp); have q4 := hdef d (by simp)
    rw [hgdef]
    simp only
    linarith

/-- Close poses turn vectors alike. -/
theorem Spec.Close.turn {e : ℝ} {S T : Iso} (h : Close e S T) (v : V3) : (S.R.mulVec v - T.R.mulVec v).norm ≤ 3 * e * v.norm := by
  by_cases hv : v.norm = 0
  · have h0 := V3.norm_eq_zero.1 hv
    rw [h0, M3.mulVec_zero, M3.mulVec_zero, V3.sub_self, norm_zero_v3, mul_zero]
  · have hpos : 0 < v.norm := lt_of_le_of_ne v.norm_nonneg (Ne.symm hv)
    have h1 := h (V3.smul (1 / v.norm) v)
    have h2 := h 0
    rw [V3.norm_smul, abs_of_pos (by positivity), one_div, inv_mul_cancel₀ hv] at h1
    rw [norm_zero_v3] at h2
    have e1 : S.R.mulVec v - T.R.mulVec v = V3.smul v.norm ((S.apply (V3.smul (v.norm)⁻¹ v) - T.apply (V3.smul (v.norm)⁻¹ v)) -
        (S.apply 0 - T.apply 0)) := by
      ext <;> simp [Iso.apply, M3.mulVec, V3.smul] <;> field_simp <;> ring
    rw [e1, V3.norm_smul, abs_of_pos hpos]
    have h3 := V3.norm_sub_le (S.apply (V3.smul (v.norm)⁻¹ v) - T.apply (V3.smul (v.norm)⁻¹ v)) 0 (S.apply 0 - T.apply 0)
    have e2 : ∀ a : V3, a - 0 = a := fun a => by ext <;> simp
    rw [V3.norm_sub_comm 0, e2, e2] at h3
    nlinarith

theorem Spec.Close.symm {e : ℝ} {S T : Iso} (h : Close e S T) : Close e T S := fun q => by
  rw [V3.norm_sub_comm]; exact h q

theorem Spec.Close.mono {e e' : ℝ} {S T : Iso} (h : Close e S T) (he : e ≤ e') : Close e' S T := fun q =>
  (h q).trans (mul_le_mul_of_nonneg_right he (by have := q.norm_nonneg; linarith))

theorem apply_norm_le {T : Iso} (hT : T.IsRigid) (q : V3) : (T.apply q).norm ≤ q.norm + T.t.norm := by
  have := V3.norm_add_le (T.R.mulVec q) T.t
  rw [M3.IsRot.norm hT] at this
  exact this

/-- A hand-eye calibration under which the target is seen close to where the true one has it is close to the true one. -/
theorem handEye_lipschitz {X Y Ca Cb Co : Iso} (hX : X.IsRigid) (hY : Y.IsRigid) (ha : Ca.IsRigid) (hb : Cb.IsRigid)
    (ho : Co.IsRigid) (hax : AxesDiffer (Ca * Co.inv).R (Cb * Co.inv).R) :
    ∃ k : ℝ, 0 < k ∧ ∀ (X' Y' : Iso) (e : ℝ), X'.IsRigid → Y'.IsRigid → 
      (∀ C ∈ [Ca, Cb, Co], Close e (X'.inv * (C * Y')) (X.inv * (C * Y))) → Close (k * e) X' X ∧ Close (k * e) Y' Y := by
  obtain ⟨n, hn⟩ : ∃ n, n = ((turnVector (Ca * Co.inv).R).cross (turnVector (Cb * Co.inv).R)).norm := ⟨_, rfl⟩
  have hn0 : 0 < n := by
    rw [hn]
    exact lt_of_le_of_ne (V3.norm_nonneg _) fun h => hax (V3.norm_eq_zero.1 h.symm)
  obtain ⟨z, hz⟩ : ∃ z, z = Co.apply (Y.apply 0) := ⟨_, rfl⟩
  obtain ⟨L, hL⟩ : ∃ L, L = ((Ca * Co.inv).apply z - z).norm + ((Cb * Co.inv).apply z - z).norm := ⟨_, rfl⟩
  have hL0 : 0 ≤ L := by rw [hL]; exact add_nonneg (V3.norm_nonneg _) (V3.norm_nonneg _)
  obtain ⟨m, hm⟩ : ∃ m, m = 192 / n := ⟨_, rfl⟩
  have hm0 : 0 < m := by rw [hm]; positivity
  obtain ⟨c, hc⟩ : ∃ c, c = 12 * (2 + m * L) / n + m * (1 + X.t.norm + z.norm) := ⟨_, rfl⟩
  have hc0 : 0 < c := by
    have h1 := X.t.norm_nonneg; have h2 := z.norm_nonneg
    rw [hc]; positivity
  obtain ⟨w, hw⟩ : ∃ w, w = (X.inv * (Co * Y)).t.norm := ⟨_, rfl⟩
  have hw0 : 0 ≤ w := by rw [hw]; exact V3.norm_nonneg _
  refine ⟨1 + c * (1 + w) , by positivity, fun X' Y' e hX' hY' h => ?_⟩
  have he : 0 ≤ e := by
    have := (V3.norm_nonneg _).trans (h Co (by simp) 0)
    rw [norm_zero_v3] at this
    linarith
  -- the correction of the camera
  obtain ⟨E, hE⟩ : ∃ E, E = X' * X.inv := ⟨_, rfl⟩
  have hturn : ∀ v, (E.R.mulVec v - v).norm ≤ m * e * v.norm := by
    intro v
    have := handEye_near (X := X') (Y := Y') (X' := X) (Y' := Y) hX' hX hY ha hb ho (r := 3 * e)
      (fun C hC v => (h C hC).symm.turn v) v
    rw [← hn, ← hE] at this
    rw [hm, div_mul_eq_mul_div, div_mul_eq_mul_div, le_div_iff₀ hn0]
    linarith
  have hpt : ∀ C ∈ [Ca, Cb, Co], (E.apply (C.apply (Y.apply 0)) - C.apply ((Y' * Y.inv).apply (Y.apply 0))).norm ≤ e := by
    intro C hC
    rw [hE]
    refine frames_near hX' hY ?_
    have := (h C hC).symm 0
    rwa [norm_zero_v3, add_zero, mul_one] at this
  have hcm : ∀ C ∈ [Ca, Cb], C.IsRigid → (E.apply ((C * Co.inv).apply z) - (C * Co.inv).apply (E.apply z)).norm ≤ 2 * e := by
    intro C hC hCr
    rw [hz]
    refine near_comm hCr ho (hpt C ?_) (hpt Co (by simp))
    simp only [List.mem_cons, List.not_mem_nil, or_false] at hC ⊢; tauto
  have hshift := shift_near (ha.mul ho.inv) (hb.mul ho.inv) hturn (hcm Ca (by simp) ha) (hcm Cb (by simp) hb)
    (mul_nonneg hm0.le he) (l := L) (by rw [hL]; have := V3.norm_nonneg ((Cb * Co.inv).apply z - z); linarith)
    (by rw [hL]; have := V3.norm_nonneg ((Ca * Co.inv).apply z - z); linarith)
  rw [← hn, ← le_div_iff₀ hn0] at hshift
  have hcam : Close (c * e) X' X := by
    intro p
    have e1 : X'.apply p = E.apply (X.apply p) := by
      rw [hE, ← Iso.apply_mul, Iso.mul_assoc, Iso.inv_mul hX, Iso.mul_one]
    have e2 : X'.apply p - X.apply p = (E.apply z - z) + (E.R.mulVec (X.apply p - z) - (X.apply p - z)) := by
      rw [e1]
      ext <;> simp [Iso.apply, M3.mulVec] <;> ring
    rw [e2]
    have h1 := V3.norm_add_le (E.apply z - z) (E.R.mulVec (X.apply p - z) - (X.apply p - z))
    have h2 := hturn (X.apply p - z)
    have h3 : (X.apply p - z).norm ≤ p.norm + X.t.norm + z.norm := by
      have h4 := V3.norm_sub_le (X.apply p) 0 z
      have e3 : ∀ a : V3, a - 0 = a := fun a => by ext <;> simp
      rw [V3.norm_sub_comm 0, e3, e3] at h4
      have := apply_norm_le hX p
      linarith
    have h4 := mul_le_mul_of_nonneg_left h3 (mul_nonneg hm0.le he)
    have e3 : 12 * (2 * e + m * e * L) / n = 12 * (2 + m * L) / n * e := by ring
    rw [e3] at hshift
    have hp := p.norm_nonneg
    have ha0 : 0 ≤ 12 * (2 + m * L) / n * e := by positivity
    have hx0 := X.t.norm_nonneg
    have hz0 := z.norm_nonneg
    have h5 : 12 * (2 + m * L) / n * e + m * e * (p.norm + X.t.norm + z.norm) ≤ c * e * (1 + p.norm) := by
      rw [hc]
      have h6 : 0 ≤ m * e * (X.t.norm + z.norm) * p.norm := by positivity
      have h7 : 0 ≤ m * e := by positivity
      nlinarith [mul_nonneg ha0 hp]
    linarith
  refine ⟨hcam.mono ?_, fun p => ?_⟩
  · refine mul_le_mul_of_nonneg_right ?_ he
    nlinarith
  · obtain ⟨u, hu⟩ : ∃ u, u = (X.inv * (Co * Y)).apply p := ⟨_, rfl⟩
    have h1 := h Co (by simp) p
    rw [← hu, ← hX'.dist] at h1
    have e1 : X'.apply ((X'.inv * (Co * Y')).apply p) = Co.apply (Y'.apply p) := by
      rw [← Iso.apply_mul, ← Iso.mul_assoc, Iso.mul_inv hX', Iso.one_mul, Iso.apply_mul]
    have e2 : X.apply u = Co.apply (Y.apply p) := by
      rw [hu, ← Iso.apply_mul, ← Iso.mul_assoc, Iso.mul_inv hX, Iso.one_mul, Iso.apply_mul]
    rw [e1] at h1
    have h2 := hcam u
    rw [e2] at h2
    have h3 := V3.norm_sub_le (Co.apply (Y'.apply p)) (X'.apply u) (Co.apply (Y.apply p))
    rw [ho.dist] at h3
    have h4 : u.norm ≤ p.norm + w := by
      rw [hu, hw]
      exact apply_norm_le (hX.inv.mul (ho.mul hY)) p
    have h5 : c * e * (1 + u.norm) ≤ c * e * (1 + (p.norm + w)) := mul_le_mul_of_nonneg_left (by linarith) (mul_nonneg hc0.le he)
    have hp := p.norm_nonneg
    have h6 : 0 ≤ c * e * w * p.norm := by positivity
    nlinarith

end RCT
