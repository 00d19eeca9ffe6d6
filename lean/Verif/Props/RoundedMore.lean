import Verif.Lemmas.RoundedMore

/-!
# C230 Residuals of PnP and of intrinsic calibration in double arithmetic
-/

namespace RCT

open Spec

namespace Double

variable {D : Double}

theorem WF.rnd_zero (hD : D.WF) : D.rnd 0 = 0 := by
  have := hD.rnd_err 0
  simpa using this

theorem WF.zero_mul (hD : D.WF) (a : ℝ) : D.mul 0 a = 0 := by
  unfold Double.mul; rw [MulZeroClass.zero_mul]; exact hD.rnd_zero

/-- Angle and axis of a rotation vector. -/
theorem WF.angle_axis (hD : D.WF) {r : V3} (hr : r.norm ≤ 7) :
    ∃ c s : ℝ, ∃ u : V3, D.angleAxisMatrix r =
        ⟨D.add (D.mul (D.mul (D.sub 1 c) u.x) u.x) c, D.sub (D.mul (D.mul (D.sub 1 c) u.x) u.y) (D.mul s u.z), D.add (D.mul (D.mul (D.sub 1 c) u.x) u.z) (D.mul s u.y),
         D.add (D.mul (D.mul (D.sub 1 c) u.x) u.y) (D.mul s u.z), D.add (D.mul (D.mul (D.sub 1 c) u.y) u.y) c, D.sub (D.mul (D.mul (D.sub 1 c) u.y) u.z) (D.mul s u.x),
         D.sub (D.mul (D.mul (D.sub 1 c) u.x) u.z) (D.mul s u.y), D.add (D.mul (D.mul (D.sub 1 c) u.y) u.z) (D.mul s u.x), D.add (D.mul (D.mul (D.sub 1 c) u.z) u.z) c⟩ ∧
      Near 1 58 1 c (Real.cos r.norm) ∧ Near 1 58 1 s (Real.sin r.norm) ∧ Near 1 12 1 u.x (1 / r.norm * r.x) ∧ Near 1 12 1 u.y (1 / r.norm * r.y) ∧
      Near 1 12 1 u.z (1 / r.norm * r.z) := by
  have hu := dblUnit_pos
  have hu' := dblUnit_le
  have hn : r.dot r = r.norm * r.norm := (V3.norm_sq r).symm
  have hcb := Real.abs_cos_le_one r.norm
  have hsb := Real.abs_sin_le_one r.norm
  have trig : ∀ θ' : ℝ, |θ' - r.norm| ≤ 56 * dblUnit → Near 1 58 1 (D.cos θ') (Real.cos r.norm) ∧ Near 1 58 1 (D.sin θ') (Real.sin r.norm) := by
    intro θ' h
    refine ⟨⟨?_, by simpa using hcb⟩, ⟨?_, by simpa using hsb⟩⟩
    · have h1 := hD.cos_err θ'
      have h2 := Real.abs_cos_sub_cos_le θ' r.norm
      have := abs_sub_le (D.cos θ') (Real.cos θ') (Real.cos r.norm)
      linarith
    · have h1 := hD.sin_err θ'
      have h2 := Real.abs_sin_sub_sin_le θ' r.norm
      have := abs_sub_le (D.sin θ') (Real.sin θ') (Real.sin r.norm)
      linarith
  have hd := hD.dot_self r
  refine ⟨D.cos (D.sqrt (D.dot r r)), D.sin (D.sqrt (D.dot r r)),
    if D.dot r r > 0 then ⟨D.div r.x (D.sqrt (D.dot r r)), D.div r.y (D.sqrt (D.dot r r)), D.div r.z (D.sqrt (D.dot r r))⟩ else r, rfl, ?_⟩
  rcases eq_or_lt_of_le (V3.norm_nonneg r) with h0 | h0
  · have hz : D.dot r r = 0 := by
      rw [hn, ← h0] at hd
      simpa using hd
    have hs : D.sqrt 0 = 0 := by
      have := hD.sqrt_err 0 le_rfl
      simpa using this
    have hr0 : r = 0 := V3.norm_eq_zero.1 h0.symm
    rw [hz, hs, if_neg (lt_irrefl _)]
    obtain ⟨a, b⟩ := trig 0 (by rw [← h0]; simpa using hu.le)
    refine ⟨a, b, ?_⟩
    rw [hr0]
    refine ⟨⟨?_, ?_⟩, ⟨?_, ?_⟩, ⟨?_, ?_⟩⟩ <;> simp <;> positivity
  · have hθ := hD.angle h0 (t := D.dot r r) (by rw [← hn]; exact hd)
    have hp : D.dot r r > 0 := by
      rw [hn] at hd
      have : 0 < r.norm * r.norm := by positivity
      have := (abs_le.1 hd).1
      nlinarith
    rw [if_pos hp]
    obtain ⟨a, b⟩ := trig _ (hθ.trans (by nlinarith))
    exact ⟨a, b, hD.unit_axis h0 hθ (V3.abs_x_le r), hD.unit_axis h0 hθ (V3.abs_y_le r), hD.unit_axis h0 hθ (V3.abs_z_le r)⟩

/-- The target point in the camera. -/
theorem WF.pnp_point (hD : D.WF) {aa t p : V3} {T : Iso} {S : ℝ} (hr : IsRotVec aa T.R) (ht : T.t = t) (h7 : aa.norm ≤ 7) (hp : p.norm ≤ S)
    (hT : (T.apply p).norm ≤ S) : (D.pnpPoint p aa t - T.apply p).norm ≤ 2000 * (dblUnit * S) := by
  have hS : 0 ≤ S := (V3.norm_nonneg p).trans hp
  have e : T.apply p = T.R.mulVec p + t := by rw [← ht]; rfl
  have htn : t.norm ≤ 2 * S := by
    have h1 : t = T.apply p - T.R.mulVec p := by rw [e]; ext <;> simp
    have h2 : (T.R.mulVec p).norm ≤ S := by rw [M3.IsRot.norm (IsRotVec.rot hr)]; exact hp
    have h3 : (T.apply p - T.R.mulVec p).norm ≤ (T.apply p).norm + (T.R.mulVec p).norm := by
      have := V3.norm_add_le (T.apply p) (V3.smul (-1) (T.R.mulVec p))
      rw [V3.norm_smul] at this
      have e2 : T.apply p - T.R.mulVec p = T.apply p + V3.smul (-1) (T.R.mulVec p) := by ext <;> simp [V3.smul] <;> ring
      rw [e2]; simpa using this
    rw [h1]; linarith
  obtain ⟨c, s, u, hm, hc, hs, hx, hy, hz⟩ := hD.angle_axis h7
  have hxx := hD.entry hc hs hx hx hz
  have hxy := hD.entry hc hs hx hy hz
  have hxz := hD.entry hc hs hx hz hy
  have hyy := hD.entry hc hs hy hy hz
  have hyz := hD.entry hc hs hy hz hx
  have hzz := hD.entry hc hs hz hz hz
  have r1 := hD.row hS hxx.1 hxy.2.2 hxz.2.1 hp ((V3.abs_x_le t).trans htn)
  have r2 := hD.row hS hxy.2.1 hyy.1 hyz.2.2 hp ((V3.abs_y_le t).trans htn)
  have r3 := hD.row hS hxz.2.2 hyz.2.1 hzz.1 hp ((V3.abs_z_le t).trans htn)
  rw [e, ← turnedBy_eq hr]
  unfold Double.pnpPoint
  rw [hm]
  have e1 := r1.err
  have e2 := r2.err
  have e3 := r3.err
  have hu := dblUnit_pos
  have : 0 ≤ dblUnit * S := by positivity
  refine (V3.norm_le_abs _).trans ?_
  have f1 : (turnedBy aa p + t).x = ((1 - Real.cos aa.norm) * (1 / aa.norm * aa.x) * (1 / aa.norm * aa.x) + Real.cos aa.norm) * p.x +
      ((1 - Real.cos aa.norm) * (1 / aa.norm * aa.x) * (1 / aa.norm * aa.y) - Real.sin aa.norm * (1 / aa.norm * aa.z)) * p.y +
      ((1 - Real.cos aa.norm) * (1 / aa.norm * aa.x) * (1 / aa.norm * aa.z) + Real.sin aa.norm * (1 / aa.norm * aa.y)) * p.z + t.x := by
    simp only [turnedBy, V3.add_x, V3.smul_x, V3.cross, V3.dot, V3.smul_y, V3.smul_z]; ring
  have f2 : (turnedBy aa p + t).y = ((1 - Real.cos aa.norm) * (1 / aa.norm * aa.x) * (1 / aa.norm * aa.y) + Real.sin aa.norm * (1 / aa.norm * aa.z)) * p.x +
      ((1 - Real.cos aa.norm) * (1 / aa.norm * aa.y) * (1 / aa.norm * aa.y) + Real.cos aa.norm) * p.y +
      ((1 - Real.cos aa.norm) * (1 / aa.norm * aa.y) * (1 / aa.norm * aa.z) - Real.sin aa.norm * (1 / aa.norm * aa.x)) * p.z + t.y := by
    simp only [turnedBy, V3.add_y, V3.smul_x, V3.cross, V3.dot, V3.smul_y, V3.smul_z]; ring
  have f3 : (turnedBy aa p + t).z = ((1 - Real.cos aa.norm) * (1 / aa.norm * aa.x) * (1 / aa.norm * aa.z) - Real.sin aa.norm * (1 / aa.norm * aa.y)) * p.x +
      ((1 - Real.cos aa.norm) * (1 / aa.norm * aa.y) * (1 / aa.norm * aa.z) + Real.sin aa.norm * (1 / aa.norm * aa.x)) * p.y +
      ((1 - Real.cos aa.norm) * (1 / aa.norm * aa.z) * (1 / aa.norm * aa.z) + Real.cos aa.norm) * p.z + t.z := by
    simp only [turnedBy, V3.add_z, V3.smul_x, V3.cross, V3.dot, V3.smul_y, V3.smul_z]; ring
  rw [V3.sub_x, V3.sub_y, V3.sub_z, f1, f2, f3]
  linarith

/-- The residual of a pixel, with the projection of PnP. -/
theorem WF.pixelE (hD : D.WF) {F S : ℝ} {i : Intr} {obs : V2} {c c' : V3} (hu : Usual F S i obs c) (hc : 1 / 10 ^ 9 ≤ c.z) (hS0 : 0 ≤ S)
    (h : (c' - c).norm ≤ 4000 * (dblUnit * S)) :
    PixelErrorUpTo F [D.sub (D.projectPointE i c').x obs.x, D.sub (D.projectPointE i c').y obs.y] (pinhole i c) obs := by
  have hF : 0 ≤ F := (abs_nonneg _).trans hu.fx
  have hzb : |c'.z - c.z| ≤ 4000 * (dblUnit * S) := (V3.abs_z_le _).trans h
  obtain ⟨hz, hx⟩ := hD.quotient hu.front hu.x hu.near hS0 ((V3.abs_x_le _).trans h) hzb
  obtain ⟨-, hy⟩ := hD.quotient hu.front hu.y hu.near hS0 ((V3.abs_y_le _).trans h) hzb
  have hd := dblUnit_pos
  have hd' := dblUnit_le
  have hcz : 0 < c.z := by linarith [show (0:ℝ) < 1 / 10 ^ 9 by norm_num]
  have hz' : 99 / 100 * c.z ≤ c'.z := by
    have h1 := (abs_le.1 hzb).1
    have h2 := hu.near
    rw [abs_of_pos hcz] at h2
    have : 4000 * (dblUnit * S) ≤ 1 / 100 * c.z := by nlinarith
    linarith
  have hif : D.sub c'.z 0 > 1 / 10 ^ 10 := by
    have h1 := hD.rnd_err (c'.z - 0)
    rw [sub_zero, abs_of_pos (by linarith : 0 < c'.z)] at h1
    have h2 := (abs_le.1 h1).1
    have e : D.sub c'.z 0 = D.rnd c'.z := by unfold Double.sub; rw [sub_zero]
    rw [e]
    have h3 : 1 / 2 * c'.z ≤ D.rnd c'.z := by nlinarith
    have h4 : (1 / 10 ^ 10 : ℝ) < 1 / 2 * (99 / 100 * (1 / 10 ^ 9)) := by norm_num
    linarith
  have one : Near 1 0 1 1 1 := .exact (by norm_num)
  have fin : ∀ {e x : ℝ}, |e - x| ≤ 820000 * (dblUnit * F) → |e - x| ≤ F / 10 ^ 10 := by
    intro e x h
    have : 820000 * dblUnit ≤ 1 / 10 ^ 10 := by unfold dblUnit; norm_num
    refine h.trans ?_
    calc 820000 * (dblUnit * F) = (820000 * dblUnit) * F := by ring
      _ ≤ 1 / 10 ^ 10 * F := mul_le_mul_of_nonneg_right this hF
      _ = _ := by ring
  have zero : Near F 0 0 0 0 := .exact (by simp)
  have key : ∀ {f q q' m o y : ℝ}, Near 1 810000 1 q' q → |f| ≤ F → |m| ≤ F → |o| ≤ F →
      |D.sub (D.add (D.add (D.mul f q') (D.mul 0 y)) (D.mul m 1)) o - (f * q + m - o)| ≤ 820000 * (dblUnit * F) ∧
      |D.sub (D.add (D.add (D.mul 0 y) (D.mul f q')) (D.mul m 1)) o - (f * q + m - o)| ≤ 820000 * (dblUnit * F) := by
    intro f q q' m o y hq hf hm ho
    have a := Near.mul hD hF hq (.exact (by simpa using hf) : Near F 0 1 f f) (by norm_num) (by norm_num) (by norm_num) (by norm_num) (by norm_num)
    have b := Near.mul hD hF one (.exact (by simpa using hm) : Near F 0 1 m m) (by norm_num) (by norm_num) (by norm_num) (by norm_num) (by norm_num)
    have o' : Near F 0 1 o o := .exact (by simpa using ho)
    have d1 := Near.sub hD hF (Near.add hD hF (Near.add hD hF a zero (by norm_num) (by norm_num)) b (by norm_num) (by norm_num)) o' (by norm_num) (by norm_num)
    have d2 := Near.sub hD hF (Near.add hD hF (Near.add hD hF zero a (by norm_num) (by norm_num)) b (by norm_num) (by norm_num)) o' (by norm_num) (by norm_num)
    have c1 := (d1.of hF (show _ ≤ (820000 : ℝ) by norm_num) le_rfl).err
    have c2 := (d2.of hF (show _ ≤ (820000 : ℝ) by norm_num) le_rfl).err
    rw [hD.zero_mul, Double.mul_comm D f, Double.mul_comm D m]
    refine ⟨?_, ?_⟩
    · have e : q * f + 0 + 1 * m - o = f * q + m - o := by ring
      rwa [e] at c1
    · have e : 0 + q * f + 1 * m - o = f * q + m - o := by ring
      rwa [e] at c2
  refine ⟨_, _, rfl, ?_, ?_⟩
  · unfold Double.projectPointE
    simp only [if_pos hif]
    exact fin (key hx hu.fx hu.cx hu.u).1
  · unfold Double.projectPointE
    simp only [if_pos hif]
    exact fin (key hy hu.fy hu.cy hu.v).2

/-- The residual of a point in space. -/
theorem WF.point (hD : D.WF) {S : ℝ} {obs c c' : V3} (hl : c.norm ≤ S) (ho : obs.norm ≤ S) (h : (c' - c).norm ≤ 4000 * (dblUnit * S)) :
    ((⟨D.sub c'.x obs.x, D.sub c'.y obs.y, D.sub c'.z obs.z⟩ : V3) - (c - obs)).norm ≤ S / 10 ^ 11 := by
  have hS0 : 0 ≤ S := (V3.norm_nonneg c).trans hl
  have key : ∀ {a' a b : ℝ}, |a' - a| ≤ 4000 * (dblUnit * S) → |a| ≤ S → |b| ≤ S → |D.sub a' b - (a - b)| ≤ 4003 * (dblUnit * S) := by
    intro a' a b h1 h2 h3
    exact ((Near.sub hD hS0 (⟨h1, by simpa using h2⟩ : Near S 4000 1 a' a) (.exact (by simpa using h3) : Near S 0 1 b b) (by norm_num) (by norm_num)).of hS0 (by norm_num) le_rfl).err
  have hx := key (a' := c'.x) (a := c.x) (b := obs.x) ((V3.abs_x_le _).trans h) ((V3.abs_x_le _).trans hl) ((V3.abs_x_le _).trans ho)
  have hy := key (a' := c'.y) (a := c.y) (b := obs.y) ((V3.abs_y_le _).trans h) ((V3.abs_y_le _).trans hl) ((V3.abs_y_le _).trans ho)
  have hz := key (a' := c'.z) (a := c.z) (b := obs.z) ((V3.abs_z_le _).trans h) ((V3.abs_z_le _).trans hl) ((V3.abs_z_le _).trans ho)
  have fin : 12009 * (dblUnit * S) ≤ S / 10 ^ 11 := by
    have : 12009 * dblUnit ≤ 1 / 10 ^ 11 := by unfold dblUnit; norm_num
    calc 12009 * (dblUnit * S) = (12009 * dblUnit) * S := by ring
      _ ≤ 1 / 10 ^ 11 * S := mul_le_mul_of_nonneg_right this hS0
      _ = _ := by ring
  refine ((V3.norm_le_abs _).trans ?_).trans fin
  simp only [V3.sub_x, V3.sub_y, V3.sub_z]
  linarith

end Double

/-! ## Property C230 -/

/-- C230: PnP from pixels, for points at least a thousand millionth in front of the camera plane. -/
theorem C230_pnp {D : Double} (hD : D.WF) {aa t pt : V3} {T : Iso} {S F : ℝ} {i : Intr} {obs : V2} (hr : IsRotVec aa T.R) (ht : T.t = t)
    (h7 : aa.norm ≤ 7) (hp : pt.norm ≤ S) (hT : (T.apply pt).norm ≤ S) (hz : 1 / 10 ^ 9 ≤ (T.apply pt).z) (hu : Usual F S i obs (T.apply pt)) :
    PixelErrorUpTo F (D.pnpCost2 i pt obs aa t) (pinhole i (T.apply pt)) obs := by
  have hS0 := (V3.norm_nonneg pt).trans hp
  exact hD.pixelE hu hz hS0 ((hD.pnp_point hr ht h7 hp hT).trans (Double.grow hS0 (by norm_num)))

/-- C230: PnP from points in space. -/
theorem C230_pnp_3d {D : Double} (hD : D.WF) {aa t pt obs : V3} {T : Iso} {S : ℝ} (hr : IsRotVec aa T.R) (ht : T.t = t)
    (h7 : aa.norm ≤ 7) (hp : pt.norm ≤ S) (hT : (T.apply pt).norm ≤ S) (ho : obs.norm ≤ S) :
    ∃ e : V3, D.pnpCost3 pt obs aa t = [e.x, e.y, e.z] ∧ (e - (T.apply pt - obs)).norm ≤ S / 10 ^ 11 := by
  have hS0 := (V3.norm_nonneg pt).trans hp
  exact ⟨⟨_, _, _⟩, rfl, hD.point hT ho ((hD.pnp_point hr ht h7 hp hT).trans (Double.grow hS0 (by norm_num)))⟩

/-- C230: intrinsic calibration, for distortion coefficients of at most one. -/
theorem C230_intrinsic {D : Double} (hD : D.WF) {p : Pose6} {T : Iso} {pt : V3} {S F : ℝ} {i : Intr9} {obs : V2} (hT : Describes p T)
    (h7 : NoTwist p) (hS : ∀ r ∈ way [T] pt, r.norm ≤ S) (hu : Usual F S ⟨i.fx, i.fy, i.cx, i.cy⟩ obs (T.apply pt)) (h1 : |i.k1| ≤ 1) (h2 : |i.k2| ≤ 1)
    (h3 : |i.k3| ≤ 1) (hp1 : |i.p1| ≤ 1) (hp2 : |i.p2| ≤ 1) :
    ∃ ex ey, D.intrinsicCost pt obs p i = [ex, ey] ∧
      |ex - ((brown ⟨i.fx, i.fy, i.cx, i.cy⟩ i.k1 i.k2 i.p1 i.p2 i.k3 ((T.apply pt).x / (T.apply pt).z) ((T.apply pt).y / (T.apply pt).z)).x - obs.x)| ≤ F / 10 ^ 8 ∧
      |ey - ((brown ⟨i.fx, i.fy, i.cx, i.cy⟩ i.k1 i.k2 i.p1 i.p2 i.k3 ((T.apply pt).x / (T.apply pt).z) ((T.apply pt).y / (T.apply pt).z)).y - obs.y)| ≤ F / 10 ^ 8 := by
  have hF : 0 ≤ F := (abs_nonneg _).trans hu.fx
  simp only [way, List.forall_mem_cons] at hS
  obtain ⟨s0, s1, -⟩ := hS
  have hS0 := (V3.norm_nonneg pt).trans s0
  have h := (hD.move hT h7 s0 s1).trans (Double.grow hS0 (show (996 : ℝ) ≤ 4000 by norm_num))
  unfold Double.intrinsicCost
  generalize D.transformPoint p pt = c' at h ⊢
  generalize T.apply pt = c at h hu ⊢
  obtain ⟨hz, hx⟩ := hD.quotient hu.front hu.x hu.near hS0 ((V3.abs_x_le _).trans h) ((V3.abs_z_le _).trans h)
  obtain ⟨-, hy⟩ := hD.quotient hu.front hu.y hu.near hS0 ((V3.abs_y_le _).trans h) ((V3.abs_z_le _).trans h)
  have hne : c'.z ≠ 0 := by
    have := abs_pos.2 hu.front
    exact abs_pos.1 (by linarith)
  unfold Double.projectPoints2
  simp only [if_neg hne]
  generalize D.div c'.x c'.z = x' at hx ⊢
  generalize D.div c'.y c'.z = y' at hy ⊢
  generalize c.x / c.z = x at hx ⊢
  generalize c.y / c.z = y at hy ⊢
  have z : (0 : ℝ) ≤ 1 := zero_le_one
  have xx := Near.mul hD z hx hx (by norm_num) (by norm_num) (by norm_num) (by norm_num) (by norm_num)
  have yy := Near.mul hD z hy hy (by norm_num) (by norm_num) (by norm_num) (by norm_num) (by norm_num)
  have r2 : Near 1 3240007 2 (D.add (D.mul x' x') (D.mul y' y')) (x * x + y * y) :=
    (Near.add hD z xx yy (by norm_num) (by norm_num)).of z (by norm_num) (by norm_num)
  have dx := hD.distort hx hx hy r2 h1 h2 h3 hp2 hp1
  have dy := hD.distort hy hx hy r2 h1 h2 h3 hp1 hp2
  have last : ∀ {f m o q q' : ℝ}, Near 1 78000000 21 q' q → |f| ≤ F → |m| ≤ F → |o| ≤ F → |D.sub (D.add (D.mul f q') m) o - (f * q + m - o)| ≤ F / 10 ^ 8 := by
    intro f m o q q' hq hf hm ho
    have a := Near.mul hD hF hq (.exact (by simpa using hf) : Near F 0 1 f f) (by norm_num) (by norm_num) (by norm_num) (by norm_num) (by norm_num)
    have d := Near.sub hD hF (Near.add hD hF a (.exact (by simpa using hm) : Near F 0 1 m m) (by norm_num) (by norm_num))
      (.exact (by simpa using ho) : Near F 0 1 o o) (by norm_num) (by norm_num)
    have c := (d.of hF (show _ ≤ (78000100 : ℝ) by norm_num) le_rfl).err
    rw [Double.mul_comm D f, _root_.mul_comm f]
    refine c.trans ?_
    have : 78000100 * dblUnit ≤ 1 / 10 ^ 8 := by unfold dblUnit; norm_num
    calc 78000100 * (dblUnit * F) = (78000100 * dblUnit) * F := by ring
      _ ≤ 1 / 10 ^ 8 * F := mul_le_mul_of_nonneg_right this hF
      _ = _ := by ring
  have hr : Real.sqrt (x ^ 2 + y ^ 2) ^ 2 = x ^ 2 + y ^ 2 := Real.sq_sqrt (by positivity)
  have hr4 : Real.sqrt (x ^ 2 + y ^ 2) ^ 4 = (x ^ 2 + y ^ 2) ^ 2 := by
    calc Real.sqrt (x ^ 2 + y ^ 2) ^ 4 = (Real.sqrt (x ^ 2 + y ^ 2) ^ 2) ^ 2 := by ring
      _ = _ := by rw [hr]
  have hr6 : Real.sqrt (x ^ 2 + y ^ 2) ^ 6 = (x ^ 2 + y ^ 2) ^ 3 := by
    calc Real.sqrt (x ^ 2 + y ^ 2) ^ 6 = (Real.sqrt (x ^ 2 + y ^ 2) ^ 2) ^ 3 := by ring
      _ = _ := by rw [hr]
  refine ⟨_, _, rfl, ?_, ?_⟩
  · have := last dx hu.fx hu.cx hu.u
    have e : (brown ⟨i.fx, i.fy, i.cx, i.cy⟩ i.k1 i.k2 i.p1 i.p2 i.k3 x y).x - obs.x =
        i.fx * (x + i.k1 * (x * x + y * y) * x + i.k2 * ((x * x + y * y) * (x * x + y * y)) * x +
          i.k3 * ((x * x + y * y) * ((x * x + y * y) * (x * x + y * y))) * x + i.p2 * (x * x + y * y + 2 * (x * x)) + i.p1 * x * y * 2) + i.cx - obs.x := by
      simp only [brown]
      rw [hr, hr4, hr6]
      ring
    rw [e]
    exact this
  · have := last dy hu.fy hu.cy hu.v
    have e : (brown ⟨i.fx, i.fy, i.cx, i.cy⟩ i.k1 i.k2 i.p1 i.p2 i.k3 x y).y - obs.y =
        i.fy * (y + i.k1 * (x * x + y * y) * y + i.k2 * ((x * x + y * y) * (x * x + y * y)) * y +
          i.k3 * ((x * x + y * y) * ((x * x + y * y) * (x * x + y * y))) * y + i.p1 * (x * x + y * y + 2 * (y * y)) + i.p2 * x * y * 2) + i.cy - obs.y := by
      simp only [brown]
      rw [hr, hr4, hr6]
      ring
    rw [e]
    exact this

/-! ## The model without rounding is the one of the other properties -/

theorem Double.exact_matrix (aa : V3) : Double.exact.angleAxisMatrix aa = AngleAxis.toMat ⟨aa.norm, aa.normalized⟩ := by
  have hd : Double.exact.dot aa aa = aa.dot aa := rfl
  have hs : Double.exact.sqrt (aa.dot aa) = aa.norm := rfl
  have hu : (if aa.dot aa > 0 then (⟨Double.exact.div aa.x aa.norm, Double.exact.div aa.y aa.norm, Double.exact.div aa.z aa.norm⟩ : V3) else aa) = aa.normalized := by
    by_cases h : aa = 0
    · have h0 : ¬ aa.dot aa > 0 := by rw [h]; simp [V3.dot]
      rw [if_neg h0, h]
      simp [V3.normalized, V3.normSq, V3.dot]
    · have hp : aa.dot aa > 0 := by
        rcases (V3.norm_nonneg aa).eq_or_lt with e | e
        · exact absurd (V3.norm_eq_zero.1 e.symm) h
        · have : aa.dot aa = aa.norm * aa.norm := (V3.norm_sq aa).symm
          rw [this]; positivity
      rw [if_pos hp, V3.normalized_of_ne h]
      ext <;> simp only [Double.exact, Double.div, id, V3.smul_x, V3.smul_y, V3.smul_z] <;> ring
  unfold Double.angleAxisMatrix
  simp only [hd, hs, hu]
  simp only [AngleAxis.toMat, Double.exact, Double.add, Double.sub, Double.mul, id]

theorem Double.exact_pnpPoint (pt aa t : V3) : Double.exact.pnpPoint pt aa t = (pnpTransform aa t).apply pt := by
  unfold Double.pnpPoint pnpTransform Iso.apply M3.mulVec
  rw [Double.exact_matrix]
  rfl

theorem Double.exact_projectE (i : Intr) (p : V3) : Double.exact.projectPointE i p = RCT.projectPointE i p := by
  unfold Double.projectPointE RCT.projectPointE
  have e : Double.exact.sub p.z 0 = p.z - 0 := rfl
  rw [e]
  by_cases h : p.z - 0 > 1 / 10 ^ 10
  · simp only [if_pos h]; rfl
  · simp only [if_neg h]; rfl

theorem Double.exact_project2 (i : Intr9) (p : V3) : Double.exact.projectPoints2 i p = RCT.projectPoints2 i p := by
  unfold Double.projectPoints2 RCT.projectPoints2
  by_cases h : p.z = 0
  · simp only [if_pos h]; rfl
  · simp only [if_neg h]; rfl

/-- C230: without rounding the functors of this model are those of the other properties. -/
theorem C230_same (i : Intr) (pt : V3) (obs : V2) (obs3 aa t : V3) (pose intr : Mem) :
    Double.exact.pnpCost2 i pt obs aa t = RCT.pnpCost2 i pt obs aa t ∧ Double.exact.pnpCost3 pt obs3 aa t = RCT.pnpCost3 pt obs3 aa t ∧
      Double.exact.intrinsicCost pt obs pose.pose intr.intr9 = RCT.intrinsicCost pt obs pose intr := by
  refine ⟨?_, ?_, ?_⟩
  · unfold Double.pnpCost2
    rw [Double.exact_pnpPoint, Double.exact_projectE]; rfl
  · unfold Double.pnpCost3
    rw [Double.exact_pnpPoint]; rfl
  · unfold Double.intrinsicCost
    rw [Double.exact_transform, Double.exact_project2]; rfl

/-! ## Examples -/

/-- All hypotheses of `C230_pnp`: a quarter turn about the optical axis at depth 2. -/
example (D : Double) (hD : D.WF) :
    PixelErrorUpTo 1000 (D.pnpCost2 ⟨500, 500, 320, 240⟩ ⟨1, 0, 0⟩ ⟨300, 200⟩ ⟨0, 0, Real.pi / 2⟩ ⟨1, 0, 2⟩) ⟨500 * (1 / 2) + 320, 500 * (1 / 2) + 240⟩ ⟨300, 200⟩ := by
  have hr : IsRotVec ⟨0, 0, Real.pi / 2⟩ ⟨0, -1, 0, 1, 0, 0, 0, 0, 1⟩ := by
    refine ⟨⟨0, 0, 1⟩, Real.pi / 2, ⟨by norm_num [V3.normSq, V3.dot], ?_⟩, by ext <;> simp [V3.smul]⟩
    intro p
    ext <;> simp [M3.mulVec, V3.smul, V3.cross, V3.dot]
  have hv : (⟨⟨0, -1, 0, 1, 0, 0, 0, 0, 1⟩, ⟨1, 0, 2⟩⟩ : Iso).apply ⟨1, 0, 0⟩ = ⟨1, 1, 2⟩ := by
    ext <;> norm_num [Iso.apply, M3.mulVec]
  have h7 : (⟨0, 0, Real.pi / 2⟩ : V3).norm ≤ 7 := by
    refine (V3.norm_le_abs _).trans ?_
    have := Real.pi_pos
    have := Real.pi_le_four
    simp only [abs_zero, abs_of_pos (show (0 : ℝ) < Real.pi / 2 by positivity)]
    linarith
  have := C230_pnp hD (T := ⟨⟨0, -1, 0, 1, 0, 0, 0, 0, 1⟩, ⟨1, 0, 2⟩⟩) (pt := ⟨1, 0, 0⟩) (S := 5) (F := 1000) (i := ⟨500, 500, 320, 240⟩) (obs := ⟨300, 200⟩)
    hr rfl h7 ?_ ?_ ?_ ?_
  · rw [hv] at this
    simpa only [pinhole] using this
  · refine (V3.norm_le_abs _).trans ?_; norm_num
  · rw [hv]; refine (V3.norm_le_abs _).trans ?_; norm_num
  · rw [hv]; norm_num
  · rw [hv]; constructor <;> norm_num [abs_le]

/-- All hypotheses of `C230_intrinsic`, with every distortion coefficient different from zero. -/
example (D : Double) (hD : D.WF) : ∃ ex ey, D.intrinsicCost ⟨1, 0, 0⟩ ⟨300, 200⟩ ⟨0, 0, 0, 0, 0, 2⟩ ⟨500, 500, 320, 240, 1 / 10, -1 / 5, 1 / 100, 1 / 50, 1 / 3⟩ = [ex, ey] ∧
    |ex - ((brown ⟨500, 500, 320, 240⟩ (1 / 10) (-1 / 5) (1 / 100) (1 / 50) (1 / 3) (1 / 2) 0).x - 300)| ≤ 1000 / 10 ^ 8 ∧
    |ey - ((brown ⟨500, 500, 320, 240⟩ (1 / 10) (-1 / 5) (1 / 100) (1 / 50) (1 / 3) (1 / 2) 0).y - 200)| ≤ 1000 / 10 ^ 8 := by
  have hT : Describes ⟨0, 0, 0, 0, 0, 2⟩ ⟨⟨1, 0, 0, 0, 1, 0, 0, 0, 1⟩, ⟨0, 0, 2⟩⟩ := by
    refine ⟨⟨⟨0, 0, 1⟩, 0, ⟨by norm_num [V3.normSq, V3.dot], ?_⟩, by ext <;> simp [V3.smul]⟩, rfl⟩
    intro p
    ext <;> simp [M3.mulVec, V3.smul, V3.cross, V3.dot]
  have hv : (⟨⟨1, 0, 0, 0, 1, 0, 0, 0, 1⟩, ⟨0, 0, 2⟩⟩ : Iso).apply ⟨1, 0, 0⟩ = ⟨1, 0, 2⟩ := by
    ext <;> norm_num [Iso.apply, M3.mulVec]
  have := C230_intrinsic hD (p := ⟨0, 0, 0, 0, 0, 2⟩) (pt := ⟨1, 0, 0⟩) (S := 5) (F := 1000) (obs := ⟨300, 200⟩)
    (i := ⟨500, 500, 320, 240, 1 / 10, -1 / 5, 1 / 100, 1 / 50, 1 / 3⟩) hT ?_ ?_ ?_ ?_ ?_ ?_ ?_ ?_
  · rw [hv] at this
    simpa only [zero_div] using this
  · unfold NoTwist; refine (V3.norm_le_abs _).trans ?_; norm_num
  · simp only [way, List.forall_mem_cons, List.not_mem_nil, false_implies, implies_true, and_true]
    rw [hv]
    refine ⟨?_, ?_⟩ <;> refine (V3.norm_le_abs _).trans ?_ <;> norm_num
  · rw [hv]; constructor <;> norm_num [abs_le]
  all_goals norm_num [abs_le]

end RCT
