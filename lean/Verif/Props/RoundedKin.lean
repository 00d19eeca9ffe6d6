import Verif.Lemmas.RoundedKin
import Verif.Props.DHChain

/-!
# C234 Forward kinematics in double arithmetic
-/

namespace RCT

open Spec

/-- Turn about z, as used in the proofs. -/
noncomputable def rotZ (a : ℝ) : M3 := ⟨Real.cos a, -Real.sin a, 0, Real.sin a, Real.cos a, 0, 0, 0, 1⟩
/-- Turn about x, as used in the proofs. -/
noncomputable def rotX (a : ℝ) : M3 := ⟨1, 0, 0, 0, Real.cos a, -Real.sin a, 0, Real.sin a, Real.cos a⟩

theorem rotZ_rot (a : ℝ) : (rotZ a).IsRot := by
  have h := Real.sin_sq_add_cos_sq a
  refine ⟨?_, ?_⟩
  · rw [M3.mul_def, M3.one_def]
    ext <;> simp [rotZ, M3.tr] <;> nlinarith
  · simp [M3.det, rotZ]; nlinarith

theorem rotX_rot (a : ℝ) : (rotX a).IsRot := by
  have h := Real.sin_sq_add_cos_sq a
  refine ⟨?_, ?_⟩
  · rw [M3.mul_def, M3.one_def]
    ext <;> simp [rotX, M3.tr] <;> nlinarith
  · simp [M3.det, rotX]; nlinarith

theorem dhMatrix_eq (d th r al : ℝ) : dhMatrix d th r al = ⟨1 * rotZ th * rotX al, ⟨r * Real.cos th, r * Real.sin th, d⟩⟩ := by
  unfold dhMatrix rotZ rotX
  rw [M3.mul_def, M3.mul_def, M3.one_def]
  ext <;> simp

namespace Double

variable {D : Double}

theorem WF.rnd_nothing (hD : D.WF) : D.rnd 0 = 0 := by
  have := hD.rnd_err 0
  simpa using this

theorem WF.trig (hD : D.WF) {a' a : ℝ} (h : |a' - a| ≤ 56 * dblUnit) :
    |D.cos a' - Real.cos a| ≤ 58 * dblUnit ∧ |D.sin a' - Real.sin a| ≤ 58 * dblUnit := by
  constructor
  · have h1 := hD.cos_err a'
    have h2 := Real.abs_cos_sub_cos_le a' a
    have := abs_sub_le (D.cos a') (Real.cos a') (Real.cos a)
    linarith
  · have h1 := hD.sin_err a'
    have h2 := Real.abs_sin_sub_sin_le a' a
    have := abs_sub_le (D.sin a') (Real.sin a') (Real.sin a)
    linarith

/-- A rounded value of size one. -/
theorem WF.rnd_unit (hD : D.WF) {x' x k : ℝ} (h : |x' - x| ≤ k * dblUnit) (hx : |x| ≤ 1) (hk : k ≤ 100) :
    |D.rnd x' - x| ≤ (k + 11 / 10) * dblUnit := by
  have hu := dblUnit_pos
  have hu' := dblUnit_le
  have h1 := hD.rnd_err x'
  have h2 : |x'| ≤ 11 / 10 := by
    have := abs_add_le x (x' - x)
    rw [add_sub_cancel] at this
    have : k * dblUnit ≤ 100 * dblUnit := mul_le_mul_of_nonneg_right hk hu.le
    linarith
  have h3 := mul_le_mul_of_nonneg_left h2 hu.le
  have := abs_sub_le (D.rnd x') x' x
  linarith

/-- The diagonal entry of the axis itself. -/
theorem WF.axis_one (hD : D.WF) {c' c : ℝ} (h : |c' - c| ≤ 58 * dblUnit) (hc : |c| ≤ 1) :
    |D.add (D.mul (D.mul (D.sub 1 c') 1) 1) c' - 1| ≤ 61 * dblUnit := by
  have hu := dblUnit_pos
  have hu' := dblUnit_le
  unfold Double.add Double.mul Double.sub
  simp only [mul_one]
  have c1 : |c'| ≤ 11 / 10 := by
    have := abs_add_le c (c' - c)
    rw [add_sub_cancel] at this
    linarith
  have h1 := hD.rnd_err (1 - c')
  have b1 : |1 - c'| ≤ 21 / 10 := by
    have := abs_sub (1 : ℝ) c'
    rw [abs_one] at this; linarith
  generalize D.rnd (1 - c') = x1 at *
  have h2 := hD.rnd_err x1
  have b1' := mul_le_mul_of_nonneg_left b1 hu.le
  have b2 : |x1| ≤ 22 / 10 := by
    have := abs_add_le (1 - c') (x1 - (1 - c'))
    rw [add_sub_cancel] at this
    linarith
  generalize D.rnd x1 = x2 at *
  have h3 := hD.rnd_err x2
  have b2' := mul_le_mul_of_nonneg_left b2 hu.le
  have b3 : |x2| ≤ 23 / 10 := by
    have := abs_add_le x1 (x2 - x1)
    rw [add_sub_cancel] at this
    linarith
  generalize D.rnd x2 = x3 at *
  have b3' := mul_le_mul_of_nonneg_left b3 hu.le
  have h4 := hD.rnd_err (x3 + c')
  have e : x3 + c' - 1 = (x3 - x2) + (x2 - x1) + (x1 - (1 - c')) := by ring
  have t : |x3 + c' - 1| ≤ 7 * dblUnit := by
    have := abs_add_le ((x3 - x2) + (x2 - x1)) (x1 - (1 - c'))
    have := abs_add_le (x3 - x2) (x2 - x1)
    rw [e]; linarith
  have b4 : |x3 + c'| ≤ 2 := by
    have := abs_add_le 1 (x3 + c' - 1)
    rw [add_sub_cancel, abs_one] at this
    linarith
  have b4' := mul_le_mul_of_nonneg_left b4 hu.le
  have := abs_sub_le (D.rnd (x3 + c')) (x3 + c') 1
  linarith

theorem WF.axis_z (hD : D.WF) {a' a : ℝ} (h : |a' - a| ≤ 56 * dblUnit) : EntriesNear 61 (D.axisMatrix a' ⟨0, 0, 1⟩) (rotZ a) := by
  have hu := dblUnit_pos
  obtain ⟨hc, hs⟩ := hD.trig h
  have z := hD.rnd_nothing
  have c0 := Real.abs_cos_le_one a
  have s0 := Real.abs_sin_le_one a
  have rc := hD.rnd_unit hc c0 (by norm_num)
  have rs := hD.rnd_unit hs s0 (by norm_num)
  have rss := hD.rnd_unit rs s0 (by norm_num)
  have rsn : |D.rnd (-D.rnd (D.sin a')) - -Real.sin a| ≤ (58 + 11 / 10 + 11 / 10) * dblUnit :=
    hD.rnd_unit (by rw [← abs_neg]; simpa [neg_sub, add_comm, sub_eq_add_neg] using rs) (by rwa [abs_neg]) (by norm_num)
  have o := hD.axis_one hc c0
  have w : ∀ x : ℝ, |x - x| ≤ 61 * dblUnit := fun x => by rw [sub_self, abs_zero]; positivity
  refine ⟨?_, ?_, ?_, ?_, ?_, ?_, ?_, ?_, ?_⟩
  · simp only [axisMatrix, rotZ, Double.add, Double.mul, Double.sub, mul_zero, z, zero_add]; linarith
  · simp only [axisMatrix, rotZ, Double.add, Double.mul, Double.sub, mul_zero, z, zero_add, mul_one, zero_sub]; linarith
  · simp only [axisMatrix, rotZ, Double.add, Double.mul, Double.sub, mul_zero, z, zero_add, mul_one]; exact w 0
  · simp only [axisMatrix, rotZ, Double.add, Double.mul, Double.sub, mul_zero, z, zero_add, mul_one]; linarith
  · simp only [axisMatrix, rotZ, Double.add, Double.mul, Double.sub, mul_zero, z, zero_add]; linarith
  · simp only [axisMatrix, rotZ, Double.add, Double.mul, Double.sub, mul_zero, z, sub_self, mul_one]; simpa using w 0
  · simp only [axisMatrix, rotZ, Double.add, Double.mul, Double.sub, mul_zero, z, sub_self, mul_one]; simpa using w 0
  · simp only [axisMatrix, rotZ, Double.add, Double.mul, Double.sub, mul_zero, z, zero_add, mul_one]; exact w 0
  · exact o

theorem WF.axis_x (hD : D.WF) {a' a : ℝ} (h : |a' - a| ≤ 56 * dblUnit) : EntriesNear 61 (D.axisMatrix a' ⟨1, 0, 0⟩) (rotX a) := by
  have hu := dblUnit_pos
  obtain ⟨hc, hs⟩ := hD.trig h
  have z := hD.rnd_nothing
  have c0 := Real.abs_cos_le_one a
  have s0 := Real.abs_sin_le_one a
  have rc := hD.rnd_unit hc c0 (by norm_num)
  have rs := hD.rnd_unit hs s0 (by norm_num)
  have rss := hD.rnd_unit rs s0 (by norm_num)
  have rsn : |D.rnd (-D.rnd (D.sin a')) - -Real.sin a| ≤ (58 + 11 / 10 + 11 / 10) * dblUnit :=
    hD.rnd_unit (by rw [← abs_neg]; simpa [neg_sub, add_comm, sub_eq_add_neg] using rs) (by rwa [abs_neg]) (by norm_num)
  have o := hD.axis_one hc c0
  have w : ∀ x : ℝ, |x - x| ≤ 61 * dblUnit := fun x => by rw [sub_self, abs_zero]; positivity
  refine ⟨?_, ?_, ?_, ?_, ?_, ?_, ?_, ?_, ?_⟩
  · exact o
  · simp only [axisMatrix, rotX, Double.add, Double.mul, Double.sub, mul_zero, z, sub_self, mul_one]; simpa using w 0
  · simp only [axisMatrix, rotX, Double.add, Double.mul, Double.sub, mul_zero, z, zero_add, mul_one]; exact w 0
  · simp only [axisMatrix, rotX, Double.add, Double.mul, Double.sub, mul_zero, z, zero_add, mul_one]; exact w 0
  · simp only [axisMatrix, rotX, Double.add, Double.mul, Double.sub, mul_zero, z, zero_add]; linarith
  · simp only [axisMatrix, rotX, Double.add, Double.mul, Double.sub, mul_zero, z, zero_add, mul_one, zero_sub]; linarith
  · simp only [axisMatrix, rotX, Double.add, Double.mul, Double.sub, mul_zero, z, sub_self, mul_one]; simpa using w 0
  · simp only [axisMatrix, rotX, Double.add, Double.mul, Double.sub, mul_zero, z, zero_add, mul_one]; linarith
  · simp only [axisMatrix, rotX, Double.add, Double.mul, Double.sub, mul_zero, z, zero_add]; linarith

theorem WF.sum2 (hD : D.WF) (a b : ℝ) : |D.add a b - (a + b)| ≤ dblUnit * (|a| + |b|) :=
  (hD.rnd_err (a + b)).trans (mul_le_mul_of_nonneg_left (abs_add_le a b) dblUnit_pos.le)

theorem WF.sum3 (hD : D.WF) (a b c : ℝ) : |D.add (D.add a b) c - (a + b + c)| ≤ 21 / 10 * (dblUnit * (|a| + |b| + |c|)) := by
  have hu := dblUnit_pos
  have hu' := dblUnit_le
  have h := hD.sum_step (a := a + b) (a' := D.add a b) (b := c) (b' := c) (f := 0) (W := |a| + |b| + |c|) (hD.sum2 a b) (by simp)
    ((abs_add_le _ _).trans (by have := abs_add_le a b; linarith))
  have pa := abs_nonneg a
  have pb := abs_nonneg b
  have pc := abs_nonneg c
  have t : dblUnit * (dblUnit * (|a| + |b|)) ≤ 1 / 100 * (dblUnit * (|a| + |b|)) :=
    mul_le_mul_of_nonneg_right (hu'.trans (by norm_num)) (by positivity)
  have t1 : 0 ≤ dblUnit * |c| := by positivity
  have t2 : 0 ≤ dblUnit * |a| := by positivity
  have t3 : 0 ≤ dblUnit * |b| := by positivity
  linarith

theorem entries_one : RowsNear 0 1 1 := by
  have : ∀ v : V3, (v - v).norm = 0 := fun v => V3.norm_eq_zero.2 (by ext <;> simp)
  refine ⟨?_, ?_, ?_⟩ <;> simp [this]

/-- One joint. -/
theorem WF.link (hD : D.WF) (t : DHTransform) (q : ℝ) (o : V4) (h1 : linkTurn (t.params, t.type) o q ≤ 25) (h2 : |t.params.alpha| + |o.alpha| ≤ 25) :
    RowsNear 630 (D.relative t q o).R (jointPose t.params t.type o q).R ∧
    ((D.relative t q o).t - (jointPose t.params t.type o q).t).norm ≤ 680 * (dblUnit * linkLength (t.params, t.type) o q) ∧
    (jointPose t.params t.type o q).t.norm ≤ linkLength (t.params, t.type) o q ∧ 0 ≤ linkLength (t.params, t.type) o q := by
  have hu := dblUnit_pos
  have hu' := dblUnit_le
  obtain ⟨L, hL⟩ : ∃ L, L = linkLength (t.params, t.type) o q := ⟨_, rfl⟩
  rw [← hL]
  -- the parameters of the joint
  obtain ⟨d, th, r, al, hJ, hd, hth, hr, hal, hsz⟩ : ∃ d th r al, jointPose t.params t.type o q = dhMatrix d th r al ∧
      |(D.updated t.params t.type q o).d - d| ≤ 21 / 10 * (dblUnit * L) ∧ |(D.updated t.params t.type q o).theta - th| ≤ 56 * dblUnit ∧
      |(D.updated t.params t.type q o).r - r| ≤ dblUnit * L ∧ |(D.updated t.params t.type q o).alpha - al| ≤ 56 * dblUnit ∧ |d| + |r| ≤ L := by
    have pr := hD.sum2 t.params.r o.r
    have pal := hD.sum2 t.params.alpha o.alpha
    have n1 := abs_nonneg t.params.d
    have n2 := abs_nonneg o.d
    have n3 := abs_nonneg t.params.r
    have n4 := abs_nonneg o.r
    have n5 := abs_nonneg q
    have a1 := abs_add_le t.params.d o.d
    have a2 := abs_add_le t.params.r o.r
    have a3 := abs_add_le (t.params.d + o.d) q
    have hal : |D.add t.params.alpha o.alpha - (t.params.alpha + o.alpha)| ≤ 56 * dblUnit := by
      have := mul_le_mul_of_nonneg_left h2 hu.le
      linarith
    cases ht : t.type
    · -- linear
      rw [ht] at h1 hL
      simp only [linkTurn, linkLength] at h1 hL
      have hlr : |t.params.r| + |o.r| ≤ L := by linarith
      have hld : |t.params.d| + |o.d| + |q| ≤ L := by linarith
      refine ⟨_, _, _, _, rfl, ?_, ?_, ?_, hal, ?_⟩
      · have := hD.sum3 t.params.d o.d q
        have := mul_le_mul_of_nonneg_left hld hu.le
        simp only [Double.updated]; linarith
      · have := hD.sum2 t.params.theta o.theta
        have h1' : |t.params.theta| + |o.theta| ≤ 25 := by linarith
        have := mul_le_mul_of_nonneg_left h1' hu.le
        simp only [Double.updated]; linarith
      · have := mul_le_mul_of_nonneg_left hlr hu.le
        simp only [Double.updated]; linarith
      · linarith
    · rw [ht] at h1 hL
      simp only [linkTurn, linkLength] at h1 hL
      have hlr : |t.params.r| + |o.r| ≤ L := by linarith
      have hld : |t.params.d| + |o.d| ≤ L := by linarith
      refine ⟨_, _, _, _, rfl, ?_, ?_, ?_, hal, ?_⟩
      · have := hD.sum2 t.params.d o.d
        have := mul_le_mul_of_nonneg_left hld hu.le
        have : 0 ≤ dblUnit * L := mul_nonneg hu.le (by linarith)
        simp only [Double.updated]; linarith
      · have := hD.sum3 t.params.theta o.theta q
        have := mul_le_mul_of_nonneg_left h1 hu.le
        simp only [Double.updated]; linarith
      · have := mul_le_mul_of_nonneg_left hlr hu.le
        simp only [Double.updated]; linarith
      · linarith
  rw [hJ]
  have hL0 : 0 ≤ L := by have := abs_nonneg d; have := abs_nonneg r; linarith
  have hn : (dhMatrix d th r al).t.norm ≤ L := by
    have h0 : (dhMatrix d th r al).t.normSq ≤ L * L := by
      have : (dhMatrix d th r al).t.normSq = r * r + d * d := by
        have h := Real.sin_sq_add_cos_sq th
        simp only [dhMatrix, V3.normSq, V3.dot]
        linear_combination r * r * h
      rw [this]
      have e1 := abs_mul_abs_self r
      have e2 := abs_mul_abs_self d
      have p1 := abs_nonneg r
      have p2 := abs_nonneg d
      nlinarith
    exact V3.norm_le_of_normSq hL0 h0
  unfold Double.relative
  generalize D.updated t.params t.type q o = u at *
  have hz := hD.axis_z hth
  have hx := hD.axis_x hal
  have r1 : RowsNear 315 (D.mulM 1 (D.axisMatrix u.theta ⟨0, 0, 1⟩)) (1 * rotZ th) :=
    (hD.mul_rows M3.IsRot.one entries_one (rotZ_rot th) hz ⟨le_rfl, by linarith⟩ ⟨by norm_num, by linarith⟩).mono (by norm_num)
  have r2 : RowsNear 630 (D.mulM (D.mulM 1 (D.axisMatrix u.theta ⟨0, 0, 1⟩)) (D.axisMatrix u.alpha ⟨1, 0, 0⟩)) (1 * rotZ th * rotX al) :=
    (hD.mul_rows (M3.IsRot.one.mul (rotZ_rot th)) r1 (rotX_rot al) hx ⟨by norm_num, by linarith⟩ ⟨by norm_num, by linarith⟩).mono (by norm_num)
  refine ⟨?_, ?_, hn, hL0⟩
  · rw [dhMatrix_eq]; exact r2
  -- the position
  have hR := M3.IsRot.one.mul (rotZ_rot th)
  obtain ⟨n0, n1, n2⟩ := hR.row_norm
  obtain ⟨m0, m1, m2⟩ := M3.IsRot.one.row_norm
  have vd : ((⟨0, 0, u.d⟩ : V3) - ⟨0, 0, d⟩).norm ≤ 3 * (dblUnit * L) := by
    refine (V3.norm_le_abs _).trans ?_
    simp only [V3.sub_x, V3.sub_y, V3.sub_z, sub_self, abs_zero, zero_add]
    have : 0 ≤ dblUnit * L := mul_nonneg hu.le hL0
    linarith
  have vr : ((⟨u.r, 0, 0⟩ : V3) - ⟨r, 0, 0⟩).norm ≤ 3 * (dblUnit * L) := by
    refine (V3.norm_le_abs _).trans ?_
    simp only [V3.sub_x, V3.sub_y, V3.sub_z, sub_self, abs_zero, add_zero]
    have : 0 ≤ dblUnit * L := mul_nonneg hu.le hL0
    linarith
  have pd := abs_nonneg d
  have pr := abs_nonneg r
  have nd : (⟨0, 0, d⟩ : V3).norm ≤ L := (V3.norm_le_abs _).trans (by simp only [abs_zero, zero_add]; linarith)
  have nr : (⟨r, 0, 0⟩ : V3).norm ≤ L := (V3.norm_le_abs _).trans (by simp only [abs_zero, add_zero]; linarith)
  have hUL : 0 ≤ dblUnit * L := mul_nonneg hu.le hL0
  have small : dblUnit * (dblUnit * L) ≤ 1 / 10 ^ 15 * (dblUnit * L) := mul_le_mul_of_nonneg_right hu' hUL
  have coord : ∀ {a a' b b' : V3} {x y : ℝ}, (a' - a).norm ≤ 0 * dblUnit → a.norm = 1 → (b' - b).norm ≤ 315 * dblUnit → b.norm = 1 →
      a.dot ⟨0, 0, d⟩ = x → x + b.dot ⟨r, 0, 0⟩ = y → |y| ≤ L →
      |D.add (D.add 0 (D.dot a' ⟨0, 0, u.d⟩)) (D.dot b' ⟨u.r, 0, 0⟩) - y| ≤ 340 * (dblUnit * L) := by
    intro a a' b b' x y ha ha1 hb hb1 hx hy hyL
    have s1 := hD.scalar_step ha ha1.le vd nd ⟨le_rfl, by norm_num⟩ ⟨by norm_num, by linarith⟩
    have s2 := hD.scalar_step hb hb1.le vr nr ⟨by norm_num, by linarith⟩ ⟨by norm_num, by linarith⟩
    rw [hx] at s1
    have hxL : |0 + x| ≤ L := by
      rw [zero_add, ← hx]
      have := (V3.abs_dot_le a ⟨0, 0, d⟩)
      rw [ha1, one_mul] at this
      linarith
    have t1 := hD.sum_step (a := 0) (a' := 0) (e := 0) (by simp) s1 hxL
    rw [zero_add] at t1
    have t2 := hD.sum_step (W := L) t1 s2 (by rw [hy]; exact hyL)
    rw [hy] at t2
    have small2 : dblUnit * (dblUnit * (dblUnit * L)) ≤ 1 / 10 ^ 15 * (dblUnit * (dblUnit * L)) :=
      mul_le_mul_of_nonneg_right hu' (mul_nonneg hu.le hUL)
    linarith
  have hyL : |(dhMatrix d th r al).t.x| ≤ L ∧ |(dhMatrix d th r al).t.y| ≤ L ∧ |(dhMatrix d th r al).t.z| ≤ L :=
    ⟨(V3.abs_x_le _).trans hn, (V3.abs_y_le _).trans hn, (V3.abs_z_le _).trans hn⟩
  have c0 := coord entries_one.r0 m0 r1.r0 n0 (x := 0) (y := (dhMatrix d th r al).t.x) (by simp [M3.row0, V3.dot])
    (by simp [M3.row0, V3.dot, rotZ, dhMatrix, M3.mul_def]; ring) hyL.1
  have c1 := coord entries_one.r1 m1 r1.r1 n1 (x := 0) (y := (dhMatrix d th r al).t.y) (by simp [M3.row1, V3.dot])
    (by simp [M3.row1, V3.dot, rotZ, dhMatrix, M3.mul_def]; ring) hyL.2.1
  have c2 := coord entries_one.r2 m2 r1.r2 n2 (x := d) (y := (dhMatrix d th r al).t.z) (by simp [M3.row2, V3.dot])
    (by simp [M3.row2, V3.dot, rotZ, dhMatrix, M3.mul_def]) hyL.2.2
  have := V3.norm_le_two (v := (D.rotateBy (D.translateBy (D.rotateBy (D.translateBy 1 ⟨0, 0, u.d⟩) u.theta ⟨0, 0, 1⟩) ⟨u.r, 0, 0⟩) u.alpha ⟨1, 0, 0⟩).t - (dhMatrix d th r al).t) c0 c1 c2
  refine le_trans ?_ (this.trans (by linarith))
  exact le_of_eq rfl

/-- A pose known up to `m` roundings. -/
structure PoseAt (m S : ℝ) (T' T : Iso) : Prop where
  rot : RowsNear (3200 * m) T'.R T.R
  x : |T'.t.x - T.t.x| ≤ 4000 * m * (dblUnit * S)
  y : |T'.t.y - T.t.y| ≤ 4000 * m * (dblUnit * S)
  z : |T'.t.z - T.t.z| ≤ 4000 * m * (dblUnit * S)
  size : T.t.norm ≤ S

theorem WF.chain_step (hD : D.WF) {T T' J J' : Iso} {m S L : ℝ} (hT : T.IsRigid) (hJ : J.IsRigid) (h : PoseAt m S T' T) (hm : 1 ≤ m) (hm' : m ≤ 2 * 10 ^ 6)
    (j1 : RowsNear 630 J'.R J.R) (j2 : (J'.t - J.t).norm ≤ 680 * (dblUnit * L)) (j3 : J.t.norm ≤ L) (hL : 0 ≤ L) :
    PoseAt (m + 1) (S + L) (D.mulIso T' J') (T * J) := by
  have hu := dblUnit_pos
  have hu' := dblUnit_le
  have hS : 0 ≤ S := (V3.norm_nonneg _).trans h.size
  have hmu : m * dblUnit ≤ 2 * 10 ^ 6 * (1 / 10 ^ 15) := mul_le_mul hm' hu' hu.le (by norm_num)
  obtain ⟨n0, n1, n2⟩ := M3.IsRot.row_norm hT
  have hs : (T * J).t.norm ≤ S + L := by
    have e : (T * J).t = T.R.mulVec J.t + T.t := rfl
    rw [e]
    have := V3.norm_add_le (T.R.mulVec J.t) T.t
    rw [M3.IsRot.norm hT] at this
    have := h.size
    linarith
  have coord : ∀ {a a' : V3} {x x' y : ℝ}, (a' - a).norm ≤ 3200 * m * dblUnit → a.norm = 1 → |x' - x| ≤ 4000 * m * (dblUnit * S) →
      a.dot J.t + x = y → |y| ≤ S + L → |D.add (D.dot a' J'.t) x' - y| ≤ 4000 * (m + 1) * (dblUnit * (S + L)) := by
    intro a a' x x' y ha ha1 hx hy hyL
    have s1 := hD.scalar_step ha ha1.le j2 j3 ⟨by linarith, by linarith⟩ ⟨by norm_num, by linarith⟩
    have s2 := hD.sum_step (W := S + L) s1 hx (by rw [hy]; exact hyL)
    rw [hy] at s2
    have f1 : (1001 / 1000 * (3200 * m) + 680 + 5) * (dblUnit * L) ≤ 1 * L := by
      rw [← mul_assoc]
      exact mul_le_mul_of_nonneg_right (by linarith) hL
    have f2 : 4000 * m * (dblUnit * S) ≤ 1 * S := by
      rw [← mul_assoc]
      exact mul_le_mul_of_nonneg_right (by linarith) hS
    have f3 : dblUnit * (S + L + (1001 / 1000 * (3200 * m) + 680 + 5) * (dblUnit * L) + 4000 * m * (dblUnit * S)) ≤ dblUnit * (2 * (S + L)) :=
      mul_le_mul_of_nonneg_left (by linarith) hu.le
    have g1 : 0 ≤ dblUnit * L := mul_nonneg hu.le hL
    have g2 : 0 ≤ dblUnit * S := mul_nonneg hu.le hS
    have g3 : 0 ≤ m * (dblUnit * L) := mul_nonneg (by linarith) g1
    linarith
  refine ⟨?_, ?_, ?_, ?_, hs⟩
  · exact (hD.mul_rows hT h.rot hJ j1.entries ⟨by linarith, by linarith⟩ ⟨by norm_num, by linarith⟩).mono (by linarith)
  · exact coord h.rot.r0 n0 h.x (by simp [M3.row0, V3.dot, Iso.mul_t, M3.mulVec]) ((V3.abs_x_le _).trans hs)
  · exact coord h.rot.r1 n1 h.y (by simp [M3.row1, V3.dot, Iso.mul_t, M3.mulVec]) ((V3.abs_y_le _).trans hs)
  · exact coord h.rot.r2 n2 h.z (by simp [M3.row2, V3.dot, Iso.mul_t, M3.mulVec]) ((V3.abs_z_le _).trans hs)

theorem WF.loop (hD : D.WF) (ts : List DHTransform) (offs : List V4) (q : List ℝ) : ∀ (i : Nat) (T' T : Iso) (m S : ℝ), T.IsRigid → PoseAt m S T' T →
    1 ≤ m → m + q.length ≤ 2 * 10 ^ 6 → i + q.length ≤ ts.length → i + q.length ≤ offs.length →
    FewTurns ((ts.drop i).map fun t => (t.params, t.type)) (offs.drop i) q →
    ∃ R', D.fkLoop ts offs i q T' = .ok R' ∧
      PoseAt (m + q.length) (S + chainReach ((ts.drop i).map fun t => (t.params, t.type)) (offs.drop i) q) R'
        (chainPose T ((ts.drop i).map fun t => (t.params, t.type)) (offs.drop i) q) := by
  induction q with
  | nil =>
    intro i T' T m S hT h _ _ _ _ _
    refine ⟨T', rfl, ?_⟩
    have e1 : chainReach ((ts.drop i).map fun t => (t.params, t.type)) (offs.drop i) [] = 0 := by
      cases (ts.drop i) <;> cases (offs.drop i) <;> rfl
    have e2 : chainPose T ((ts.drop i).map fun t => (t.params, t.type)) (offs.drop i) [] = T := by
      cases (ts.drop i) <;> cases (offs.drop i) <;> rfl
    rw [e1, e2]
    simpa using h
  | cons a q ih =>
    intro i T' T m S hT h hm hm' h1 h2 hF
    simp only [List.length_cons] at h1 h2 hm'
    push_cast at hm'
    have hi1 : i < ts.length := by omega
    have hi2 : i < offs.length := by omega
    rw [List.drop_eq_getElem_cons hi1, List.drop_eq_getElem_cons hi2, List.map_cons] at hF ⊢
    simp only [FewTurns] at hF
    simp only [chainReach, chainPose]
    have hq : (0 : ℝ) ≤ q.length := Nat.cast_nonneg _
    obtain ⟨k1, k2, k3, k4⟩ := hD.link ts[i] a offs[i] hF.1.1 hF.1.2
    have hJ := jointPose_rigid ts[i].params ts[i].type offs[i] a
    have st := hD.chain_step hT hJ h hm (by linarith) k1 k2 k3 k4
    obtain ⟨R', r1, r2⟩ := ih (i + 1) _ _ _ _ (hT.mul hJ) st (by linarith) (by linarith) (by omega) (by omega) hF.2
    refine ⟨R', ?_, ?_⟩
    · simpa only [Double.fkLoop, Res.idxList, Res.atList, List.getElem?_eq_getElem hi1, List.getElem?_eq_getElem hi2, Res.bind] using r1
    · rw [show m + ((a :: q).length : ℝ) = m + 1 + q.length by simp; ring, ← add_assoc S]
      exact r2

theorem dblUnit_bounds : dblUnit ≤ 12 / 10 ^ 17 ∧ 1 / 10 ^ 15 ≤ 10 * dblUnit := by
  unfold dblUnit; norm_num

theorem loop_throws (ts : List DHTransform) (offs : List V4) (q : List ℝ) : ∀ (i : Nat) (T : Iso), i + q.length ≤ ts.length → i + q.length ≤ offs.length →
    ∃ R, D.fkLoop ts offs i q T = .ok R := by
  induction q with
  | nil => intro i T _ _; exact ⟨T, rfl⟩
  | cons a q ih =>
    intro i T h1 h2
    simp only [List.length_cons] at h1 h2
    have hi1 : i < ts.length := by omega
    have hi2 : i < offs.length := by omega
    obtain ⟨R, hR⟩ := ih (i + 1) (D.mulIso T (D.relative ts[i] a offs[i])) (by omega) (by omega)
    exact ⟨R, by simpa only [Double.fkLoop, Res.idxList, Res.atList, List.getElem?_eq_getElem hi1, List.getElem?_eq_getElem hi2, Res.bind] using hR⟩

end Double

open Double

/-! ## C234 Forward kinematics in double arithmetic is the exact one up to rounding -/

/-- The pose at the end of a chain in double arithmetic. `B` is the pose the user meant as base; the stored one has been rounded. -/
theorem C234_forward_kinematics {D : Double} (hD : D.WF) (c : DHChain) (B : Iso) (hB : B.IsRigid) (q : List ℝ) (offs : List V4)
    (hbase : PoseErrorUpTo (1 / 10 ^ 15) (B.t.norm / 10 ^ 15) c.base B) (h1 : q.length ≤ c.transforms.length) (h2 : q.length ≤ offs.length)
    (hn : q.length ≤ 10 ^ 6) (hF : FewTurns (c.transforms.map fun t => (t.params, t.type)) offs q) :
    ∃ T', D.getFK c q offs = .ok T' ∧
      PoseErrorUpTo ((q.length + 1) / 10 ^ 12)
        ((q.length + 1) * (B.t.norm + chainReach (c.transforms.map fun t => (t.params, t.type)) offs q) / 10 ^ 12) T'
        (chainPose B (c.transforms.map fun t => (t.params, t.type)) offs q) := by
  obtain ⟨u1, u2⟩ := dblUnit_bounds
  have hu := dblUnit_pos
  have hN := V3.norm_nonneg B.t
  have start : PoseAt 1 B.t.norm c.base B := by
    have e : ∀ {x : ℝ}, |x| ≤ 1 / 10 ^ 15 → |x| ≤ 10 * dblUnit := fun h => h.trans u2
    have f : ∀ {x : ℝ}, |x| ≤ B.t.norm / 10 ^ 15 → |x| ≤ 4000 * 1 * (dblUnit * B.t.norm) := by
      intro x h
      have := mul_le_mul_of_nonneg_right u2 hN
      have : 0 ≤ dblUnit * B.t.norm := mul_nonneg hu.le hN
      linarith
    have en : EntriesNear 10 c.base.R B.R :=
      ⟨e hbase.m00, e hbase.m01, e hbase.m02, e hbase.m10, e hbase.m11, e hbase.m12, e hbase.m20, e hbase.m21, e hbase.m22⟩
    exact ⟨en.rows.mono (by norm_num), f hbase.x, f hbase.y, f hbase.z, le_rfl⟩
  have hq : (q.length : ℝ) ≤ 10 ^ 6 := by exact_mod_cast hn
  have hq0 : (0 : ℝ) ≤ q.length := Nat.cast_nonneg _
  obtain ⟨T', t1, t2⟩ := hD.loop c.transforms offs q 0 c.base B 1 B.t.norm hB start le_rfl (by linarith) (by omega) (by omega) (by simpa using hF)
  simp only [List.drop_zero] at t2
  refine ⟨T', ?_, ?_⟩
  · unfold Double.getFK DHChain.dof
    rw [if_neg (by omega), if_neg (by omega)]; exact t1
  generalize chainReach (c.transforms.map fun t => (t.params, t.type)) offs q = L at *
  generalize chainPose B (c.transforms.map fun t => (t.params, t.type)) offs q = T at *
  have hS : 0 ≤ B.t.norm + L := (V3.norm_nonneg _).trans t2.size
  have e : ∀ {x : ℝ}, |x| ≤ 3200 * (1 + (q.length : ℝ)) * dblUnit → |x| ≤ ((q.length : ℝ) + 1) / 10 ^ 12 := by
    intro x h
    have := mul_le_mul_of_nonneg_left u1 (show 0 ≤ 3200 * (1 + (q.length : ℝ)) by positivity)
    linarith
  have f : ∀ {x : ℝ}, |x| ≤ 4000 * (1 + (q.length : ℝ)) * (dblUnit * (B.t.norm + L)) → |x| ≤ ((q.length : ℝ) + 1) * (B.t.norm + L) / 10 ^ 12 := by
    intro x h
    have := mul_le_mul_of_nonneg_left (mul_le_mul_of_nonneg_right u1 hS) (show 0 ≤ 4000 * (1 + (q.length : ℝ)) by positivity)
    have : 0 ≤ ((q.length : ℝ) + 1) * (B.t.norm + L) := mul_nonneg (by linarith) hS
    linarith
  have en := t2.rot.entries
  exact ⟨e en.m00, e en.m01, e en.m02, e en.m10, e en.m11, e en.m12, e en.m20, e en.m21, e en.m22, f t2.x, f t2.y, f t2.z⟩

/-- Rounding does not change when an error is thrown. -/
theorem C234_guard (D : Double) (c : DHChain) (q : List ℝ) (offs : List V4) :
    ((D.getFK c q offs).Throws ↔ (c.getFK q offs).Throws) ∧ ((D.getFK c q offs).Returns ↔ (c.getFK q offs).Returns) := by
  rw [(C07_guard c q offs).1, (C07_guard c q offs).2]
  unfold Double.getFK DHChain.dof
  by_cases h1 : q.length > c.transforms.length
  · rw [if_pos h1]; simp; omega
  by_cases h2 : q.length > offs.length
  · rw [if_neg h1, if_pos h2]; simp; omega
  rw [if_neg h1, if_neg h2]
  obtain ⟨R, hR⟩ := loop_throws (D := D) c.transforms offs q 0 c.base (by omega) (by omega)
  rw [hR]; simp; omega

theorem relative_exact (t : DHTransform) (q : ℝ) (o : V4) : Double.exact.relative t q o = t.relative q o := by
  rw [relative_eq]
  unfold Double.relative Double.rotateBy Double.translateBy Double.mulM Double.rowMul Double.mulVec Double.axisMatrix Double.add3
  unfold jointPose
  cases ht : t.type <;> simp only [Double.updated, Double.exact, Double.add, Double.mul, Double.sub, Double.dot, id, dhMatrix] <;>
    ext <;> simp <;> ring

/-- Without rounding the computation is that of `DHChain.getFK`. -/
theorem C234_same (c : DHChain) (q : List ℝ) (offs : List V4) : Double.exact.getFK c q offs = c.getFK q offs := by
  have mul : ∀ a b : Iso, Double.exact.mulIso a b = a * b := by
    intro a b
    unfold Double.mulIso Double.mulM Double.rowMul Double.mulVec Double.add3
    rw [Iso.mul_def]
    simp only [Double.exact, Double.add, Double.mul, Double.dot, id, M3.mul_def, M3.mulVec]
    ext <;> simp
  have loop : ∀ (q : List ℝ) (i : Nat) (T : Iso), Double.exact.fkLoop c.transforms offs i q T = DHChain.fkLoop c.transforms offs i q T := by
    intro q
    induction q with
    | nil => intro i T; rfl
    | cons a q ih =>
      intro i T
      simp only [Double.fkLoop, DHChain.fkLoop, mul, relative_exact, ih]
  unfold Double.getFK DHChain.getFK
  rw [loop]

/-- A two-joint arm on a shifted base meets the conditions. -/
example : ∃ T', Double.exact.getFK ⟨[⟨⟨1, 0, 0.5, 1⟩, .revolute, -3, 3, "a", 0⟩, ⟨⟨0, 0.5, 0, 0⟩, .linear, -3, 3, "b", 0⟩], ⟨1, ⟨0, 3, 4⟩⟩⟩ [1, 2] [0, 0] = .ok T' :=
  let ⟨T', h, _⟩ := C234_forward_kinematics Double.exact_wf ⟨[⟨⟨1, 0, 0.5, 1⟩, .revolute, -3, 3, "a", 0⟩, ⟨⟨0, 0.5, 0, 0⟩, .linear, -3, 3, "b", 0⟩], ⟨1, ⟨0, 3, 4⟩⟩⟩ ⟨1, ⟨0, 3, 4⟩⟩ Iso.IsRigid.one
    [1, 2] [0, 0] (by have := V3.norm_nonneg (⟨0, 3, 4⟩ : V3); constructor <;> simp <;> positivity) (by simp) (by simp) (by simp)
    (by simp [FewTurns, linkTurn]; norm_num)
  ⟨T', h⟩

end RCT
