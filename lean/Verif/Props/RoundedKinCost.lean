import Verif.Lemmas.RoundedKinCost
import Verif.Spec.RoundedKinCost

/-!
# C235 The residuals of kinematic calibration in double arithmetic
-/

namespace RCT

open Spec

namespace Double

variable {D : Double}

theorem WF.quotient_near (hD : D.WF) {x x' z z' δ : ℝ} (hz : 0 < z) (hxz : |x| ≤ z) (hδ : δ ≤ 1 / 100) (hx : |x' - x| ≤ δ * z) (hz' : |z' - z| ≤ δ * z) :
    |D.div x' z' - x / z| ≤ 21 / 10 * δ + 2 * dblUnit ∧ |D.div x' z'| ≤ 11 / 10 ∧ 99 / 100 * z ≤ z' := by
  have hu := dblUnit_pos
  have hu' := dblUnit_le
  have hδ0 : 0 ≤ δ := by
    by_contra hn
    have := mul_neg_of_neg_of_pos (not_le.1 hn) hz
    have := abs_nonneg (x' - x)
    linarith
  have hδz : δ * z ≤ 1 / 100 * z := mul_le_mul_of_nonneg_right hδ hz.le
  have h1 : 99 / 100 * z ≤ z' := by have := (abs_le.1 hz').1; linarith
  have hz0 : 0 < z' := by linarith
  have hr := hD.rnd_err (x' / z')
  have e : x' / z' - x / z = ((x' - x) * z - x * (z' - z)) / (z' * z) := by
    field_simp; ring
  have q : |x' / z' - x / z| ≤ 205 / 100 * δ := by
    rw [e, abs_div, abs_of_pos (by positivity : 0 < z' * z), div_le_iff₀ (by positivity)]
    have a1 := abs_sub ((x' - x) * z) (x * (z' - z))
    rw [abs_mul, abs_mul, abs_of_pos hz] at a1
    have a2 := mul_le_mul_of_nonneg_right hx hz.le
    have a3 : |x| * |z' - z| ≤ z * (δ * z) := mul_le_mul hxz hz' (abs_nonneg _) hz.le
    have a4 : δ * z * (99 / 100 * z) ≤ δ * z * z' := mul_le_mul_of_nonneg_left h1 (by positivity)
    have a5 : 0 ≤ δ * z * z := by positivity
    nlinarith
  have b1 : |x / z| ≤ 1 := by rw [abs_div, abs_of_pos hz, div_le_one hz]; exact hxz
  have b2 : |x' / z'| ≤ 105 / 100 := by
    have := abs_add_le (x / z) (x' / z' - x / z)
    rw [add_sub_cancel] at this
    linarith
  have b3 := mul_le_mul_of_nonneg_left b2 hu.le
  refine ⟨?_, ?_, h1⟩
  · have := abs_sub_le (D.rnd (x' / z')) (x' / z') (x / z)
    unfold Double.div
    linarith
  · have := abs_add_le (x' / z') (D.rnd (x' / z') - x' / z')
    rw [add_sub_cancel] at this
    unfold Double.div
    linarith

theorem WF.pixel_near (hD : D.WF) {F δ : ℝ} {i : Intr} {obs : V2} {c c' : V3} (h : InView F i obs c) (hδ : δ ≤ 1 / 100) (hc : (c' - c).norm ≤ δ * c.z) :
    |D.sub (D.projectPointE i c').x obs.x - ((pinhole i c).x - obs.x)| ≤ F * (22 / 10 * δ + 30 * dblUnit) ∧
    |D.sub (D.projectPointE i c').y obs.y - ((pinhole i c).y - obs.y)| ≤ F * (22 / 10 * δ + 30 * dblUnit) := by
  have hu := dblUnit_pos
  have hu' := dblUnit_le
  have hF : 0 ≤ F := (abs_nonneg _).trans h.fx
  have hz : 0 < c.z := lt_of_lt_of_le (by norm_num) h.front
  have hδ0 : 0 ≤ δ := by
    by_contra hn
    have := mul_neg_of_neg_of_pos (not_le.1 hn) hz
    have := V3.norm_nonneg (c' - c)
    linarith
  obtain ⟨x1, x2, x3⟩ := hD.quotient_near hz h.x hδ ((V3.abs_x_le _).trans hc) ((V3.abs_z_le _).trans hc)
  obtain ⟨y1, y2, -⟩ := hD.quotient_near hz h.y hδ ((V3.abs_y_le _).trans hc) ((V3.abs_z_le _).trans hc)
  have hif : D.sub c'.z 0 > 1 / 10 ^ 10 := by
    have h1 := hD.rnd_err (c'.z - 0)
    rw [sub_zero, abs_of_pos (by linarith : 0 < c'.z)] at h1
    have h2 := (abs_le.1 h1).1
    have e : D.sub c'.z 0 = D.rnd c'.z := by unfold Double.sub; rw [sub_zero]
    rw [e]
    have h3 : 1 / 2 * c'.z ≤ D.rnd c'.z := by nlinarith
    have h4 : (1 / 10 ^ 10 : ℝ) < 1 / 2 * (99 / 100 * (1 / 10 ^ 9)) := by norm_num
    have := h.front
    linarith
  have vb : (⟨D.div c'.x c'.z, D.div c'.y c'.z, 1⟩ : V3).norm ≤ 2 * (11 / 10) := V3.norm_le_two x2 y2 (by norm_num)
  have key : ∀ {a : V3} {o q q' f m : ℝ}, a.norm ≤ 2 * F → a.dot ⟨D.div c'.x c'.z, D.div c'.y c'.z, 1⟩ = f * q' + m → |q' - q| ≤ 21 / 10 * δ + 2 * dblUnit → |q| ≤ 1 →
      |f| ≤ F → |m| ≤ F → |o| ≤ F →
      |D.sub (D.dot a ⟨D.div c'.x c'.z, D.div c'.y c'.z, 1⟩) o - (f * q + m - o)| ≤ F * (22 / 10 * δ + 30 * dblUnit) := by
    intro a o q q' f m ha he hq hq1 hf hm ho
    have d := hD.dot_round a ⟨D.div c'.x c'.z, D.div c'.y c'.z, 1⟩
    rw [he] at d
    have d1 := mul_le_mul_of_nonneg_left (mul_le_mul ha vb (V3.norm_nonneg _) (by positivity)) hu.le
    have d2 : |f * q' + m - (f * q + m)| ≤ F * (21 / 10 * δ + 2 * dblUnit) := by
      rw [show f * q' + m - (f * q + m) = f * (q' - q) by ring, abs_mul]
      exact mul_le_mul hf hq (abs_nonneg _) hF
    generalize D.dot a ⟨D.div c'.x c'.z, D.div c'.y c'.z, 1⟩ = w at *
    have d9 : 0 ≤ F * dblUnit := by positivity
    have d3 : |w - (f * q + m)| ≤ F * (21 / 10 * δ + 20 * dblUnit) := by
      have := abs_sub_le w (f * q' + m) (f * q + m)
      linarith
    have d4 : |f * q + m + -o| ≤ 3 * F := by
      have := abs_add_le (f * q + m) (-o)
      have := abs_add_le (f * q) m
      have := mul_le_mul hf hq1 (abs_nonneg _) hF
      rw [← abs_mul] at this
      rw [abs_neg] at *
      linarith
    have d5 := hD.sum_step (b := -o) (b' := -o) (f := 0) d3 (by simp) d4
    have e1 : D.add w (-o) = D.sub w o := rfl
    rw [e1, ← sub_eq_add_neg] at d5
    have d6 : F * (21 / 10 * δ + 20 * dblUnit) ≤ F * 1 := mul_le_mul_of_nonneg_left (by linarith) hF
    have d7 := mul_le_mul_of_nonneg_left d6 hu.le
    have d8 : 0 ≤ F * δ := by positivity
    linarith
  have bx : |c.x / c.z| ≤ 1 := by rw [abs_div, abs_of_pos hz, div_le_one hz]; exact h.x
  have bY : |c.y / c.z| ≤ 1 := by rw [abs_div, abs_of_pos hz, div_le_one hz]; exact h.y
  unfold Double.projectPointE
  simp only [if_pos hif]
  exact ⟨key (V3.norm_le_two h.fx (by simpa using hF) h.cx) (by simp [V3.dot]) x1 bx h.fx h.cx h.u,
    key (V3.norm_le_two (by simpa using hF) h.fy h.cy) (by simp [V3.dot]) y1 bY h.fy h.cy h.v⟩

/-- Forward kinematics, as a pose near the exact one. -/
theorem WF.chain (hD : D.WF) {c' c : DHChain} {offs : List V4} {q : List ℝ} (h : StoredChain c' c offs q) (ho : q.length ≤ offs.length) :
    ∃ T', D.getFK c' q offs = .ok T' ∧ PoseNear (3200 * (q.length + 1)) (4000 * (q.length + 1)) (chainLength c offs q) T' (endPose c offs q) := by
  obtain ⟨u1, u2⟩ := dblUnit_bounds
  have hu := dblUnit_pos
  have hN := V3.norm_nonneg c.base.t
  have hbase := h.base
  have start : PoseAt 1 c.base.t.norm c'.base c.base := by
    have e : ∀ {x : ℝ}, |x| ≤ 1 / 10 ^ 15 → |x| ≤ 10 * dblUnit := fun h => h.trans u2
    have f : ∀ {x : ℝ}, |x| ≤ c.base.t.norm / 10 ^ 15 → |x| ≤ 4000 * 1 * (dblUnit * c.base.t.norm) := by
      intro x h
      have := mul_le_mul_of_nonneg_right u2 hN
      have : 0 ≤ dblUnit * c.base.t.norm := mul_nonneg hu.le hN
      linarith
    have en : EntriesNear 10 c'.base.R c.base.R :=
      ⟨e hbase.m00, e hbase.m01, e hbase.m02, e hbase.m10, e hbase.m11, e hbase.m12, e hbase.m20, e hbase.m21, e hbase.m22⟩
    exact ⟨en.rows.mono (by norm_num), f hbase.x, f hbase.y, f hbase.z, le_rfl⟩
  have hq : (q.length : ℝ) ≤ 10 ^ 6 := by exact_mod_cast h.number
  have hen := h.enough
  obtain ⟨T', t1, t2⟩ := hD.loop c.transforms offs q 0 c'.base c.base 1 c.base.t.norm ((rigid_iff _).2 h.rigid) start le_rfl (by linarith) (by omega) (by omega)
    (by simpa using h.turns)
  simp only [List.drop_zero] at t2
  refine ⟨T', ?_, ?_⟩
  · unfold Double.getFK DHChain.dof
    rw [h.same, if_neg (by omega), if_neg (by omega)]; exact t1
  · rw [add_comm (q.length : ℝ) 1]
    exact ⟨t2.rot, t2.x, t2.y, t2.z, t2.size⟩

theorem v3_eq {m : Mem} {v : V3} (h : StoresVec m v) : m.v3 = v := by
  obtain ⟨h1, h2, h3⟩ := h; simp [Mem.v3, h1, h2, h3]

theorem StoresPose.near (hD : D.WF) {m m' : Mem} {T : Iso} (h : StoresPose m m' T) : PoseNear 1000 10 T.t.norm (D.kinTransform m.v3 m'.v3) T ∧ T.IsRigid := by
  obtain ⟨h1, a, h2, h3, h4⟩ := h
  rw [v3_eq h1, v3_eq h2]
  exact ⟨hD.transform h3 rfl h4, IsRotVec.rot h3⟩

theorem WF.predict (hD : D.WF) {cc' tc' cc tc : DHChain} {qc qt : List ℝ} {p : Nat → Mem} {k : Calib} (hk : StoresCalib p cc'.dof tc'.dof k)
    (hc : StoredChain cc' cc k.offC qc) (ht : StoredChain tc' tc k.offT qt) {K : ℝ} (hK : K = qc.length + qt.length + 2) :
    ∃ T', D.kinCameraToTarget cc' tc' qc qt p = .ok T' ∧ (k.predicts cc tc qc qt).IsRigid ∧
      PoseNear (101000 * K) (61000 * K) (wayLength k cc tc qc qt) T' (k.predicts cc tc qc qt) ∧ 2 ≤ K ∧ K * dblUnit ≤ 3 / 10 ^ 10 := by
  have hu := dblUnit_pos
  have hu' := dblUnit_le
  have hc1 := hc.enough
  have ht1 := ht.enough
  have lc : k.offC.length = cc'.transforms.length := hk.offC.1
  have lt' : k.offT.length = tc'.transforms.length := hk.offT.1
  rw [hc.same] at lc
  rw [ht.same] at lt'
  obtain ⟨C', ec, nc⟩ := hD.chain hc (by omega)
  obtain ⟨T', et, nt⟩ := hD.chain ht (by omega)
  obtain ⟨cm, cmR⟩ := StoresPose.near hD hk.cm
  obtain ⟨tm, tmR⟩ := StoresPose.near hD hk.tm
  obtain ⟨cb, cbR⟩ := StoresPose.near hD hk.cb
  have hA := endPose_rigid ((rigid_iff _).2 hc.rigid) k.offC qc
  have hB := endPose_rigid ((rigid_iff _).2 ht.rigid) k.offT qt
  have a0 : (0 : ℝ) ≤ qc.length := Nat.cast_nonneg _
  have b0 : (0 : ℝ) ≤ qt.length := Nat.cast_nonneg _
  have a1 : (qc.length : ℝ) ≤ 10 ^ 6 := by exact_mod_cast hc.number
  have b1 : (qt.length : ℝ) ≤ 10 ^ 6 := by exact_mod_cast ht.number
  obtain ⟨a, ha⟩ : ∃ a : ℝ, a = (qc.length : ℝ) + 1 := ⟨_, rfl⟩
  obtain ⟨b, hb⟩ : ∃ b : ℝ, b = (qt.length : ℝ) + 1 := ⟨_, rfl⟩
  rw [← ha] at nc
  rw [← hb] at nt
  have hKab : K = a + b := by rw [hK, ha, hb]; ring
  have au : a * dblUnit ≤ (10 ^ 6 + 1) * (12 / 10 ^ 17) := mul_le_mul (by linarith) dblUnit_bounds.1 hu.le (by norm_num)
  have bu : b * dblUnit ≤ (10 ^ 6 + 1) * (12 / 10 ^ 17) := mul_le_mul (by linarith) dblUnit_bounds.1 hu.le (by norm_num)
  have a1' : 1 ≤ a := by linarith
  have b1' : 1 ≤ b := by linarith
  have n1 := PoseNear.mul hD hA cmR nc cm ⟨by linarith, by linarith⟩ ⟨by linarith, by linarith⟩ ⟨by norm_num, by linarith⟩ ⟨by norm_num, by linarith⟩
  have n2 := PoseNear.inv hD (hA.mul cmR) n1 ⟨by linarith, by linarith⟩ ⟨by linarith, by linarith⟩
  have n3 := PoseNear.mul hD cbR hB cb nt ⟨by norm_num, by linarith⟩ ⟨by norm_num, by linarith⟩ ⟨by linarith, by linarith⟩ ⟨by linarith, by linarith⟩
  have n4 := PoseNear.mul hD (cbR.mul hB) tmR n3 tm ⟨by linarith, by linarith⟩ ⟨by linarith, by linarith⟩ ⟨by norm_num, by linarith⟩ ⟨by norm_num, by linarith⟩
  have n5 := PoseNear.mul hD (hA.mul cmR).inv ((cbR.mul hB).mul tmR) n2 n4 ⟨by linarith, by linarith⟩ ⟨by linarith, by linarith⟩ ⟨by linarith, by linarith⟩ ⟨by linarith, by linarith⟩
  have e : wayLength k cc tc qc qt = chainLength cc k.offC qc + k.cm.t.norm + (k.cb.t.norm + chainLength tc k.offT qt + k.tm.t.norm) := by
    unfold wayLength; ring
  have fin := n5.mono (r' := 101000 * K) (p' := 61000 * K) (by rw [hKab]; linarith) (by rw [hKab]; linarith)
  rw [← e] at fin
  have h2 : 2 ≤ K := by linarith
  have h3 : K * dblUnit ≤ 3 / 10 ^ 10 := by rw [hKab]; linarith
  refine ⟨_, ?_, (hA.mul cmR).inv.mul ((cbR.mul hB).mul tmR), fin, h2, h3⟩
  unfold Double.kinCameraToTarget
  rw [dhRows_eq hk.offC, dhRows_eq hk.offT]
  simp only [ec, et, Res.bind]

end Double

open Double

/-! ## C235 The residuals of kinematic calibration are exact up to rounding -/

/-- Pixels. -/
theorem C235_pixels {D : Double} (hD : D.WF) {cc' tc' cc tc : DHChain} {o : KinObs} {x : Corr2} {p : Nat → Mem} {k : Calib} {intr : Intr} {F n S : ℝ}
    (hk : StoresCalib p cc'.dof tc'.dof k) (hc : StoredChain cc' cc k.offC o.cameraJoints) (ht : StoredChain tc' tc k.offT o.targetJoints)
    (hn : n = o.cameraJoints.length + o.targetJoints.length + 2) (hS : S = wayLength k cc tc o.cameraJoints o.targetJoints + x.inTarget.norm)
    (hv : InView F intr x.inImage ((k.predicts cc tc o.cameraJoints o.targetJoints).apply x.inTarget))
    (hd : n * S ≤ 10 ^ 7 * ((k.predicts cc tc o.cameraJoints o.targetJoints).apply x.inTarget).z) :
    ∃ ex ey, D.kinCost2 cc' tc' intr o x p = .ok [ex, ey] ∧
      |ex - ((pinhole intr ((k.predicts cc tc o.cameraJoints o.targetJoints).apply x.inTarget)).x - x.inImage.x)| ≤
        F * (n * S / ((k.predicts cc tc o.cameraJoints o.targetJoints).apply x.inTarget).z) / 10 ^ 10 ∧
      |ey - ((pinhole intr ((k.predicts cc tc o.cameraJoints o.targetJoints).apply x.inTarget)).y - x.inImage.y)| ≤
        F * (n * S / ((k.predicts cc tc o.cameraJoints o.targetJoints).apply x.inTarget).z) / 10 ^ 10 := by
  obtain ⟨u1, -⟩ := dblUnit_bounds
  have hu := dblUnit_pos
  obtain ⟨T', e, rg, nr, n2, nu⟩ := hD.predict hk hc ht hn
  obtain ⟨q1, q2⟩ := nr.apply hD rg le_rfl ⟨by linarith, by linarith⟩ ⟨by linarith, by linarith⟩
  rw [← hS] at q1 q2
  generalize k.predicts cc tc o.cameraJoints o.targetJoints = T at *
  have hz : 0 < (T.apply x.inTarget).z := lt_of_lt_of_le (by norm_num) hv.front
  have hS0 : 0 ≤ S := (V3.norm_nonneg _).trans q2
  have hzS : (T.apply x.inTarget).z ≤ S := (le_abs_self _).trans ((V3.abs_z_le _).trans q2)
  have hF : 0 ≤ F := (abs_nonneg _).trans hv.fx
  obtain ⟨w, hw⟩ : ∃ w, w = n * S / (T.apply x.inTarget).z := ⟨_, rfl⟩
  have hwz : w * (T.apply x.inTarget).z = n * S := by rw [hw]; field_simp
  have hw7 : w ≤ 10 ^ 7 := by rw [hw, div_le_iff₀ hz]; exact hd
  have hw2 : 2 ≤ w := by
    rw [hw, le_div_iff₀ hz]
    exact mul_le_mul n2 hzS hz.le (by linarith)
  have near : (D.applyTo T' x.inTarget - T.apply x.inTarget).norm ≤ 330000 * dblUnit * w * (T.apply x.inTarget).z := by
    refine q1.trans ?_
    rw [mul_assoc _ w, hwz]
    have : 0 ≤ dblUnit * S := mul_nonneg hu.le hS0
    have h1 : 2 * (101 / 100 * (101000 * n) + 61000 * n + 7) ≤ 330000 * n := by linarith
    have := mul_le_mul_of_nonneg_right h1 this
    linarith
  have w1 : dblUnit * w ≤ 12 / 10 ^ 17 * w := mul_le_mul_of_nonneg_right u1 (by linarith)
  obtain ⟨f1, f2⟩ := hD.pixel_near hv (δ := 330000 * dblUnit * w) (by linarith) near
  have last : F * (22 / 10 * (330000 * dblUnit * w) + 30 * dblUnit) ≤ F * w / 10 ^ 10 := by
    have : 22 / 10 * (330000 * dblUnit * w) + 30 * dblUnit ≤ w / 10 ^ 10 := by linarith
    have := mul_le_mul_of_nonneg_left this hF
    linarith
  rw [← hw]
  refine ⟨_, _, ?_, f1.trans last, f2.trans last⟩
  unfold Double.kinCost2
  rw [e]; rfl

/-- Positions: the difference between measured and predicted pose. C236 covers the residual of the orientation. -/
theorem C235_position {D : Double} (hD : D.WF) {cc' tc' cc tc : DHChain} {m : KinMeas} {X : Iso} {p : Nat → Mem} {k : Calib} {n S : ℝ}
    (hk : StoresCalib p cc'.dof tc'.dof k) (hc : StoredChain cc' cc k.offC m.cameraJoints) (ht : StoredChain tc' tc k.offT m.targetJoints)
    (hX : RigidMotion X) (hm : PoseErrorUpTo (1 / 10 ^ 15) (X.t.norm / 10 ^ 15) m.cameraToTarget X)
    (hn : n = m.cameraJoints.length + m.targetJoints.length + 2) (hS : S = wayLength k cc tc m.cameraJoints m.targetJoints + X.t.norm) :
    ∃ e, D.kinPosition cc' tc' m p = .ok e ∧
      |e.x - (X * (k.predicts cc tc m.cameraJoints m.targetJoints).inv).t.x| ≤ n * S / 10 ^ 10 ∧
      |e.y - (X * (k.predicts cc tc m.cameraJoints m.targetJoints).inv).t.y| ≤ n * S / 10 ^ 10 ∧
      |e.z - (X * (k.predicts cc tc m.cameraJoints m.targetJoints).inv).t.z| ≤ n * S / 10 ^ 10 := by
  obtain ⟨u1, u2⟩ := dblUnit_bounds
  have hu := dblUnit_pos
  obtain ⟨T', e, rg, nr, n2, nu⟩ := hD.predict hk hc ht hn
  have ni := PoseNear.inv hD rg nr ⟨by linarith, by linarith⟩ ⟨by linarith, by linarith⟩
  have hN := V3.norm_nonneg X.t
  have start : PoseNear 20 10 X.t.norm m.cameraToTarget X := by
    have e : ∀ {x : ℝ}, |x| ≤ 1 / 10 ^ 15 → |x| ≤ 10 * dblUnit := fun h => h.trans u2
    have f : ∀ {x : ℝ}, |x| ≤ X.t.norm / 10 ^ 15 → |x| ≤ 10 * (dblUnit * X.t.norm) := by
      intro x h
      have := mul_le_mul_of_nonneg_right u2 hN
      linarith
    have en : EntriesNear 10 m.cameraToTarget.R X.R :=
      ⟨e hm.m00, e hm.m01, e hm.m02, e hm.m10, e hm.m11, e hm.m12, e hm.m20, e hm.m21, e hm.m22⟩
    exact ⟨en.rows.mono (by norm_num), f hm.x, f hm.y, f hm.z, le_rfl⟩
  have nm := PoseNear.mul hD ((rigid_iff _).2 hX) rg.inv start ni ⟨by norm_num, by linarith⟩ ⟨by norm_num, by linarith⟩ ⟨by linarith, by linarith⟩ ⟨by linarith, by linarith⟩
  have eS : X.t.norm + wayLength k cc tc m.cameraJoints m.targetJoints = S := by rw [hS]; ring
  rw [eS] at nm
  have hS0 : 0 ≤ S := (V3.norm_nonneg _).trans nm.size
  have nS : 0 ≤ n * S := mul_nonneg (by linarith) hS0
  have w1 : dblUnit * (n * S) ≤ 12 / 10 ^ 17 * (n * S) := mul_le_mul_of_nonneg_right u1 nS
  have fin : ∀ {x : ℝ}, |x| ≤ (101 / 100 * 20 + 2 * (101 / 50 * (101000 * n) + 2 * (61000 * n) + 5) + 10 + 7) * (dblUnit * S) → |x| ≤ n * S / 10 ^ 10 := by
    intro x h
    have h1 : 101 / 100 * 20 + 2 * (101 / 50 * (101000 * n) + 2 * (61000 * n) + 5) + 10 + 7 ≤ 660000 * n := by linarith
    have := mul_le_mul_of_nonneg_right h1 (mul_nonneg hu.le hS0)
    linarith
  refine ⟨_, ?_, fin nm.x, fin nm.y, fin nm.z⟩
  unfold Double.kinPosition
  rw [e]; rfl

/-! ## Without rounding the computation is that of the calibration -/

theorem Double.exact_mulIso (a b : Iso) : Double.exact.mulIso a b = a * b := by
  unfold Double.mulIso Double.mulM Double.rowMul Double.mulVec Double.add3
  rw [Iso.mul_def]
  simp only [Double.exact, Double.add, Double.mul, Double.dot, id, M3.mul_def, M3.mulVec]
  ext <;> simp

theorem Double.exact_inv (a : Iso) : Double.exact.inv a = a.inv := by
  unfold Double.inv Iso.inv
  simp only [Double.exact, Double.add, Double.mul, Double.dot, id, M3.tr, M3.mulVec]
  ext <;> simp <;> ring

theorem Double.exact_kinTransform (t aa : V3) : Double.exact.kinTransform t aa = RCT.kinTransform t aa := by
  have e : Double.exact.sqrt (Double.exact.dot aa aa) = aa.norm := rfl
  have et : Double.exact.translateBy 1 t = ⟨1, t⟩ := by
    unfold Double.translateBy Double.add3 Double.mulVec
    simp only [Double.exact, Double.add, Double.mul, Double.dot, id]
    ext <;> simp
  unfold Double.kinTransform
  rw [e, et]
  by_cases h : aa.norm > dblEps
  · rw [if_pos h, kinTransform_big h, Double.exact_matrix]
    have := Double.exact_mulIso ⟨1, 0⟩ ⟨AngleAxis.toMat ⟨aa.norm, aa.normalized⟩, 0⟩
    have h1 : Double.exact.mulM 1 (AngleAxis.toMat ⟨aa.norm, aa.normalized⟩) = AngleAxis.toMat ⟨aa.norm, aa.normalized⟩ := by
      have h2 := congrArg Iso.R this
      rw [Iso.mul_def] at h2
      simpa [Double.mulIso, M3.one_mul] using h2
    simp only [h1]
  · rw [if_neg h, kinTransform_small h]

theorem Double.exact_kinCameraToTarget (cc tc : DHChain) (qc qt : List ℝ) (p : Nat → Mem) :
    Double.exact.kinCameraToTarget cc tc qc qt p = RCT.kinCameraToTarget cc tc qc qt p := by
  unfold Double.kinCameraToTarget RCT.kinCameraToTarget
  simp only [C234_same, Double.exact_mulIso, Double.exact_inv, Double.exact_kinTransform]

/-- Both functors. -/
theorem C235_same (cc tc : DHChain) (intr : Intr) (o : KinObs) (x : Corr2) (w : ℝ) (m : KinMeas) (p : Nat → Mem) :
    Double.exact.kinCost2 cc tc intr o x p = RCT.kinCost2 cc tc intr o x p ∧
    (∀ e, Double.exact.kinPosition cc tc m p = .ok e ↔ ∃ a, kinCost6 cc tc w m p = .ok [e.x, e.y, e.z, a]) := by
  have ap : ∀ (T : Iso) (q : V3), Double.exact.applyTo T q = T.apply q := by
    intro T q
    unfold Double.applyTo Double.add3 Double.mulVec
    simp only [Double.exact, Double.add, Double.mul, Double.dot, id]
    ext <;> simp [Iso.apply, M3.mulVec]
  constructor
  · unfold Double.kinCost2 RCT.kinCost2
    simp only [Double.exact_kinCameraToTarget, ap, Double.exact_projectE]
    rfl
  · intro e
    unfold Double.kinPosition kinCost6
    rw [Double.exact_kinCameraToTarget]
    simp only [Double.exact_mulIso, Double.exact_inv]
    cases kinCameraToTarget cc tc m.cameraJoints m.targetJoints p with
    | ok T =>
      simp only [Res.bind, Res.ok.injEq]
      constructor
      · rintro rfl; exact ⟨_, rfl⟩
      · rintro ⟨a, h⟩
        simp only [List.cons.injEq] at h
        ext
        · exact h.1
        · exact h.2.1
        · exact h.2.2.1
    | throw _ => simp [Res.bind]
    | abort => simp [Res.bind]
    | ub => simp [Res.bind]

/-! ## Examples -/

/-- A camera one metre up, turned by a joint about its axis, and a target two metres in front of it. -/
example (D : Double) (hD : D.WF) : ∃ ex ey, D.kinCost2 ⟨[⟨⟨1, 0, 0, 0⟩, .revolute, -3, 3, "a", 0⟩], 1⟩ ⟨[], 1⟩ ⟨500, 500, 320, 240⟩ ⟨[], [1], []⟩
    ⟨⟨330, 250⟩, ⟨0, 0, 0⟩⟩ (fun i => if i = 4 then V3.mem ⟨0, 0, 3⟩ else fun _ => 0) = .ok [ex, ey] ∧ |ex - -10| ≤ 1 / 10 ^ 6 ∧ |ey - -10| ≤ 1 / 10 ^ 6 := by
  obtain ⟨k, hk⟩ : ∃ k : Calib, k = ⟨1, ⟨1, ⟨0, 0, 3⟩⟩, 1, [0], []⟩ := ⟨_, rfl⟩
  obtain ⟨cc, hcc⟩ : ∃ c : DHChain, c = ⟨[⟨⟨1, 0, 0, 0⟩, .revolute, -3, 3, "a", 0⟩], 1⟩ := ⟨_, rfl⟩
  obtain ⟨tc, htc⟩ : ∃ c : DHChain, c = ⟨[], 1⟩ := ⟨_, rfl⟩
  have none : IsRotVec 0 (1 : M3) := by
    refine ⟨⟨0, 0, 1⟩, 0, ⟨by norm_num [V3.normSq, V3.dot], ?_⟩, by ext <;> simp [V3.smul]⟩
    intro p
    ext <;> simp [M3.mulVec, V3.smul, V3.cross, V3.dot]
  have n0 : (0 : V3).norm = 0 := V3.norm_eq_zero.2 rfl
  have n3 : (⟨0, 0, 3⟩ : V3).norm = 3 := by
    simp only [V3.norm, V3.normSq, V3.dot, mul_zero, zero_add]
    rw [show (3 * 3 : ℝ) = 3 ^ 2 by norm_num, Real.sqrt_sq (by norm_num)]
  have hp : (k.predicts cc tc [1] []).apply ⟨0, 0, 0⟩ = ⟨0, 0, 2⟩ := by
    subst hk hcc htc
    simp [Calib.predicts, endPose, chainPose, jointPose, dhMatrix, Iso.inv, Iso.mul_def, M3.mul_def, M3.tr, M3.mulVec, Iso.apply]
    ext <;> norm_num
  have hw : wayLength k cc tc [1] [] = 4 := by
    subst hk hcc htc
    simp [wayLength, chainLength, chainReach, linkLength, n0, n3]; norm_num
  have one : RigidMotion 1 := (rigid_iff _).1 Iso.IsRigid.one
  have refl : PoseErrorUpTo (1 / 10 ^ 15) ((1 : Iso).t.norm / 10 ^ 15) 1 1 := by
    have := V3.norm_nonneg (1 : Iso).t
    constructor <;> simp <;> positivity
  have main := C235_pixels hD (cc' := cc) (tc' := tc) (cc := cc) (tc := tc) (k := k) (F := 500) (n := 3) (S := 4) (intr := ⟨500, 500, 320, 240⟩)
    (o := ⟨[], [1], []⟩) (x := ⟨⟨330, 250⟩, ⟨0, 0, 0⟩⟩) (p := fun i => if i = 4 then V3.mem ⟨0, 0, 3⟩ else fun _ => 0) ?_ ?_ ?_ ?_ ?_ ?_ ?_
  · obtain ⟨ex, ey, e1, e2, e3⟩ := main
    simp only [hp] at e2 e3
    refine ⟨ex, ey, by rw [← hcc, ← htc]; exact e1, ?_, ?_⟩
    · norm_num [pinhole] at e2 ⊢; linarith
    · norm_num [pinhole] at e3 ⊢; linarith
  · subst hk hcc htc
    refine ⟨⟨rfl, ?_⟩, ⟨rfl, by simp⟩, ⟨?_, 0, ?_, none, by rw [n0]; norm_num⟩, ⟨?_, 0, ?_, none, by rw [n0]; norm_num⟩, ⟨?_, 0, ?_, none, by rw [n0]; norm_num⟩⟩
    · intro r v h c
      cases r with
      | zero => simp at h; subst h; fin_cases c <;> simp [entry]
      | succ r => simp at h
    all_goals simp [StoresVec, V3.mem]
  · subst hk hcc
    exact ⟨rfl, one, refl, by simp, by simp, by simp [FewTurns, linkTurn]⟩
  · subst hk htc
    exact ⟨rfl, one, refl, by simp, by simp, by simp [FewTurns]⟩
  · norm_num
  · rw [hw]
    have : (⟨0, 0, 0⟩ : V3).norm = 0 := n0
    simp [this]
  · rw [hp]; constructor <;> norm_num
  · rw [hp]; norm_num

/-- A camera and a target at the same place, measured two metres apart. -/
example (D : Double) (hD : D.WF) : ∃ e, D.kinPosition ⟨[], 1⟩ ⟨[], 1⟩ ⟨⟨1, ⟨0, 0, 2⟩⟩, [], []⟩ (fun _ _ => 0) = .ok e ∧ |e.z - 2| ≤ 1 / 10 ^ 9 := by
  have none : IsRotVec 0 (1 : M3) := by
    refine ⟨⟨0, 0, 1⟩, 0, ⟨by norm_num [V3.normSq, V3.dot], ?_⟩, by ext <;> simp [V3.smul]⟩
    intro p
    ext <;> simp [M3.mulVec, V3.smul, V3.cross, V3.dot]
  have n0 : (0 : V3).norm = 0 := V3.norm_eq_zero.2 rfl
  have n2 : (⟨0, 0, 2⟩ : V3).norm = 2 := by
    simp only [V3.norm, V3.normSq, V3.dot, mul_zero, zero_add]
    rw [show (2 * 2 : ℝ) = 2 ^ 2 by norm_num, Real.sqrt_sq (by norm_num)]
  have one : RigidMotion 1 := (rigid_iff _).1 Iso.IsRigid.one
  have refl : ∀ T : Iso, PoseErrorUpTo (1 / 10 ^ 15) (T.t.norm / 10 ^ 15) T T := by
    intro T
    have := V3.norm_nonneg T.t
    constructor <;> simp <;> positivity
  have st : StoredChain ⟨[], 1⟩ ⟨[], 1⟩ [] [] := ⟨rfl, one, refl 1, by simp, by simp, by simp [FewTurns]⟩
  have sp : StoresPose (fun _ => 0) (fun _ => 0) 1 := ⟨by simp [StoresVec], 0, by simp [StoresVec], none, by rw [n0]; norm_num⟩
  have main := C235_position hD (cc' := ⟨[], 1⟩) (tc' := ⟨[], 1⟩) (cc := ⟨[], 1⟩) (tc := ⟨[], 1⟩) (k := ⟨1, 1, 1, [], []⟩) (n := 2) (S := 2)
    (m := ⟨⟨1, ⟨0, 0, 2⟩⟩, [], []⟩) (X := ⟨1, ⟨0, 0, 2⟩⟩) (p := fun _ _ => 0) ⟨⟨rfl, by simp⟩, ⟨rfl, by simp⟩, sp, sp, sp⟩ st st
    ((rigid_iff _).1 M3.IsRot.one) (refl _) (by simp) (by simp [wayLength, chainLength, chainReach, n0, n2])
  obtain ⟨e, e1, -, -, e4⟩ := main
  refine ⟨e, e1, ?_⟩
  have : (⟨1, ⟨0, 0, 2⟩⟩ * (Calib.predicts ⟨1, 1, 1, [], []⟩ ⟨[], 1⟩ ⟨[], 1⟩ [] []).inv : Iso).t.z = 2 := by
    simp [Calib.predicts, endPose, chainPose, Iso.inv, Iso.mul_def, M3.mul_def, M3.tr, M3.mulVec]
  simp only [this] at e4
  norm_num at e4 ⊢
  linarith

end RCT
