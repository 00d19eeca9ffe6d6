import Verif.Spec.NotANumberKin
import Verif.Props.NotANumber

/-!
# C233 A value that is not a number in kinematic calibration, circle fitting and priors
-/

namespace RCT

open Spec NaN

abbrev Spec.Num3 (v : N3) : Prop := Numbers (vals3 v)
abbrev Spec.NumM (m : NM3) : Prop := Num3 m.r0 ∧ Num3 m.r1 ∧ Num3 m.r2

theorem num3_iff (v : N3) : Numbers (vals3 v) ↔ v.x ≠ none ∧ v.y ≠ none ∧ v.z ≠ none := by
  simp [vals3, numbers_cons, numbers_nil]

theorem numM_iff (m : NM3) : Numbers (valsM m) ↔ NumM m := by
  simp only [valsM, numbers_append, NumM, Num3, and_assoc]

theorem numI_iff (T : NIso) : Numbers (valsI T) ↔ NumM T.R ∧ Num3 T.t := by
  simp only [valsI, numbers_append, numM_iff]

theorem numD_iff (p : N4) : Numbers (valsD p) ↔ p.d ≠ none ∧ p.theta ≠ none ∧ p.r ≠ none ∧ p.alpha ≠ none := by
  simp [valsD, numbers_cons, numbers_nil]

theorem numbers_flatMap {α : Type} {l : List α} {f : α → List Num} : Numbers (l.flatMap f) ↔ ∀ a ∈ l, Numbers (f a) := by
  simp [Numbers, List.mem_flatMap]

theorem NaN.neg_none (a : Num) : NaN.neg a ≠ none ↔ a ≠ none := by cases a <;> simp [NaN.neg]

theorem NaN.dot_num (D : Double) (a b : N3) : NaN.dot D a b ≠ none ↔ Num3 a ∧ Num3 b := by
  rw [NaN.dot_none, Num3, Num3, num3_iff, num3_iff]

theorem NaN.transpose_num (m : NM3) : NumM m.transpose ↔ NumM m := by
  simp only [NumM, Num3, NM3.transpose, num3_iff]
  tauto

theorem NaN.rowMul_num (D : Double) (a : N3) (m : NM3) : Num3 (NaN.rowMul D a m) ↔ Num3 a ∧ NumM m := by
  rw [← NaN.transpose_num, Num3, num3_iff]
  simp only [NaN.rowMul, NaN.dot_num, NumM]
  tauto

theorem NaN.mulM_num (D : Double) (a b : NM3) : NumM (a.mul D b) ↔ NumM a ∧ NumM b := by
  simp only [NumM, NM3.mul, NaN.rowMul_num]
  tauto

/-- A column of a product. -/
theorem NaN.column_num (D : Double) (m : NM3) (c : N3) (h : Num3 c) : Num3 ⟨NaN.dot D m.r0 c, NaN.dot D m.r1 c, NaN.dot D m.r2 c⟩ ↔ NumM m := by
  rw [Num3, num3_iff]
  simp only [NaN.dot_num, NumM, iff_true_intro h, and_true]

theorem NaN.mulVec_num (D : Double) (m : NM3) (v : N3) : Num3 (m.mulVec D v) ↔ NumM m ∧ Num3 v := by
  rw [Num3, num3_iff]
  simp only [NM3.mulVec, NaN.dot_num, NumM]
  tauto

theorem NaN.negM_num (m : NM3) : NumM m.neg ↔ NumM m := by
  simp only [NumM, Num3, NM3.neg, num3_iff, NaN.neg_none]

theorem NaN.add3_num (D : Double) (a b : N3) : Num3 (NaN.add3 D a b) ↔ Num3 a ∧ Num3 b := by
  simp only [Num3, num3_iff, NaN.add3, NaN.add_none]
  tauto

theorem NaN.mulI_num (D : Double) (a b : NIso) : Numbers (valsI (a.mul D b)) ↔ Numbers (valsI a) ∧ Numbers (valsI b) := by
  simp only [numI_iff, NIso.mul, NaN.mulM_num, NaN.add3_num, NaN.mulVec_num]
  tauto

theorem NaN.invI_num (D : Double) (a : NIso) : Numbers (valsI (a.inv D)) ↔ Numbers (valsI a) := by
  simp only [numI_iff, NIso.inv, NaN.transpose_num, NaN.mulVec_num, NaN.negM_num]
  tauto

theorem NaN.oneM_num : NumM NM3.one := by
  simp [NumM, Num3, num3_iff, NM3.one]

theorem NaN.one_num : NumM NIso.one.R ∧ Num3 NIso.one.t := by
  simp [NumM, Num3, num3_iff, NIso.one, NM3.one]

theorem NaN.axis_num (D : Double) (a : Num) (u : N3) : NumM (NaN.axisMatrix D a u) ↔ a ≠ none ∧ Num3 u := by
  simp only [NumM, Num3, num3_iff, NaN.axisMatrix, NaN.add_none, NaN.sub_none, NaN.mul_none, NaN.cos_none, NaN.sin_none, NaN.some_none]
  tauto

theorem NaN.relative_num (D : Double) (p : N4) (ty : JointType) (q : Num) (o : N4) :
    Numbers (valsI (NaN.relative D p ty q o)) ↔ Numbers (valsD p) ∧ q ≠ none ∧ Numbers (valsD o) := by
  have hu : Numbers (valsD (NaN.updated D p ty q o)) ↔ Numbers (valsD p) ∧ q ≠ none ∧ Numbers (valsD o) := by
    cases ty <;> simp only [numD_iff, NaN.updated, NaN.add_none] <;> tauto
  rw [← hu]
  have h1 := NaN.one_num
  unfold NaN.relative
  generalize NaN.updated D p ty q o = u
  simp only [numI_iff, numD_iff, NIso.rotateBy, NIso.translateBy, NaN.mulM_num, NaN.axis_num, NaN.add3_num, NaN.mulVec_num]
  simp only [Num3, num3_iff, NaN.some_none] at h1 ⊢
  tauto

theorem NaN.fk_num (D : Double) (ts : List (N4 × JointType)) (os : List N4) (qs : List Num) (T : NIso)
    (h1 : qs.length ≤ ts.length) (h2 : qs.length ≤ os.length) :
    Numbers (valsI (NaN.fk D ts os qs T)) ↔ Numbers (valsI T) ∧ Numbers qs ∧ (∀ t ∈ ts.take qs.length, Numbers (valsD t.1)) ∧
      ∀ o ∈ os.take qs.length, Numbers (valsD o) := by
  induction qs generalizing ts os T with
  | nil => simp [NaN.fk, numbers_nil]
  | cons q qs ih =>
    obtain ⟨t, ts, rfl⟩ := List.exists_cons_of_length_pos (l := ts) (by simp at h1; omega)
    obtain ⟨o, os, rfl⟩ := List.exists_cons_of_length_pos (l := os) (by simp at h2; omega)
    rw [NaN.fk, ih _ _ _ (by simpa using h1) (by simpa using h2), NaN.mulI_num, NaN.relative_num, numbers_cons]
    simp only [List.length_cons, List.take_succ_cons, List.forall_mem_cons]
    tauto

theorem NaN.getFK_num (D : Double) (c : NChain) (h : LongEnough c) : Numbers (valsI (c.getFK D)) ↔ Numbers (valsC c) := by
  rw [NChain.getFK, NaN.fk_num D _ _ _ _ h.1 h.2]
  simp only [valsC, numbers_append, numbers_flatMap]
  tauto

/-- The rotation of an estimated mount is always made of numbers. -/
theorem NaN.kinTransform_num {D : Double} (hD : D.WF) (t aa : N3) :
    NumM (NaN.kinTransform D t aa).R ∧ (Num3 (NaN.kinTransform D t aa).t ↔ Num3 t) := by
  have heps : (0 : ℝ) ≤ dblEps := by unfold dblEps; norm_num
  have h1 := NaN.one_num
  unfold NaN.kinTransform
  by_cases h : NaN.Gt (NaN.sqrt D (NaN.dot D aa aa)) dblEps
  · have hn : NaN.sqrt D (NaN.dot D aa aa) ≠ none := h.number
    have haa := hn
    rw [NaN.sqrt_none, NaN.dot_num] at haa
    simp only [if_pos h, NIso.rotateBy, NIso.translateBy, NaN.mulM_num, NaN.axis_num, NaN.add3_num, NaN.mulVec_num]
    refine ⟨⟨h1.1, hn, ?_⟩, by tauto⟩
    split
    · rename_i hz
      have h2 := NaN.sqrt_ne hD le_rfl hz
      have := (num3_iff aa).1 haa.1
      rw [Num3, num3_iff]
      simp only [NaN.div_none]
      tauto
    · exact haa.1
  · simp only [if_neg h, NIso.translateBy, NaN.add3_num, NaN.mulVec_num]
    tauto

/-- An orientation with NaN counts as no rotation. -/
theorem NaN.kinTransform_cleared {D : Double} (hD : D.WF) (t aa : N3) : NaN.kinTransform D t aa = NaN.kinTransform D t (cleared aa) := by
  unfold cleared
  split
  · rfl
  · rename_i h
    have h0 : ¬ NaN.Gt (NaN.sqrt D (NaN.dot D aa aa)) dblEps := fun hg => by
      have := hg.number
      rw [NaN.sqrt_none, NaN.dot_num] at this
      exact h this.1
    have hz : D.sqrt (D.dot 0 0) ≤ dblEps := by
      have hr : D.rnd 0 = 0 := by simpa using hD.rnd_err 0
      have hd : D.dot 0 0 = 0 := by
        show D.rnd (D.rnd (D.rnd (0 * 0) + D.rnd (0 * 0)) + D.rnd (0 * 0)) = 0
        simp [hr]
      have hs := hD.sqrt_err 0 le_rfl
      rw [hd]
      simp only [Real.sqrt_zero, mul_zero, sub_zero, abs_nonpos_iff] at hs
      rw [hs]
      unfold dblEps; positivity
    have h0' : ¬ NaN.Gt (NaN.sqrt D (NaN.dot D ⟨some 0, some 0, some 0⟩ ⟨some 0, some 0, some 0⟩)) dblEps := by
      rintro ⟨x, hx, hx'⟩
      have e : D.sqrt (D.dot 0 0) = x := Option.some.inj hx
      linarith
    unfold NaN.kinTransform
    rw [if_neg h0, if_neg h0']

/-- The pose of the target in the camera frame: a row needs all positions and all values of the chains. -/
theorem NaN.kin_num {D : Double} (hD : D.WF) (cc tc : NChain) (m : NMounts) (h1 : LongEnough cc) (h2 : LongEnough tc) :
    let T := NaN.kinCameraToTarget D cc tc m
    let P := Numbers (valsC cc ++ valsC tc ++ valsPos m)
    (Num3 T.R.r0 ∧ T.t.x ≠ none ↔ P) ∧ (Num3 T.R.r1 ∧ T.t.y ≠ none ↔ P) ∧ (Num3 T.R.r2 ∧ T.t.z ≠ none ↔ P) := by
  have f1 := NaN.getFK_num D cc h1
  have f2 := NaN.getFK_num D tc h2
  obtain ⟨c1, c2⟩ := NaN.kinTransform_num hD m.cm m.cmAA
  obtain ⟨t1, t2⟩ := NaN.kinTransform_num hD m.tm m.tmAA
  obtain ⟨b1, b2⟩ := NaN.kinTransform_num hD m.cb m.cbAA
  unfold NaN.kinCameraToTarget
  simp only [numbers_append, valsPos, ← f1, ← f2]
  generalize cc.getFK D = X at *
  generalize tc.getFK D = Y at *
  generalize NaN.kinTransform D m.cm m.cmAA = C at *
  generalize NaN.kinTransform D m.tm m.tmAA = G at *
  generalize NaN.kinTransform D m.cb m.cbAA = B at *
  have hc : NumM C.R.transpose := (NaN.transpose_num _).2 c1
  have key : (NumM ((B.mul D Y).mul D G).R ∧ Num3 ((B.mul D Y).mul D G).t) ↔ NumM Y.R ∧ Num3 Y.t ∧ Num3 m.tm ∧ Num3 m.cb := by
    rw [← numI_iff, NaN.mulI_num, NaN.mulI_num]
    simp only [numI_iff]
    grind only
  generalize (B.mul D Y).mul D G = W at *
  have hA : Num3 (X.mul D C).t ↔ NumM X.R ∧ Num3 X.t ∧ Num3 m.cm := by
    simp only [NIso.mul, NaN.add3_num, NaN.mulVec_num]
    grind only
  have e0 : Num3 (X.mul D C).R.transpose.r0 ↔ NumM X.R :=
    NaN.column_num D X.R _ hc.1
  have e1 : Num3 (X.mul D C).R.transpose.r1 ↔ NumM X.R :=
    NaN.column_num D X.R _ hc.2.1
  have e2 : Num3 (X.mul D C).R.transpose.r2 ↔ NumM X.R :=
    NaN.column_num D X.R _ hc.2.2
  generalize X.mul D C = A at *
  have n0 : Num3 A.R.transpose.neg.r0 ↔ Num3 A.R.transpose.r0 := by simp only [Num3, num3_iff, NM3.neg, NaN.neg_none]
  have n1 : Num3 A.R.transpose.neg.r1 ↔ Num3 A.R.transpose.r1 := by simp only [Num3, num3_iff, NM3.neg, NaN.neg_none]
  have n2 : Num3 A.R.transpose.neg.r2 ↔ Num3 A.R.transpose.r2 := by simp only [Num3, num3_iff, NM3.neg, NaN.neg_none]
  simp only [NIso.mul, NM3.mul, NIso.inv, NaN.add3, NM3.mulVec, NaN.add_none, NaN.dot_num, NaN.rowMul_num, n0, n1, n2, e0, e1, e2, hA, numI_iff]
  clear e0 e1 e2 n0 n1 n2 hA f1 f2 c1 c2 t1 t2 b1 b2 hc
  simp only [Num3] at *
  grind only

theorem NaN.kin_apply {D : Double} (hD : D.WF) (cc tc : NChain) (m : NMounts) (pt : N3) (h1 : LongEnough cc) (h2 : LongEnough tc) :
    let c := (NaN.kinCameraToTarget D cc tc m).apply D pt
    let P := Numbers (valsC cc ++ valsC tc ++ valsPos m) ∧ Num3 pt
    (c.x ≠ none ↔ P) ∧ (c.y ≠ none ↔ P) ∧ (c.z ≠ none ↔ P) := by
  obtain ⟨k0, k1, k2⟩ := NaN.kin_num hD cc tc m h1 h2
  simp only [NIso.apply, NaN.add3, NM3.mulVec, NaN.add_none, NaN.dot_num]
  rw [← k0]
  refine ⟨by grind only, ?_, ?_⟩
  · rw [k0, ← k1]; grind only
  · rw [k0, ← k2]; grind only

/-- Kinematic calibration from pixels.

Full statement: the residuals are numbers if and only if all values are.
Missing from the full claim: the estimated orientations of the mounts, which may be NaN without a trace (`C233_negation`). -/
theorem C233_kinematic_partial (D : Double) (hD : D.WF) (cc tc : NChain) (h1 : LongEnough cc) (h2 : LongEnough tc) (intr : NIntr) (pt : N3)
    (obs : N2) (m : NMounts) :
    Numbers (NaN.kinCost2 D cc tc intr pt obs m) ↔ Numbers (valsC cc ++ valsC tc ++ vals4 intr ++ vals3 pt ++ vals2 obs ++ valsPos m) := by
  obtain ⟨k0, k1, k2⟩ := NaN.kin_apply hD cc tc m pt h1 h2
  have h : Numbers (NaN.kinCost2 D cc tc intr pt obs m) ↔
      (Numbers (valsC cc ++ valsC tc ++ valsPos m) ∧ Num3 pt) ∧ Numbers (vals2 obs) ∧ Numbers (vals4 intr) := by
    unfold NaN.kinCost2 NaN.projectPointE
    generalize (NaN.kinCameraToTarget D cc tc m).apply D pt = c at *
    generalize (Numbers (valsC cc ++ valsC tc ++ valsPos m) ∧ Num3 pt) = P at *
    by_cases h : NaN.Gt (NaN.sub D c.z (some 0)) (1 / 10 ^ 10)
    · have hz := NaN.depth_ne hD h
      simp only [if_pos h, numbers_cons, numbers_nil, NaN.sub_none, NaN.dot_none, NaN.div_none, NaN.some_none, vals2, vals4]
      grind only
    · simp only [if_neg h, numbers_cons, numbers_nil, NaN.sub_none, NaN.dot_none, NaN.some_none, vals2, vals4]
      grind only
  rw [h]
  simp only [numbers_append]
  grind only

/-- Kinematic calibration from measured poses, whatever the angular distance is.

Full statement: the residuals are numbers if and only if all values are.
Missing from the full claim: the estimated orientations of the mounts (`C233_negation`), and the weight of the orientation where the
angular distance is NaN. -/
theorem C233_kinematic_poses_partial (D : Double) (hD : D.WF) (dist : NM3 → NM3 → Num) (cc tc : NChain) (h1 : LongEnough cc) (h2 : LongEnough tc)
    (measured : NIso) (weight : Num) (m : NMounts) :
    Numbers (NaN.kinCost6 D dist cc tc measured weight m) ↔ Numbers (valsC cc ++ valsC tc ++ valsI measured ++ valsPos m) ∧
      (weight ≠ none ∨ dist measured.R (NaN.kinCameraToTarget D cc tc m).R = none) := by
  obtain ⟨k0, k1, k2⟩ := NaN.kin_num hD cc tc m h1 h2
  unfold NaN.kinCost6
  generalize NaN.kinCameraToTarget D cc tc m = T at *
  have hT : Numbers (valsI T) ↔ Numbers (valsC cc ++ valsC tc ++ valsPos m) := by
    rw [numI_iff, Num3, num3_iff]
    simp only [NumM]
    grind only
  have ht : Num3 (measured.mul D (T.inv D)).t ↔ Numbers (valsI measured) ∧ Numbers (valsI T) := by
    simp only [NIso.mul, NIso.inv, NaN.add3_num, NaN.mulVec_num, NaN.negM_num, NaN.transpose_num, numI_iff]
    grind only
  have hr : (if dist measured.R T.R = none then some 0 else NaN.mul D weight (dist measured.R T.R)) ≠ none ↔
      weight ≠ none ∨ dist measured.R T.R = none := by
    split
    · rename_i h; simp [h]
    · rename_i h; rw [NaN.mul_none]; simp [h]
  rw [Num3, num3_iff] at ht
  simp only [numbers_cons, numbers_nil, hr]
  have : Numbers (valsC cc ++ valsC tc ++ valsI measured ++ valsPos m) ↔ Numbers (valsI measured) ∧ Numbers (valsI T) := by
    rw [hT]
    simp only [numbers_append]
    grind only
  rw [this]
  grind only

/-- The orientations of the mounts with zeros where they are not made of numbers. -/
noncomputable def Spec.clearedMounts (m : NMounts) : NMounts := ⟨m.cm, cleared m.cmAA, m.tm, cleared m.tmAA, m.cb, cleared m.cbAA⟩

/-- An estimated orientation with NaN counts as no rotation: the residuals are those of the orientation zero. -/
theorem C233_ignored (D : Double) (hD : D.WF) (dist : NM3 → NM3 → Num) (cc tc : NChain) (intr : NIntr) (pt : N3) (obs : N2) (measured : NIso)
    (weight : Num) (m : NMounts) :
    NaN.kinCost2 D cc tc intr pt obs m = NaN.kinCost2 D cc tc intr pt obs (clearedMounts m) ∧
    NaN.kinCost6 D dist cc tc measured weight m = NaN.kinCost6 D dist cc tc measured weight (clearedMounts m) := by
  have h : NaN.kinCameraToTarget D cc tc m = NaN.kinCameraToTarget D cc tc (clearedMounts m) := by
    unfold NaN.kinCameraToTarget
    rw [NaN.kinTransform_cleared hD m.cm, NaN.kinTransform_cleared hD m.tm, NaN.kinTransform_cleared hD m.cb]
    rfl
  unfold NaN.kinCost2 NaN.kinCost6
  rw [h]
  exact ⟨rfl, rfl⟩

/-- With all three orientations NaN, the residuals are numbers whenever the other values are. -/
theorem C233_negation (D : Double) (hD : D.WF) (dist : NM3 → NM3 → Num) (cc tc : NChain) (h1 : LongEnough cc) (h2 : LongEnough tc)
    (hc : Numbers (valsC cc)) (ht : Numbers (valsC tc)) (intr : Intr) (pt : V3) (obs : V2) (measured : Iso) (weight : ℝ) (p q r : V3) :
    let m : NMounts := ⟨num3 p, ⟨none, none, none⟩, num3 q, ⟨none, none, none⟩, num3 r, ⟨none, none, none⟩⟩
    Numbers (NaN.kinCost2 D cc tc (num4 intr) (num3 pt) (num2 obs) m) ∧ Numbers (NaN.kinCost6 D dist cc tc (numI measured) (some weight) m) := by
  refine ⟨?_, ?_⟩
  · rw [C233_kinematic_partial D hD cc tc h1 h2]
    simp only [numbers_append, hc, ht]
    simp [Numbers, num4, num3, num2, vals4, vals3, vals2, valsPos]
  · rw [C233_kinematic_poses_partial D hD dist cc tc h1 h2]
    simp only [numbers_append, hc, ht]
    simp [Numbers, numI, numM, num3, vals3, valsPos, valsI, valsM]

/-- Circle fitting. -/
theorem C233_circle (D : Double) (obs : N2) (x y r : Num) : Numbers (NaN.circleCost D obs x y r) ↔ Numbers (vals2 obs ++ [x, y, r]) := by
  unfold NaN.circleCost
  simp only [numbers_append, numbers_cons, numbers_nil, NaN.sub_none, NaN.mul_none, vals2]
  grind only

/-- Priors with a standard deviation that is not zero. -/
theorem C233_prior (D : Double) (param mean stdev : Num) (h : stdev ≠ some 0) : NaN.priorCost D param mean stdev ≠ none ↔ Numbers [param, mean, stdev] := by
  unfold NaN.priorCost
  simp only [numbers_cons, numbers_nil, NaN.sub_none, NaN.div_none]
  grind only

/-! ## Numbers -/

theorem NaN.exact_mul (a b : Iso) : (numI a).mul Double.exact (numI b) = numI (a * b) := rfl

theorem NaN.exact_apply (a : Iso) (v : V3) : (numI a).apply Double.exact (num3 v) = num3 (a.apply v) := rfl

theorem NaN.num3_ext {a b : V3} (hx : a.x = b.x) (hy : a.y = b.y) (hz : a.z = b.z) : num3 a = num3 b := by
  unfold num3; rw [hx, hy, hz]

theorem NaN.exact_inv (a : Iso) : (numI a).inv Double.exact = numI a.inv := by
  have : (numI a).inv Double.exact = ⟨numM a.R.tr, num3 ⟨-a.R.m00 * a.t.x + -a.R.m10 * a.t.y + -a.R.m20 * a.t.z,
      -a.R.m01 * a.t.x + -a.R.m11 * a.t.y + -a.R.m21 * a.t.z, -a.R.m02 * a.t.x + -a.R.m12 * a.t.y + -a.R.m22 * a.t.z⟩⟩ := rfl
  rw [this]
  unfold numI
  congr 1
  apply NaN.num3_ext <;> simp [Iso.inv, M3.mulVec, M3.tr] <;> ring

theorem NaN.exact_translate (a : Iso) (v : V3) : (numI a).translateBy Double.exact (num3 v) = numI (a.translateBy v) := by
  have : (numI a).translateBy Double.exact (num3 v) = numI ⟨a.R, a.t + a.R.mulVec v⟩ := rfl
  rw [this]
  congr 1
  unfold Iso.translateBy
  rw [Iso.mul_def, M3.mul_def]
  apply Iso.ext
  · apply M3.ext <;> simp
  · apply V3.ext <;> simp <;> ring

theorem NaN.exact_axis (a : AngleAxis) : NaN.axisMatrix Double.exact (some a.angle) (num3 a.axis) = numM a.toMat := rfl

theorem NaN.exact_rotate (T : Iso) (a : AngleAxis) : (numI T).rotateBy Double.exact (some a.angle) (num3 a.axis) = numI (T.rotateBy a) := by
  have : (numI T).rotateBy Double.exact (some a.angle) (num3 a.axis) = numI ⟨T.R * a.toMat, T.t⟩ := rfl
  rw [this]
  congr 1
  unfold Iso.rotateBy
  rw [Iso.mul_def]
  apply Iso.ext
  · rfl
  · apply V3.ext <;> simp [M3.mulVec]

theorem NaN.exact_relative (t : DHTransform) (q : ℝ) (o : V4) :
    NaN.relative Double.exact (numD t.params) t.type (some q) (numD o) = numI (t.relative q o) := by
  have h1 : (NIso.one : NIso) = numI 1 := rfl
  obtain ⟨u, hu, hu'⟩ : ∃ u : V4, NaN.updated Double.exact (numD t.params) t.type (some q) (numD o) = numD u ∧
      t.relative q o = ((((1 : Iso).translateBy ⟨0, 0, u.d⟩).rotateBy ⟨u.theta, ⟨0, 0, 1⟩⟩).translateBy ⟨u.r, 0, 0⟩).rotateBy ⟨u.alpha, ⟨1, 0, 0⟩⟩ := by
    cases h : t.type
    · exact ⟨_, rfl, by rw [DHTransform.relative, h]⟩
    · exact ⟨_, rfl, by rw [DHTransform.relative, h]⟩
  rw [hu', ← NaN.exact_rotate, ← NaN.exact_translate, ← NaN.exact_rotate, ← NaN.exact_translate, ← h1]
  unfold NaN.relative
  rw [hu]
  rfl

theorem NaN.exact_kinTransform (t aa : V3) : NaN.kinTransform Double.exact (num3 t) (num3 aa) = numI (RCT.kinTransform t aa) := by
  have h1 : (NIso.one : NIso) = numI 1 := rfl
  have h0 : NaN.dot Double.exact (num3 aa) (num3 aa) = some aa.normSq := rfl
  have hs : NaN.sqrt Double.exact (NaN.dot Double.exact (num3 aa) (num3 aa)) = some aa.norm := rfl
  unfold NaN.kinTransform RCT.kinTransform
  by_cases h : aa.norm > dblEps
  · have hz : aa.normSq > 0 := by
      have : 0 < aa.norm := lt_trans (by unfold dblEps; positivity) h
      exact Real.sqrt_pos.1 this
    have hn : aa.norm ≠ 0 := (Real.sqrt_pos.2 hz).ne'
    have hG : NaN.Gt (NaN.sqrt Double.exact (NaN.dot Double.exact (num3 aa) (num3 aa))) dblEps := by rw [hs]; exact (NaN.gt_some _ _).2 h
    have hZ : NaN.Gt (NaN.dot Double.exact (num3 aa) (num3 aa)) 0 := by rw [h0]; exact (NaN.gt_some _ _).2 hz
    simp only [if_pos hG, if_pos hZ, if_pos h, hs]
    rw [← NaN.exact_rotate, ← NaN.exact_translate, ← h1]
    congr 1
    simp only [V3.normalized, if_pos hz]
    simp only [num3, NaN.div_some _ _ hn]
    show N3.mk (some (aa.x / aa.norm)) (some (aa.y / aa.norm)) (some (aa.z / aa.norm)) = N3.mk (some (1 / aa.norm * aa.x)) (some (1 / aa.norm * aa.y)) (some (1 / aa.norm * aa.z))
    congr 2 <;> ring
  · have hG : ¬ NaN.Gt (NaN.sqrt Double.exact (NaN.dot Double.exact (num3 aa) (num3 aa))) dblEps := by
      rw [hs]; exact fun h' => h ((NaN.gt_some _ _).1 h')
    simp only [if_neg hG, if_neg h]
    rw [h1, NaN.exact_translate]

/-- A chain made of numbers. -/
def Spec.numC (c : DHChain) (q : List ℝ) (offs : List V4) : NChain :=
  ⟨numI c.base, c.transforms.map fun t => (numD t.params, t.type), offs.map numD, q.map some⟩

theorem NaN.exact_fk (ts : List DHTransform) (offs : List V4) (q : List ℝ) (i : Nat) (T T' : Iso)
    (h : DHChain.fkLoop ts offs i q T = .ok T') :
    NaN.fk Double.exact ((ts.drop i).map fun t => (numD t.params, t.type)) ((offs.drop i).map numD) (q.map some) (numI T) = numI T' := by
  induction q generalizing i T with
  | nil =>
    simp only [DHChain.fkLoop, Res.ok.injEq] at h
    subst h
    simp [NaN.fk]
  | cons q qs ih =>
    simp only [DHChain.fkLoop, Res.idxList, Res.atList] at h
    cases ho : offs[i]? with
    | none => rw [ho] at h; simp [Res.bind] at h
    | some o =>
      cases ht : ts[i]? with
      | none => rw [ho, ht] at h; simp [Res.bind] at h
      | some t =>
        rw [ho, ht] at h
        simp only [Res.bind] at h
        obtain ⟨ho1, ho2⟩ := List.getElem?_eq_some_iff.1 ho
        obtain ⟨ht1, ht2⟩ := List.getElem?_eq_some_iff.1 ht
        rw [List.drop_eq_getElem_cons ho1, List.drop_eq_getElem_cons ht1, ho2, ht2]
        simp only [List.map_cons, NaN.fk]
        rw [NaN.exact_relative, NaN.exact_mul]
        exact ih (i + 1) _ h

theorem NaN.exact_getFK (c : DHChain) (q : List ℝ) (offs : List V4) (T : Iso) (h : c.getFK q offs = .ok T) :
    (numC c q offs).getFK Double.exact = numI T ∧ LongEnough (numC c q offs) := by
  unfold DHChain.getFK at h
  split at h
  · cases h
  · split at h
    · cases h
    · rename_i h1 h2
      refine ⟨?_, ?_⟩
      · have := NaN.exact_fk _ _ _ _ _ _ h
        simpa [NChain.getFK, numC] using this
      · unfold DHChain.dof at h1
        simp [LongEnough, numC]
        omega

/-- The estimated mounts in the blocks of the functors. -/
def Spec.numMounts (p : Nat → Mem) : NMounts :=
  ⟨num3 (p 2).v3, num3 (p 3).v3, num3 (p 4).v3, num3 (p 5).v3, num3 (p 6).v3, num3 (p 7).v3⟩

theorem NaN.exact_kin (cc tc : DHChain) (qc qt : List ℝ) (p : Nat → Mem) (T : Iso) (h : RCT.kinCameraToTarget cc tc qc qt p = .ok T) :
    NaN.kinCameraToTarget Double.exact (numC cc qc ((p 0).dhRows cc.dof)) (numC tc qt ((p 1).dhRows tc.dof)) (numMounts p) = numI T ∧
      LongEnough (numC cc qc ((p 0).dhRows cc.dof)) ∧ LongEnough (numC tc qt ((p 1).dhRows tc.dof)) := by
  unfold RCT.kinCameraToTarget at h
  cases h1 : cc.getFK qc ((p 0).dhRows cc.dof) with
  | ok F =>
    cases h2 : tc.getFK qt ((p 1).dhRows tc.dof) with
    | ok G =>
      simp only [h1, h2, Res.bind, Res.ok.injEq] at h
      obtain ⟨e1, l1⟩ := NaN.exact_getFK _ _ _ _ h1
      obtain ⟨e2, l2⟩ := NaN.exact_getFK _ _ _ _ h2
      refine ⟨?_, l1, l2⟩
      unfold NaN.kinCameraToTarget numMounts
      simp only [e1, e2, NaN.exact_kinTransform, NaN.exact_mul, NaN.exact_inv, h]
    | _ => simp [h1, h2, Res.bind] at h
  | _ => simp [h1, Res.bind] at h

/-- On numbers and without rounding, the functors are those of kinematic calibration and circle fitting. -/
theorem C233_same (cc tc : DHChain) (intr : Intr) (o : KinObs) (k : Corr2) (meas : KinMeas) (w : ℝ) (p : Nat → Mem) (l l' : List ℝ)
    (h : RCT.kinCost2 cc tc intr o k p = .ok l) (h' : RCT.kinCost6 cc tc w meas p = .ok l') (obs : V2) (sample : Mem) :
    (∃ c t, c = numC cc o.cameraJoints ((p 0).dhRows cc.dof) ∧ t = numC tc o.targetJoints ((p 1).dhRows tc.dof) ∧ LongEnough c ∧ LongEnough t ∧
      NaN.kinCost2 Double.exact c t (num4 intr) (num3 k.inTarget) (num2 k.inImage) (numMounts p) = l.map some) ∧
    (∃ c t, c = numC cc meas.cameraJoints ((p 0).dhRows cc.dof) ∧ t = numC tc meas.targetJoints ((p 1).dhRows tc.dof) ∧ LongEnough c ∧ LongEnough t ∧
      ∀ dist : NM3 → NM3 → Num, (∀ A B : M3, dist (numM A) (numM B) = some (A.toQuat.angularDistance B.toQuat)) →
        NaN.kinCost6 Double.exact dist c t (numI meas.cameraToTarget) (some w) (numMounts p) = l'.map some) ∧
    NaN.circleCost Double.exact (num2 obs) (some (sample 0)) (some (sample 1)) (some (sample 2)) = (RCT.circleCost obs sample).map some := by
  refine ⟨?_, ?_, rfl⟩
  · unfold RCT.kinCost2 at h
    cases hT : RCT.kinCameraToTarget cc tc o.cameraJoints o.targetJoints p with
    | ok T =>
      obtain ⟨e, l1, l2⟩ := NaN.exact_kin _ _ _ _ _ _ hT
      refine ⟨_, _, rfl, rfl, l1, l2, ?_⟩
      simp only [hT, Res.bind, Res.ok.injEq] at h
      subst h
      unfold NaN.kinCost2 NaN.projectPointE RCT.projectPointE
      rw [e, NaN.exact_apply]
      generalize T.apply k.inTarget = c
      have es : NaN.sub Double.exact (num3 c).z (some 0) = some (c.z - 0) := rfl
      rw [es]
      by_cases hc : c.z - 0 > 1 / 10 ^ 10
      · have hz : c.z ≠ 0 := fun h0 => by rw [h0] at hc; norm_num at hc
        simp only [if_pos ((NaN.gt_some _ _).2 hc), if_pos hc, num3, NaN.div_some _ _ hz]
        rfl
      · simp only [if_neg fun h' => hc ((NaN.gt_some _ _).1 h'), if_neg hc]
        rfl
    | _ => simp [hT, Res.bind] at h
  · unfold RCT.kinCost6 at h'
    cases hT : RCT.kinCameraToTarget cc tc meas.cameraJoints meas.targetJoints p with
    | ok T =>
      obtain ⟨e, l1, l2⟩ := NaN.exact_kin _ _ _ _ _ _ hT
      refine ⟨_, _, rfl, rfl, l1, l2, ?_⟩
      intro dist hd
      simp only [hT, Res.bind, Res.ok.injEq] at h'
      subst h'
      have hd' : dist (numI meas.cameraToTarget).R (numI T).R = some (meas.cameraToTarget.R.toQuat.angularDistance T.R.toQuat) := hd _ _
      unfold NaN.kinCost6
      rw [e]
      simp only [hd', NaN.exact_inv, NaN.exact_mul]
      simp only [reduceCtorEq, if_false]
      rfl
    | _ => simp [hT, Res.bind] at h'

/-- A chain of one joint with its value, and a chain without joints; the orientation of the camera is NaN. -/
example : Double.exact.WF ∧ ∃ cc tc : NChain, LongEnough cc ∧ LongEnough tc ∧ cc.values ≠ [] ∧ Numbers (valsC cc) ∧ Numbers (valsC tc) := by
  refine ⟨Double.exact_wf, ⟨numI 1, [(numD ⟨0, 0, 1, 0⟩, .revolute)], [numD ⟨0, 0, 0, 0⟩], [some 1]⟩, ⟨numI 1, [], [], []⟩, ?_, ?_, ?_, ?_, ?_⟩
  · simp [LongEnough]
  · simp [LongEnough]
  · simp
  · simp [valsC, Numbers, valsI, valsM, vals3, valsD, numI, numM, num3, numD]
  · simp [valsC, Numbers, valsI, valsM, vals3, numI, numM, num3]

end RCT
