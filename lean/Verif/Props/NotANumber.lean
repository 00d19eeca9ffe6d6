import Verif.Spec.NotANumber
import Verif.Props.Rounded

/-!
# C232 A value that is not a number shows in the residuals
-/

namespace RCT

open Spec NaN

theorem numbers_cons {a : Num} {l : List Num} : Numbers (a :: l) ↔ a ≠ none ∧ Numbers l := by
  unfold Numbers
  rw [List.mem_cons, not_or]
  exact ⟨fun h => ⟨fun e => h.1 e.symm, h.2⟩, fun h => ⟨fun e => h.1 e.symm, h.2⟩⟩

theorem numbers_nil : Numbers [] := List.not_mem_nil

theorem numbers_append {l m : List Num} : Numbers (l ++ m) ↔ Numbers l ∧ Numbers m := by
  unfold Numbers
  rw [List.mem_append, not_or]

theorem NaN.add_none (D : Double) (a b : Num) : NaN.add D a b ≠ none ↔ a ≠ none ∧ b ≠ none := by
  cases a <;> cases b <;> simp [NaN.add]

theorem NaN.sub_none (D : Double) (a b : Num) : NaN.sub D a b ≠ none ↔ a ≠ none ∧ b ≠ none := by
  cases a <;> cases b <;> simp [NaN.sub]

theorem NaN.mul_none (D : Double) (a b : Num) : NaN.mul D a b ≠ none ↔ a ≠ none ∧ b ≠ none := by
  cases a <;> cases b <;> simp [NaN.mul]

theorem NaN.div_none (D : Double) (a b : Num) : NaN.div D a b ≠ none ↔ a ≠ none ∧ b ≠ none ∧ b ≠ some 0 := by
  unfold NaN.div
  split
  · rename_i h; simp [h]
  · rename_i h; cases a <;> cases b <;> simp_all

theorem NaN.sqrt_none (D : Double) (a : Num) : NaN.sqrt D a ≠ none ↔ a ≠ none := by cases a <;> simp [NaN.sqrt]
theorem NaN.sin_none (D : Double) (a : Num) : NaN.sin D a ≠ none ↔ a ≠ none := by cases a <;> simp [NaN.sin]
theorem NaN.cos_none (D : Double) (a : Num) : NaN.cos D a ≠ none ↔ a ≠ none := by cases a <;> simp [NaN.cos]
theorem NaN.some_none (x : ℝ) : (some x : Num) ≠ none ↔ True := by simp

theorem NaN.dot_none (D : Double) (a b : N3) : NaN.dot D a b ≠ none ↔ (a.x ≠ none ∧ a.y ≠ none ∧ a.z ≠ none) ∧ b.x ≠ none ∧ b.y ≠ none ∧ b.z ≠ none := by
  unfold NaN.dot
  simp only [NaN.add_none, NaN.mul_none]
  tauto

theorem Double.WF.sqrt_pos {D : Double} (hD : D.WF) {x : ℝ} (hx : 0 < x) : 0 < D.sqrt x := by
  have h := abs_le.1 (hD.sqrt_err x hx.le)
  have h0 := Real.sqrt_pos.2 hx
  have hu : dblUnit < 1 := by unfold dblUnit; norm_num
  nlinarith [h.1, mul_lt_mul_of_pos_right hu h0]

/-- The square root of a positive number is no zero. -/
theorem NaN.sqrt_ne {D : Double} (hD : D.WF) {a : Num} {r : ℝ} (hr : 0 ≤ r) (h : NaN.Gt a r) : NaN.sqrt D a ≠ some 0 := by
  obtain ⟨x, rfl, hx⟩ := h
  intro h0
  have : D.sqrt x = 0 := Option.some.inj h0
  exact (hD.sqrt_pos (lt_of_le_of_lt hr hx)).ne' this

theorem NaN.Gt.number {a : Num} {r : ℝ} (h : NaN.Gt a r) : a ≠ none := by
  obtain ⟨x, rfl, -⟩ := h
  simp

theorem NaN.rotate_num {D : Double} (hD : D.WF) (aa pt : N3) :
    Numbers (vals3 (NaN.angleAxisRotatePoint D aa pt)) ↔ Numbers (vals3 aa) ∧ Numbers (vals3 pt) := by
  have heps : (0 : ℝ) ≤ dblEps := by unfold dblEps; norm_num
  unfold NaN.angleAxisRotatePoint
  by_cases h : NaN.Gt (NaN.dot D aa aa) dblEps
  · have h1 := h.number
    have h2 := NaN.sqrt_ne hD heps h
    have h3 := h1
    rw [NaN.dot_none] at h3
    simp only [if_pos h, vals3, numbers_cons, numbers_nil, NaN.add_none, NaN.mul_none, NaN.sub_none, NaN.dot_none, NaN.cross, NaN.div_none,
      NaN.sqrt_none, NaN.sin_none, NaN.cos_none, NaN.some_none]
    tauto
  · simp only [if_neg h, vals3, numbers_cons, numbers_nil, NaN.add_none, NaN.mul_none, NaN.sub_none, NaN.cross]
    tauto

/-- The last coordinate alone needs the whole point. -/
theorem NaN.rotate_z {D : Double} (aa pt : N3) (hz : (NaN.angleAxisRotatePoint D aa pt).z ≠ none) :
    Numbers (vals3 pt) ∧ aa.x ≠ none ∧ aa.y ≠ none := by
  unfold NaN.angleAxisRotatePoint at hz
  by_cases h : NaN.Gt (NaN.dot D aa aa) dblEps
  · have h3 := h.number
    rw [NaN.dot_none] at h3
    simp only [if_pos h, NaN.add_none, NaN.mul_none, NaN.sub_none, NaN.dot_none, NaN.cross] at hz
    simp only [vals3, numbers_cons, numbers_nil]
    tauto
  · simp only [if_neg h, NaN.add_none, NaN.mul_none, NaN.sub_none, NaN.cross] at hz
    simp only [vals3, numbers_cons, numbers_nil]
    tauto

theorem NaN.transform_num {D : Double} (hD : D.WF) (p : NPose) (pt : N3) :
    Numbers (vals3 (NaN.transformPoint D p pt)) ↔ Numbers (vals6 p) ∧ Numbers (vals3 pt) := by
  have := NaN.rotate_num hD ⟨p.rx, p.ry, p.rz⟩ pt
  unfold NaN.transformPoint
  simp only [vals3, vals6, numbers_cons, numbers_nil, NaN.add_none] at this ⊢
  tauto

theorem NaN.transform_z {D : Double} (p : NPose) (pt : N3) (hz : (NaN.transformPoint D p pt).z ≠ none) :
    Numbers (vals3 pt) ∧ p.rx ≠ none ∧ p.ry ≠ none ∧ p.z ≠ none := by
  unfold NaN.transformPoint at hz
  rw [NaN.add_none] at hz
  have := NaN.rotate_z _ _ hz.1
  exact ⟨this.1, this.2.1, this.2.2, hz.2⟩

theorem NaN.pixel_num (D : Double) (i : NIntr) (c : N3) (obs : N2) :
    Numbers (NaN.pixelResidual D i c obs) ↔ Numbers (vals4 i) ∧ Numbers (vals3 c) ∧ Numbers (vals2 obs) := by
  unfold NaN.pixelResidual NaN.projectPoint
  by_cases h : c.z = some 0
  · have hz : c.z ≠ none := by rw [h]; simp
    simp only [if_pos h, numbers_cons, numbers_nil, NaN.add_none, NaN.mul_none, NaN.sub_none, vals2, vals3, vals4]
    tauto
  · simp only [if_neg h, numbers_cons, numbers_nil, NaN.add_none, NaN.mul_none, NaN.sub_none, NaN.div_none, vals2, vals3, vals4]
    tauto

/-! ## Calibrations with pose blocks -/

/-- Hand-eye calibration from pixels: all residuals are numbers if and only if all values are. -/
theorem C232_hand_eye (D : Double) (hD : D.WF) (obs : N2) (A B : NPose) (pt : N3) (intr : NIntr) (cam tgt : NPose) :
    Numbers (NaN.handEyeCost2 D obs A B pt intr cam tgt) ↔
      Numbers (vals2 obs ++ vals6 A ++ vals6 B ++ vals3 pt ++ vals4 intr ++ vals6 cam ++ vals6 tgt) := by
  unfold NaN.handEyeCost2 NaN.targetPointInCamera
  simp only [NaN.pixel_num, NaN.transform_num hD, numbers_append]
  tauto

/-- Hand-eye calibration from points. -/
theorem C232_hand_eye_3d (D : Double) (hD : D.WF) (obs : N3) (A B : NPose) (pt : N3) (cam tgt : NPose) :
    Numbers (NaN.handEyeCost3 D obs A B pt cam tgt) ↔ Numbers (vals3 obs ++ vals6 A ++ vals6 B ++ vals3 pt ++ vals6 cam ++ vals6 tgt) := by
  have h : Numbers (NaN.handEyeCost3 D obs A B pt cam tgt) ↔ Numbers (vals3 (NaN.targetPointInCamera D A B pt cam tgt)) ∧ Numbers (vals3 obs) := by
    unfold NaN.handEyeCost3
    simp only [vals3, numbers_cons, numbers_nil, NaN.sub_none]
    tauto
  rw [h]
  unfold NaN.targetPointInCamera
  simp only [NaN.transform_num hD, numbers_append]
  tauto

/-- Several cameras. -/
theorem C232_cameras (D : Double) (hD : D.WF) (obs : N2) (intr : NIntr) (A B : NPose) (pt : N3) (cam tgt : NPose) :
    (Numbers (NaN.mcPnpCost D obs intr A pt tgt) ↔ Numbers (vals2 obs ++ vals4 intr ++ vals6 A ++ vals3 pt ++ vals6 tgt)) ∧
    (Numbers (NaN.msCost D obs intr A pt cam tgt) ↔ Numbers (vals2 obs ++ vals4 intr ++ vals6 A ++ vals3 pt ++ vals6 cam ++ vals6 tgt)) ∧
    (Numbers (NaN.coCost D obs intr pt cam tgt) ↔ Numbers (vals2 obs ++ vals4 intr ++ vals3 pt ++ vals6 cam ++ vals6 tgt)) ∧
    (Numbers (NaN.woCost D obs intr A B pt cam tgt) ↔
      Numbers (vals2 obs ++ vals4 intr ++ vals6 A ++ vals6 B ++ vals3 pt ++ vals6 cam ++ vals6 tgt)) := by
  unfold NaN.mcPnpCost NaN.msCost NaN.coCost NaN.woCost
  simp only [NaN.pixel_num, NaN.transform_num hD, numbers_append]
  tauto

/-- Intrinsic calibration. -/
theorem C232_intrinsic (D : Double) (hD : D.WF) (pt : N3) (obs : N2) (pose : NPose) (intr : NIntr9) :
    Numbers (NaN.intrinsicCost D pt obs pose intr) ↔ Numbers (vals3 pt ++ vals2 obs ++ vals6 pose ++ vals9 intr) := by
  have ht := NaN.transform_num hD pose pt
  obtain ⟨c, hc⟩ : ∃ c, c = NaN.transformPoint D pose pt := ⟨_, rfl⟩
  obtain ⟨xp, hx⟩ : ∃ xp, xp = if c.z = some 0 then c.x else NaN.div D c.x c.z := ⟨_, rfl⟩
  obtain ⟨yp, hy⟩ : ∃ yp, yp = if c.z = some 0 then c.y else NaN.div D c.y c.z := ⟨_, rfl⟩
  have hxy : (xp ≠ none ∧ yp ≠ none) ↔ Numbers (vals3 c) := by
    simp only [vals3, numbers_cons, numbers_nil]
    by_cases h : c.z = some 0
    · have hz : c.z ≠ none := by rw [h]; simp
      rw [hx, hy, if_pos h, if_pos h]
      tauto
    · rw [hx, hy, if_neg h, if_neg h, NaN.div_none, NaN.div_none]
      tauto
  have h : Numbers (NaN.intrinsicCost D pt obs pose intr) ↔ Numbers (vals3 c) ∧ Numbers (vals2 obs) ∧ Numbers (vals9 intr) := by
    rw [← hxy]
    unfold NaN.intrinsicCost NaN.projectPoints2
    simp only [← hc, ← hx, ← hy]
    simp only [numbers_cons, numbers_nil, NaN.add_none, NaN.mul_none, NaN.sub_none, NaN.some_none, vals2, vals9, and_true, and_self]
    clear hx hy hxy hc ht
    grind
  rw [h, hc, ht]
  simp only [numbers_append]
  tauto

/-- A point that passes the check of hand-eye calibration is made of numbers, as are the poses of the mounts and of the target. -/
theorem C232_visible (D : Double) (hD : D.WF) (A B : NPose) (pt : N3) (cam tgt : NPose) (h : NaN.IsPointVisible D A B pt cam tgt) :
    Numbers (vals3 pt ++ vals6 A ++ vals6 B ++ vals6 tgt) ∧ cam.rx ≠ none ∧ cam.ry ≠ none ∧ cam.z ≠ none := by
  obtain ⟨h1, h2⟩ := NaN.transform_z _ _ (NaN.Gt.number h)
  simp only [NaN.transform_num hD] at h1
  simp only [numbers_append]
  tauto

/-! ## PnP -/

/-- The matrix is applied to the point; each coordinate needs the whole point and the whole rotation. -/
theorem NaN.pnp_num {D : Double} (hD : D.WF) (pt aa t : N3) :
    ((NaN.pnpPoint D pt aa t).x ≠ none ↔ Numbers (vals3 pt) ∧ Numbers (vals3 aa) ∧ t.x ≠ none) ∧
    ((NaN.pnpPoint D pt aa t).y ≠ none ↔ Numbers (vals3 pt) ∧ Numbers (vals3 aa) ∧ t.y ≠ none) ∧
    ((NaN.pnpPoint D pt aa t).z ≠ none ↔ Numbers (vals3 pt) ∧ Numbers (vals3 aa) ∧ t.z ≠ none) := by
  unfold NaN.pnpPoint NaN.row
  by_cases h : NaN.Gt (NaN.dot D aa aa) 0
  · have h1 := h.number
    have h2 := NaN.sqrt_ne hD le_rfl h
    have h3 := h1
    rw [NaN.dot_none] at h3
    simp only [if_pos h, vals3, numbers_cons, numbers_nil, NaN.add_none, NaN.mul_none, NaN.sub_none, NaN.dot_none, NaN.div_none,
      NaN.sqrt_none, NaN.sin_none, NaN.cos_none, NaN.some_none]
    tauto
  · simp only [if_neg h, vals3, numbers_cons, numbers_nil, NaN.add_none, NaN.mul_none, NaN.sub_none, NaN.dot_none,
      NaN.sqrt_none, NaN.sin_none, NaN.cos_none, NaN.some_none]
    tauto

/-- PnP from points. -/
theorem C232_pnp_3d (D : Double) (hD : D.WF) (pt obs aa t : N3) :
    Numbers (NaN.pnpCost3 D pt obs aa t) ↔ Numbers (vals3 pt ++ vals3 obs ++ vals3 aa ++ vals3 t) := by
  obtain ⟨h1, h2, h3⟩ := NaN.pnp_num hD pt aa t
  unfold NaN.pnpCost3
  simp only [numbers_append, numbers_cons, numbers_nil, NaN.sub_none, h1, h2, h3]
  simp only [vals3, numbers_cons, numbers_nil]
  tauto

theorem Double.WF.sub_zero {D : Double} (hD : D.WF) : D.sub 0 0 = 0 := by
  have h := hD.rnd_err 0
  unfold Double.sub
  simpa using h

theorem NaN.depth_ne {D : Double} (hD : D.WF) {z : Num} (h : NaN.Gt (NaN.sub D z (some 0)) (1 / 10 ^ 10)) : z ≠ none ∧ z ≠ some 0 := by
  refine ⟨((NaN.sub_none D _ _).1 h.number).1, ?_⟩
  rintro rfl
  obtain ⟨x, hx, hx'⟩ := h
  have : D.sub 0 0 = x := Option.some.inj hx
  rw [hD.sub_zero] at this
  rw [← this] at hx'
  norm_num at hx'

/-- PnP from pixels.

Full statement: the residuals are numbers if and only if all values are.
Missing from the full claim: the depth of the estimated translation, which may be NaN without a trace (`C232_negation`). -/
theorem C232_pnp_partial (D : Double) (hD : D.WF) (intr : NIntr) (pt : N3) (obs : N2) (aa t : N3) :
    Numbers (NaN.pnpCost2 D intr pt obs aa t) ↔ Numbers (vals4 intr ++ vals3 pt ++ vals2 obs ++ vals3 aa ++ [t.x, t.y]) := by
  obtain ⟨h1, h2, -⟩ := NaN.pnp_num hD pt aa t
  obtain ⟨c, hc⟩ : ∃ c, c = NaN.pnpPoint D pt aa t := ⟨_, rfl⟩
  rw [← hc] at h1 h2
  have h : Numbers (NaN.pnpCost2 D intr pt obs aa t) ↔ (c.x ≠ none ∧ c.y ≠ none) ∧ Numbers (vals2 obs) ∧ Numbers (vals4 intr) := by
    unfold NaN.pnpCost2 NaN.projectPointE
    rw [← hc]
    by_cases h : NaN.Gt (NaN.sub D c.z (some 0)) (1 / 10 ^ 10)
    · have hz := NaN.depth_ne hD h
      simp only [if_pos h, numbers_cons, numbers_nil, NaN.sub_none, NaN.dot_none, NaN.div_none, NaN.some_none, vals2, vals4]
      tauto
    · simp only [if_neg h, numbers_cons, numbers_nil, NaN.sub_none, NaN.dot_none, NaN.some_none, vals2, vals4]
      tauto
  rw [h, h1, h2]
  simp only [numbers_append, numbers_cons, numbers_nil]
  tauto

/-- With the depth NaN, the residuals of PnP from pixels are numbers whenever the other values are. -/
theorem C232_negation (D : Double) (hD : D.WF) (intr : Intr) (pt : V3) (obs : V2) (aa : V3) (tx ty : ℝ) :
    Numbers (NaN.pnpCost2 D (num4 intr) (num3 pt) (num2 obs) (num3 aa) ⟨some tx, some ty, none⟩) := by
  rw [C232_pnp_partial D hD]
  simp [Numbers, num4, num3, num2, vals4, vals3, vals2]

/-! ## Numbers -/

theorem NaN.gt_some (x r : ℝ) : NaN.Gt (some x) r ↔ x > r :=
  ⟨fun ⟨y, hy, h⟩ => by rw [Option.some.inj hy]; exact h, fun h => ⟨x, rfl, h⟩⟩

theorem NaN.div_some (D : Double) {y : ℝ} (x : ℝ) (h : y ≠ 0) : NaN.div D (some x) (some y) = some (D.div x y) := by
  unfold NaN.div
  rw [if_neg fun h' => h (Option.some.inj h')]
  rfl

theorem NaN.transform_same {D : Double} (hD : D.WF) (p : Pose6) (v : V3) :
    NaN.transformPoint D (num6 p) (num3 v) = num3 (D.transformPoint p v) := by
  have heps : (0 : ℝ) < dblEps := by unfold dblEps; norm_num
  have e : NaN.angleAxisRotatePoint D (num3 ⟨p.rx, p.ry, p.rz⟩) (num3 v) = num3 (D.angleAxisRotatePoint ⟨p.rx, p.ry, p.rz⟩ v) := by
    have h0 : NaN.dot D (num3 ⟨p.rx, p.ry, p.rz⟩) (num3 ⟨p.rx, p.ry, p.rz⟩) = some (D.dot ⟨p.rx, p.ry, p.rz⟩ ⟨p.rx, p.ry, p.rz⟩) := rfl
    unfold NaN.angleAxisRotatePoint Double.angleAxisRotatePoint
    rw [h0]
    by_cases h : D.dot ⟨p.rx, p.ry, p.rz⟩ ⟨p.rx, p.ry, p.rz⟩ > dblEps
    · have hs : NaN.sqrt D (some (D.dot ⟨p.rx, p.ry, p.rz⟩ ⟨p.rx, p.ry, p.rz⟩)) = some (D.sqrt (D.dot ⟨p.rx, p.ry, p.rz⟩ ⟨p.rx, p.ry, p.rz⟩)) := rfl
      simp only [if_pos ((NaN.gt_some _ _).2 h), if_pos h, hs, NaN.div_some D 1 (hD.sqrt_pos (heps.trans h)).ne']
      rfl
    · simp only [if_neg fun h' => h ((NaN.gt_some _ _).1 h'), if_neg h]
      rfl
  have e' : NaN.angleAxisRotatePoint D ⟨(num6 p).rx, (num6 p).ry, (num6 p).rz⟩ (num3 v) = _ := e
  unfold NaN.transformPoint
  rw [e']
  rfl

theorem NaN.pixel_same (D : Double) (i : Intr) (c : V3) (obs : V2) :
    NaN.pixelResidual D (num4 i) (num3 c) (num2 obs) = (D.pixelResidual i c obs).map some := by
  unfold NaN.pixelResidual Double.pixelResidual NaN.projectPoint Double.projectPoint
  by_cases h : c.z = 0
  · have h' : (num3 c).z = some 0 := by rw [num3, h]
    simp only [if_pos h, if_pos h']
    rfl
  · have h' : (some c.z : Num) ≠ some 0 := fun e => h (Option.some.inj e)
    simp only [num3, if_neg h, if_neg h', NaN.div_some D _ h]
    rfl

/-- On numbers, the functors are those of C229. -/
theorem C232_same (D : Double) (hD : D.WF) (obs : V2) (obs3 : V3) (A B : Pose6) (pt : V3) (intr : Intr) (cam tgt : Pose6) :
    NaN.handEyeCost2 D (num2 obs) (num6 A) (num6 B) (num3 pt) (num4 intr) (num6 cam) (num6 tgt) = (D.handEyeCost2 obs A B pt intr cam tgt).map some ∧
    NaN.handEyeCost3 D (num3 obs3) (num6 A) (num6 B) (num3 pt) (num6 cam) (num6 tgt) = (D.handEyeCost3 obs3 A B pt cam tgt).map some ∧
    NaN.mcPnpCost D (num2 obs) (num4 intr) (num6 A) (num3 pt) (num6 tgt) = (D.mcPnpCost obs intr A pt tgt).map some ∧
    NaN.msCost D (num2 obs) (num4 intr) (num6 A) (num3 pt) (num6 cam) (num6 tgt) = (D.msCost obs intr A pt cam tgt).map some ∧
    NaN.coCost D (num2 obs) (num4 intr) (num3 pt) (num6 cam) (num6 tgt) = (D.coCost obs intr pt cam tgt).map some ∧
    NaN.woCost D (num2 obs) (num4 intr) (num6 A) (num6 B) (num3 pt) (num6 cam) (num6 tgt) = (D.woCost obs intr A B pt cam tgt).map some := by
  unfold NaN.handEyeCost2 NaN.handEyeCost3 NaN.mcPnpCost NaN.msCost NaN.coCost NaN.woCost NaN.targetPointInCamera
  simp only [NaN.transform_same hD, NaN.pixel_same]
  exact ⟨rfl, rfl, rfl, rfl, rfl, rfl⟩

theorem NaN.pnp_same {D : Double} (hD : D.WF) (pt aa t : V3) : NaN.pnpPoint D (num3 pt) (num3 aa) (num3 t) = num3 (D.pnpPoint pt aa t) := by
  have h0 : NaN.dot D (num3 aa) (num3 aa) = some (D.dot aa aa) := rfl
  have hs : NaN.sqrt D (some (D.dot aa aa)) = some (D.sqrt (D.dot aa aa)) := rfl
  unfold NaN.pnpPoint Double.pnpPoint Double.angleAxisMatrix
  rw [h0]
  by_cases h : D.dot aa aa > 0
  · simp only [hs, if_pos ((NaN.gt_some _ _).2 h), if_pos h, num3, NaN.div_some D _ (hD.sqrt_pos h).ne']
    rfl
  · simp only [if_neg fun h' => h ((NaN.gt_some _ _).1 h'), if_neg h]
    rfl

/-- On numbers, the functors are those of C230. -/
theorem C232_same_more (D : Double) (hD : D.WF) (intr : Intr) (intr9 : Intr9) (pt obs3 : V3) (obs : V2) (aa t : V3) (pose : Pose6) :
    NaN.pnpCost2 D (num4 intr) (num3 pt) (num2 obs) (num3 aa) (num3 t) = (D.pnpCost2 intr pt obs aa t).map some ∧
    NaN.pnpCost3 D (num3 pt) (num3 obs3) (num3 aa) (num3 t) = (D.pnpCost3 pt obs3 aa t).map some ∧
    NaN.intrinsicCost D (num3 pt) (num2 obs) (num6 pose) (num9 intr9) = (D.intrinsicCost pt obs pose intr9).map some := by
  refine ⟨?_, ?_, ?_⟩
  · unfold NaN.pnpCost2 Double.pnpCost2 NaN.projectPointE Double.projectPointE
    rw [NaN.pnp_same hD]
    obtain ⟨c, hc⟩ : ∃ c, c = D.pnpPoint pt aa t := ⟨_, rfl⟩
    rw [← hc]
    have e : NaN.sub D (num3 c).z (some 0) = some (D.sub c.z 0) := rfl
    rw [e]
    by_cases h : D.sub c.z 0 > 1 / 10 ^ 10
    · have hz : c.z ≠ 0 := fun h0 => (NaN.depth_ne hD (e ▸ (NaN.gt_some _ _).2 h)).2 (by rw [num3, h0])
      simp only [if_pos ((NaN.gt_some _ _).2 h), if_pos h, num3, NaN.div_some D _ hz]
      rfl
    · simp only [if_neg fun h' => h ((NaN.gt_some _ _).1 h'), if_neg h]
      rfl
  · unfold NaN.pnpCost3
    rw [NaN.pnp_same hD]
    rfl
  · unfold NaN.intrinsicCost Double.intrinsicCost NaN.projectPoints2 Double.projectPoints2
    rw [NaN.transform_same hD]
    obtain ⟨c, hc⟩ : ∃ c, c = D.transformPoint pose pt := ⟨_, rfl⟩
    rw [← hc]
    by_cases h : c.z = 0
    · have h' : (num3 c).z = some 0 := by rw [num3, h]
      simp only [if_pos h, if_pos h']
      rfl
    · have h' : (some c.z : Num) ≠ some 0 := fun e => h (Option.some.inj e)
      simp only [num3, if_neg h, if_neg h', NaN.div_some D _ h]
      rfl

/-- The check of hand-eye calibration on numbers is that of the model without NaN. -/
theorem C232_same_visible (A B : Pose6) (pt : V3) (cam tgt : Pose6) :
    NaN.IsPointVisible Double.exact (num6 A) (num6 B) (num3 pt) (num6 cam) (num6 tgt) ↔ (Double.exact.targetPointInCamera A B pt cam tgt).z > 0 := by
  unfold NaN.IsPointVisible NaN.targetPointInCamera
  simp only [NaN.transform_same Double.exact_wf]
  exact NaN.gt_some _ _

/-- Arithmetic without rounding meets the contract; a point in front of the camera, and the same point without its first coordinate. -/
example : Double.exact.WF ∧ NaN.IsPointVisible Double.exact (num6 ⟨0, 0, 0, 0, 0, 0⟩) (num6 ⟨0, 0, 0, 0, 0, 0⟩) (num3 ⟨1, 0, 2⟩)
      (num6 ⟨0, 0, 0, 0, 0, 0⟩) (num6 ⟨0, 0, 0, 0, 0, 0⟩) ∧
    ¬ NaN.IsPointVisible Double.exact (num6 ⟨0, 0, 0, 0, 0, 0⟩) (num6 ⟨0, 0, 0, 0, 0, 0⟩) ⟨none, some 0, some 2⟩
      (num6 ⟨0, 0, 0, 0, 0, 0⟩) (num6 ⟨0, 0, 0, 0, 0, 0⟩) := by
  have hd : ¬ (0 : ℝ) > dblEps := by unfold dblEps; norm_num
  refine ⟨Double.exact_wf, ?_, fun h => ?_⟩
  · rw [C232_same_visible]
    simp [Double.targetPointInCamera, Double.transformPoint, Double.angleAxisRotatePoint, Double.dot, Double.cross, Double.add, Double.sub,
      Double.mul, Double.exact, hd]
  · exact (C232_visible _ Double.exact_wf _ _ _ _ _ h).1 (by simp [vals3])

end RCT
