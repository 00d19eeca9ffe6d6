import Verif.Lemmas.JetKinematic

/-!
# Jets that stay finite, jets that do not, and jets without derivative
-/

namespace RCT

open Spec

/-! ## Finite derivatives -/

namespace Spec.FiniteJet
variable {f g : Jet}
theorem const (x : ℝ) : FiniteJet (.const x) := ⟨0, rfl⟩
theorem one : FiniteJet 1 := ⟨0, rfl⟩
theorem zero : FiniteJet 0 := ⟨0, rfl⟩
theorem add (hf : FiniteJet f) (hg : FiniteJet g) : FiniteJet (f + g) := by
  obtain ⟨x, hx⟩ := hf; obtain ⟨y, hy⟩ := hg; exact ⟨x + y, by simp [Jet.add_v, hx, hy]⟩
theorem sub (hf : FiniteJet f) (hg : FiniteJet g) : FiniteJet (f - g) := by
  obtain ⟨x, hx⟩ := hf; obtain ⟨y, hy⟩ := hg; exact ⟨x - y, by simp [Jet.sub_v, hx, hy]⟩
theorem neg (hf : FiniteJet f) : FiniteJet (-f) := by
  obtain ⟨x, hx⟩ := hf; exact ⟨-x, by simp [Jet.neg_v, hx]⟩
theorem mul (hf : FiniteJet f) (hg : FiniteJet g) : FiniteJet (f * g) := by
  obtain ⟨x, hx⟩ := hf; obtain ⟨y, hy⟩ := hg; exact ⟨f.a * y + x * g.a, by simp [Jet.mul_v, hx, hy]⟩
theorem div (hf : FiniteJet f) (hg : FiniteJet g) (h0 : g.a ≠ 0) : FiniteJet (f / g) := by
  obtain ⟨x, hx⟩ := hf; obtain ⟨y, hy⟩ := hg
  refine ⟨(x - f.a / g.a * y) / g.a, ?_⟩
  show (if g.a = 0 then none else Option.map₂ _ f.v g.v) = _
  rw [if_neg h0, hx, hy]; rfl
theorem sqrt (hf : FiniteJet f) (h0 : 0 < f.a) : FiniteJet f.sqrt := by
  obtain ⟨x, hx⟩ := hf
  refine ⟨x / (2 * Real.sqrt f.a), ?_⟩
  show (if f.a ≤ 0 then none else _) = _
  rw [if_neg (not_le.2 h0), hx]; rfl
theorem sin (hf : FiniteJet f) : FiniteJet f.sin := by
  obtain ⟨x, hx⟩ := hf; exact ⟨Real.cos f.a * x, by simp [Jet.sin, hx]⟩
theorem cos (hf : FiniteJet f) : FiniteJet f.cos := by
  obtain ⟨x, hx⟩ := hf; exact ⟨-Real.sin f.a * x, by simp [Jet.cos, hx]⟩
end Spec.FiniteJet

/-- Sums, differences and products of finite jets. -/
macro "fin_jet" : tactic => `(tactic| repeat' first
  | assumption
  | exact Spec.FiniteJet.const _
  | exact Spec.FiniteJet.one
  | exact Spec.FiniteJet.zero
  | apply Spec.FiniteJet.sin
  | apply Spec.FiniteJet.cos
  | apply Spec.FiniteJet.add
  | apply Spec.FiniteJet.sub
  | apply Spec.FiniteJet.mul
  | apply Spec.FiniteJet.neg)

/-- All components are finite. -/
structure FinV3 (j : JV3) : Prop where
  x : FiniteJet j.x
  y : FiniteJet j.y
  z : FiniteJet j.z

structure FinM3 (j : JM3) : Prop where
  m00 : FiniteJet j.m00
  m01 : FiniteJet j.m01
  m02 : FiniteJet j.m02
  m10 : FiniteJet j.m10
  m11 : FiniteJet j.m11
  m12 : FiniteJet j.m12
  m20 : FiniteJet j.m20
  m21 : FiniteJet j.m21
  m22 : FiniteJet j.m22

theorem FinV3.const (p : V3) : FinV3 (.const p) := ⟨.const _, .const _, .const _⟩

theorem FinV3.dot {a b : JV3} (ha : FinV3 a) (hb : FinV3 b) : FiniteJet (a.dot b) := by
  obtain ⟨h1, h2, h3⟩ := ha; obtain ⟨h4, h5, h6⟩ := hb; unfold JV3.dot; fin_jet

theorem FinV3.norm {a : JV3} (ha : FinV3 a) (h0 : 0 < (a.dot a).a) : FiniteJet a.norm := (ha.dot ha).sqrt h0

theorem FinV3.normalized {a : JV3} (ha : FinV3 a) (h0 : 0 < (a.dot a).a) : FinV3 a.normalized := by
  have hn : a.norm.a ≠ 0 := (Real.sqrt_pos.2 h0).ne'
  have hf := ha.norm h0
  unfold JV3.normalized
  rw [if_pos h0]
  exact ⟨ha.x.div hf hn, ha.y.div hf hn, ha.z.div hf hn⟩

theorem FinM3.ofAngleAxis {a : Jet} {w : JV3} (ha : FiniteJet a) (hw : FinV3 w) : FinM3 (.ofAngleAxis a w) := by
  obtain ⟨h1, h2, h3⟩ := hw
  constructor <;> simp only [JM3.ofAngleAxis] <;> fin_jet

theorem FinM3.mulVec {m : JM3} {v : JV3} (hm : FinM3 m) (hv : FinV3 v) : FinV3 (m.mulVec v) := by
  obtain ⟨a00, a01, a02, a10, a11, a12, a20, a21, a22⟩ := hm
  obtain ⟨h1, h2, h3⟩ := hv
  constructor <;> simp only [JM3.mulVec] <;> fin_jet

theorem FinV3.add {a b : JV3} (ha : FinV3 a) (hb : FinV3 b) : FinV3 (a.add b) :=
  ⟨ha.x.add hb.x, ha.y.add hb.y, ha.z.add hb.z⟩

theorem FinV3.cross {a b : JV3} (ha : FinV3 a) (hb : FinV3 b) : FinV3 (a.cross b) := by
  obtain ⟨h1, h2, h3⟩ := ha; obtain ⟨h4, h5, h6⟩ := hb
  constructor <;> simp only [JV3.cross] <;> fin_jet

theorem projectPointJ_finite (intr : Intr) {p : JV3} (h : FinV3 p) :
    FiniteJet (projectPointJ intr p).x ∧ FiniteJet (projectPointJ intr p).y := by
  unfold projectPointJ
  simp only
  by_cases h0 : p.z.a = 0
  · simp only [if_pos h0]
    exact ⟨((FiniteJet.const _).mul h.x).add (.const _), ((FiniteJet.const _).mul h.y).add (.const _)⟩
  · simp only [if_neg h0]
    exact ⟨((FiniteJet.const _).mul (h.x.div h.z h0)).add (.const _), ((FiniteJet.const _).mul (h.y.div h.z h0)).add (.const _)⟩

theorem projectPointEJ_finite (intr : Intr) {p : JV3} (h : FinV3 p) :
    FiniteJet (projectPointEJ intr p).x ∧ FiniteJet (projectPointEJ intr p).y := by
  have hK : FinM3 (JM3.const (⟨intr.fx, 0, intr.cx, 0, intr.fy, intr.cy, 0, 0, 1⟩ : M3)) := by
    constructor <;> exact .const _
  unfold projectPointEJ
  simp only
  by_cases h0 : p.z.a > 1 / 10 ^ 10
  · have hz : p.z.a ≠ 0 := by intro e; rw [e] at h0; norm_num at h0
    simp only [if_pos h0]
    have := hK.mulVec (v := ⟨p.x / p.z, p.y / p.z, 1⟩) ⟨h.x.div h.z hz, h.y.div h.z hz, .one⟩
    exact ⟨this.x, this.y⟩
  · simp only [if_neg h0]
    have := hK.mulVec (v := ⟨p.x, p.y, 1⟩) ⟨h.x, h.y, .one⟩
    exact ⟨this.x, this.y⟩

theorem angleAxisRotatePointJ_finite {aa pt : JV3} (ha : FinV3 aa) (hp : FinV3 pt) :
    FinV3 (angleAxisRotatePointJ aa pt) := by
  unfold angleAxisRotatePointJ
  by_cases h1 : (aa.dot aa).a > dblEps
  · rw [if_pos h1]
    have hpos : 0 < (aa.dot aa).a := lt_trans (by unfold dblEps; positivity) h1
    have hn := (ha.dot ha).sqrt hpos
    have hi : FiniteJet (1 / (aa.dot aa).sqrt) := FiniteJet.one.div hn (Real.sqrt_pos.2 hpos).ne'
    have hw : FinV3 ⟨1 / (aa.dot aa).sqrt * aa.x, 1 / (aa.dot aa).sqrt * aa.y, 1 / (aa.dot aa).sqrt * aa.z⟩ :=
      ⟨hi.mul ha.x, hi.mul ha.y, hi.mul ha.z⟩
    have hx := hw.cross hp
    have ht := hw.dot hp
    obtain ⟨x1, x2, x3⟩ := hx
    obtain ⟨p1, p2, p3⟩ := hp
    obtain ⟨w1, w2, w3⟩ := hw
    constructor <;> simp only <;> fin_jet
  · rw [if_neg h1]
    exact hp.add (ha.cross hp)

theorem transformPointJ_finite {aa tx pt : JV3} (ha : FinV3 aa) (ht : FinV3 tx) (hp : FinV3 pt) :
    FinV3 (transformPointJ aa tx pt) := (angleAxisRotatePointJ_finite ha hp).add ht

/-! ## Derivatives that are not finite -/

namespace Jet
theorem none_add {f g : Jet} (h : f.v = none) : (f + g).v = none := by simp [add_v, h]
theorem add_none {f g : Jet} (h : g.v = none) : (f + g).v = none := by simp [add_v, h]
theorem none_sub {f g : Jet} (h : f.v = none) : (f - g).v = none := by simp [sub_v, h]
theorem sub_none {f g : Jet} (h : g.v = none) : (f - g).v = none := by simp [sub_v, h]
theorem none_mul {f g : Jet} (h : f.v = none) : (f * g).v = none := by simp [mul_v, h]
theorem mul_none {f g : Jet} (h : g.v = none) : (f * g).v = none := by simp [mul_v, h]
theorem none_div {f g : Jet} (h : f.v = none) : (f / g).v = none := by
  show (if g.a = 0 then none else Option.map₂ _ f.v g.v) = none
  rw [h]; simp
theorem sin_none {f : Jet} (h : f.v = none) : f.sin.v = none := by simp [sin, h]
theorem cos_none {f : Jet} (h : f.v = none) : f.cos.v = none := by simp [cos, h]
theorem sqrt_none {f : Jet} (h : f.a = 0) : f.sqrt.v = none := by simp [sqrt, h]
end Jet

/-! ## Jets without derivative -/

/-- The derivative is zero. -/
def Still (j : Jet) : Prop := j.v = some 0

namespace Still
variable {f g : Jet}
theorem const (x : ℝ) : Still (.const x) := rfl
theorem one : Still 1 := rfl
theorem zero : Still 0 := rfl
theorem add (hf : Still f) (hg : Still g) : Still (f + g) := by unfold Still at *; simp [Jet.add_v, hf, hg]
theorem sub (hf : Still f) (hg : Still g) : Still (f - g) := by unfold Still at *; simp [Jet.sub_v, hf, hg]
theorem neg (hf : Still f) : Still (-f) := by unfold Still at *; simp [Jet.neg_v, hf]
theorem mul (hf : Still f) (hg : Still g) : Still (f * g) := by unfold Still at *; simp [Jet.mul_v, hf, hg]
theorem div (hf : Still f) (hg : Still g) (h0 : g.a ≠ 0) : Still (f / g) := by
  show (if g.a = 0 then none else Option.map₂ _ f.v g.v) = _
  unfold Still at *
  rw [if_neg h0, hf, hg]; simp
theorem sqrt (hf : Still f) (h0 : 0 < f.a) : Still f.sqrt := by
  show (if f.a ≤ 0 then none else _) = _
  unfold Still at *
  rw [if_neg (not_le.2 h0), hf]; simp
theorem sin (hf : Still f) : Still f.sin := by unfold Still at *; simp [Jet.sin, hf]
theorem cos (hf : Still f) : Still f.cos := by unfold Still at *; simp [Jet.cos, hf]
end Still

macro "still" : tactic => `(tactic| repeat' first
  | assumption
  | exact Still.const _
  | exact Still.one
  | exact Still.zero
  | apply Still.sin
  | apply Still.cos
  | apply Still.add
  | apply Still.sub
  | apply Still.mul
  | apply Still.neg)

structure StillV3 (j : JV3) : Prop where
  x : Still j.x
  y : Still j.y
  z : Still j.z

structure StillM3 (j : JM3) : Prop where
  m00 : Still j.m00
  m01 : Still j.m01
  m02 : Still j.m02
  m10 : Still j.m10
  m11 : Still j.m11
  m12 : Still j.m12
  m20 : Still j.m20
  m21 : Still j.m21
  m22 : Still j.m22

structure StillIso (j : JIso) : Prop where
  R : StillM3 j.R
  t : StillV3 j.t

theorem StillV3.const (p : V3) : StillV3 (.const p) := ⟨.const _, .const _, .const _⟩
theorem StillM3.const (m : M3) : StillM3 (.const m) := by constructor <;> exact .const _
theorem StillIso.const (T : Iso) : StillIso (.const T) := ⟨.const _, .const _⟩

theorem StillM3.mul {a b : JM3} (ha : StillM3 a) (hb : StillM3 b) : StillM3 (a.mul b) := by
  obtain ⟨a00, a01, a02, a10, a11, a12, a20, a21, a22⟩ := ha
  obtain ⟨b00, b01, b02, b10, b11, b12, b20, b21, b22⟩ := hb
  constructor <;> simp only [JM3.mul] <;> still

theorem StillM3.mulVec {m : JM3} {v : JV3} (hm : StillM3 m) (hv : StillV3 v) : StillV3 (m.mulVec v) := by
  obtain ⟨a00, a01, a02, a10, a11, a12, a20, a21, a22⟩ := hm
  obtain ⟨h1, h2, h3⟩ := hv
  constructor <;> simp only [JM3.mulVec] <;> still

theorem StillM3.ofAngleAxis {a : Jet} {w : JV3} (ha : Still a) (hw : StillV3 w) : StillM3 (.ofAngleAxis a w) := by
  obtain ⟨h1, h2, h3⟩ := hw
  constructor <;> simp only [JM3.ofAngleAxis] <;> still

theorem StillV3.add {a b : JV3} (ha : StillV3 a) (hb : StillV3 b) : StillV3 (a.add b) :=
  ⟨ha.x.add hb.x, ha.y.add hb.y, ha.z.add hb.z⟩
theorem StillV3.neg {a : JV3} (ha : StillV3 a) : StillV3 a.neg := ⟨ha.x.neg, ha.y.neg, ha.z.neg⟩
theorem StillV3.dot {a b : JV3} (ha : StillV3 a) (hb : StillV3 b) : Still (a.dot b) := by
  obtain ⟨h1, h2, h3⟩ := ha; obtain ⟨h4, h5, h6⟩ := hb; unfold JV3.dot; still

theorem StillIso.mul {a b : JIso} (ha : StillIso a) (hb : StillIso b) : StillIso (a.mul b) :=
  ⟨ha.R.mul hb.R, (ha.R.mulVec hb.t).add ha.t⟩
theorem StillM3.tr {a : JM3} (ha : StillM3 a) : StillM3 a.tr :=
  ⟨ha.m00, ha.m10, ha.m20, ha.m01, ha.m11, ha.m21, ha.m02, ha.m12, ha.m22⟩
theorem StillIso.inv {a : JIso} (ha : StillIso a) : StillIso a.inv := ⟨ha.R.tr, (ha.R.tr.mulVec ha.t).neg⟩
theorem StillIso.apply {a : JIso} {p : JV3} (ha : StillIso a) (hp : StillV3 p) : StillV3 (a.apply p) :=
  (ha.R.mulVec hp).add ha.t
theorem StillIso.translateBy {a : JIso} {v : JV3} (ha : StillIso a) (hv : StillV3 v) : StillIso (a.translateBy v) :=
  ha.mul ⟨.const 1, hv⟩
theorem StillIso.rotateBy {a : JIso} {g : Jet} {v : JV3} (ha : StillIso a) (hg : Still g) (hv : StillV3 v) :
    StillIso (a.rotateBy g v) := ha.mul ⟨.ofAngleAxis hg hv, .const 0⟩

structure StillV4 (j : JV4) : Prop where
  d : Still j.d
  theta : Still j.theta
  r : Still j.r
  alpha : Still j.alpha

theorem relativeJ_still (t : DHTransform) (q : ℝ) {o : JV4} (h : StillV4 o) : StillIso (t.relativeJ q o) := by
  have hd := (Still.const t.params.d).add h.d
  have ht := (Still.const t.params.theta).add h.theta
  have hr := (Still.const t.params.r).add h.r
  have ha := (Still.const t.params.alpha).add h.alpha
  unfold DHTransform.relativeJ
  cases t.type with
  | linear =>
    exact (((StillIso.const 1).translateBy ⟨.zero, .zero, hd.add (.const q)⟩).rotateBy ht (.const _)).translateBy
      ⟨hr, .zero, .zero⟩ |>.rotateBy ha (.const _)
  | revolute =>
    exact (((StillIso.const 1).translateBy ⟨.zero, .zero, hd⟩).rotateBy (ht.add (.const q)) (.const _)).translateBy
      ⟨hr, .zero, .zero⟩ |>.rotateBy ha (.const _)

theorem fkLoopJ_still (ts : List DHTransform) (js : List JV4) (h : ∀ j ∈ js, StillV4 j) (i : Nat) (q : List ℝ) (T J : JIso)
    (hT : StillIso T) (hJ : DHChain.fkLoopJ ts js i q T = .ok J) : StillIso J := by
  induction q generalizing i T with
  | nil =>
    simp only [DHChain.fkLoopJ, Res.ok.injEq] at hJ
    subst hJ; exact hT
  | cons q qs ih =>
    simp only [DHChain.fkLoopJ, Res.bind_ok_iff] at hJ
    obtain ⟨o, ho, t, -, hJ⟩ := hJ
    rw [Res.idxList_ok_iff] at ho
    exact ih (i + 1) _ (hT.mul (relativeJ_still t q (h o (List.mem_of_getElem? ho)))) hJ

theorem getFKJ_still (c : DHChain) (q : List ℝ) (js : List JV4) (h : ∀ j ∈ js, StillV4 j) (J : JIso)
    (hJ : c.getFKJ q js = .ok J) : StillIso J := by
  unfold DHChain.getFKJ at hJ
  split at hJ
  · cases hJ
  split at hJ
  · cases hJ
  exact fkLoopJ_still _ _ h 0 q _ J (.const _) hJ

theorem dhRows_still {m : JMem} (h : ∀ k, Still (m k)) (rows : Nat) : ∀ j ∈ m.dhRows rows, StillV4 j := by
  intro j hj
  obtain ⟨r, -, rfl⟩ := List.mem_map.1 hj
  exact ⟨h _, h _, h _, h _⟩

/-- A fixed transform does not move if its blocks do not, or if only its rotation does and that is zero. -/
theorem kinTransformJ_still {e : ℝ} (he : 0 ≤ e) {t aa : JV3} (ht : StillV3 t)
    (ha : StillV3 aa ∨ (aa.x.a = 0 ∧ aa.y.a = 0 ∧ aa.z.a = 0)) : StillIso (kinTransformJ e t aa) := by
  have hb := (StillIso.const 1).translateBy ht
  unfold kinTransformJ
  by_cases h : aa.norm.a > e
  · rw [if_pos h]
    have hpos : 0 < (aa.dot aa).a := Real.sqrt_pos.1 (lt_of_le_of_lt he h)
    rcases ha with ha | ⟨h1, h2, h3⟩
    · have hn : Still aa.norm := (ha.dot ha).sqrt hpos
      have h0 : aa.norm.a ≠ 0 := (Real.sqrt_pos.2 hpos).ne'
      refine hb.rotateBy hn ?_
      unfold JV3.normalized
      rw [if_pos hpos]
      exact ⟨ha.x.div hn h0, ha.y.div hn h0, ha.z.div hn h0⟩
    · exfalso
      simp [JV3.dot, h1, h2, h3] at hpos
  · rw [if_neg h]
    exact hb

theorem kinCameraToTargetJ_still {e : ℝ} (he : 0 ≤ e) (cc tc : DHChain) (qc qt : List ℝ) (p : Nat → JMem) (b : Nat)
    (hb : b = 3 ∨ b = 5 ∨ b = 7) (h0 : (p b).v3.x.a = 0 ∧ (p b).v3.y.a = 0 ∧ (p b).v3.z.a = 0)
    (hs : ∀ a k, a ≠ b → Still (p a k)) (J : JIso) (hJ : kinCameraToTargetJ e cc tc qc qt p = .ok J) : StillIso J := by
  unfold kinCameraToTargetJ at hJ
  simp only [Res.bind_ok_iff, Res.ok.injEq] at hJ
  obtain ⟨cf, hcf, tf, htf, rfl⟩ := hJ
  have v : ∀ a, a ≠ b → StillV3 (p a).v3 := fun a ha => ⟨hs a 0 ha, hs a 1 ha, hs a 2 ha⟩
  have w : ∀ a, StillV3 (p a).v3 ∨ ((p a).v3.x.a = 0 ∧ (p a).v3.y.a = 0 ∧ (p a).v3.z.a = 0) := by
    intro a
    by_cases ha : a = b
    · subst ha; exact .inr h0
    · exact .inl (v a ha)
  have k1 := kinTransformJ_still he (v 2 (by omega)) (w 3)
  have k2 := kinTransformJ_still he (v 4 (by omega)) (w 5)
  have k3 := kinTransformJ_still he (v 6 (by omega)) (w 7)
  have c1 := getFKJ_still cc qc _ (dhRows_still (fun k => hs 0 k (by omega)) _) cf hcf
  have c2 := getFKJ_still tc qt _ (dhRows_still (fun k => hs 1 k (by omega)) _) tf htf
  exact (c1.mul k1).inv.mul ((k3.mul c2).mul k2)

/-! ## Kinematic calibration: finite -/

structure FinIso (j : JIso) : Prop where
  R : FinM3 j.R
  t : FinV3 j.t

theorem FinM3.const (m : M3) : FinM3 (.const m) := by constructor <;> exact .const _
theorem FinIso.const (T : Iso) : FinIso (.const T) := ⟨.const _, .const _⟩

theorem FinM3.mul {a b : JM3} (ha : FinM3 a) (hb : FinM3 b) : FinM3 (a.mul b) := by
  obtain ⟨a00, a01, a02, a10, a11, a12, a20, a21, a22⟩ := ha
  obtain ⟨b00, b01, b02, b10, b11, b12, b20, b21, b22⟩ := hb
  constructor <;> simp only [JM3.mul] <;> fin_jet

theorem FinM3.tr {a : JM3} (ha : FinM3 a) : FinM3 a.tr :=
  ⟨ha.m00, ha.m10, ha.m20, ha.m01, ha.m11, ha.m21, ha.m02, ha.m12, ha.m22⟩
theorem FinV3.neg {a : JV3} (ha : FinV3 a) : FinV3 a.neg := ⟨ha.x.neg, ha.y.neg, ha.z.neg⟩
theorem FinIso.mul {a b : JIso} (ha : FinIso a) (hb : FinIso b) : FinIso (a.mul b) :=
  ⟨ha.R.mul hb.R, (ha.R.mulVec hb.t).add ha.t⟩
theorem FinIso.inv {a : JIso} (ha : FinIso a) : FinIso a.inv := ⟨ha.R.tr, (ha.R.tr.mulVec ha.t).neg⟩
theorem FinIso.apply {a : JIso} {p : JV3} (ha : FinIso a) (hp : FinV3 p) : FinV3 (a.apply p) := (ha.R.mulVec hp).add ha.t
theorem FinIso.translateBy {a : JIso} {v : JV3} (ha : FinIso a) (hv : FinV3 v) : FinIso (a.translateBy v) :=
  ha.mul ⟨.const 1, hv⟩
theorem FinIso.rotateBy {a : JIso} {g : Jet} {v : JV3} (ha : FinIso a) (hg : FiniteJet g) (hv : FinV3 v) :
    FinIso (a.rotateBy g v) := ha.mul ⟨.ofAngleAxis hg hv, .const 0⟩

structure FinV4 (j : JV4) : Prop where
  d : FiniteJet j.d
  theta : FiniteJet j.theta
  r : FiniteJet j.r
  alpha : FiniteJet j.alpha

theorem relativeJ_finite (t : DHTransform) (q : ℝ) {o : JV4} (h : FinV4 o) : FinIso (t.relativeJ q o) := by
  have hd := (FiniteJet.const t.params.d).add h.d
  have ht := (FiniteJet.const t.params.theta).add h.theta
  have hr := (FiniteJet.const t.params.r).add h.r
  have ha := (FiniteJet.const t.params.alpha).add h.alpha
  unfold DHTransform.relativeJ
  cases t.type with
  | linear =>
    exact (((FinIso.const 1).translateBy ⟨.zero, .zero, hd.add (.const q)⟩).rotateBy ht (.const _)).translateBy
      ⟨hr, .zero, .zero⟩ |>.rotateBy ha (.const _)
  | revolute =>
    exact (((FinIso.const 1).translateBy ⟨.zero, .zero, hd⟩).rotateBy (ht.add (.const q)) (.const _)).translateBy
      ⟨hr, .zero, .zero⟩ |>.rotateBy ha (.const _)

theorem fkLoopJ_finite (ts : List DHTransform) (js : List JV4) (h : ∀ j ∈ js, FinV4 j) (i : Nat) (q : List ℝ) (T J : JIso)
    (hT : FinIso T) (hJ : DHChain.fkLoopJ ts js i q T = .ok J) : FinIso J := by
  induction q generalizing i T with
  | nil =>
    simp only [DHChain.fkLoopJ, Res.ok.injEq] at hJ
    subst hJ; exact hT
  | cons q qs ih =>
    simp only [DHChain.fkLoopJ, Res.bind_ok_iff] at hJ
    obtain ⟨o, ho, t, -, hJ⟩ := hJ
    rw [Res.idxList_ok_iff] at ho
    exact ih (i + 1) _ (hT.mul (relativeJ_finite t q (h o (List.mem_of_getElem? ho)))) hJ

theorem getFKJ_finite (c : DHChain) (q : List ℝ) (js : List JV4) (h : ∀ j ∈ js, FinV4 j) (J : JIso)
    (hJ : c.getFKJ q js = .ok J) : FinIso J := by
  unfold DHChain.getFKJ at hJ
  split at hJ
  · cases hJ
  split at hJ
  · cases hJ
  exact fkLoopJ_finite _ _ h 0 q _ J (.const _) hJ

theorem kinTransformJ_finite {e : ℝ} (he : 0 ≤ e) {t aa : JV3} (ht : FinV3 t) (ha : FinV3 aa) :
    FinIso (kinTransformJ e t aa) := by
  have hb := (FinIso.const 1).translateBy ht
  unfold kinTransformJ
  by_cases h : aa.norm.a > e
  · rw [if_pos h]
    have hpos : 0 < (aa.dot aa).a := Real.sqrt_pos.1 (lt_of_le_of_lt he h)
    exact hb.rotateBy (ha.norm hpos) (ha.normalized hpos)
  · rw [if_neg h]
    exact hb

theorem kinCameraToTargetJ_finite {e : ℝ} (he : 0 ≤ e) (cc tc : DHChain) (qc qt : List ℝ) (p : Nat → JMem)
    (hs : ∀ a k, FiniteJet (p a k)) (J : JIso) (hJ : kinCameraToTargetJ e cc tc qc qt p = .ok J) : FinIso J := by
  unfold kinCameraToTargetJ at hJ
  simp only [Res.bind_ok_iff, Res.ok.injEq] at hJ
  obtain ⟨cf, hcf, tf, htf, rfl⟩ := hJ
  have v : ∀ a, FinV3 (p a).v3 := fun a => ⟨hs a 0, hs a 1, hs a 2⟩
  have rows : ∀ a n, ∀ j ∈ (p a).dhRows n, FinV4 j := by
    intro a n j hj
    obtain ⟨r, -, rfl⟩ := List.mem_map.1 hj
    exact ⟨hs _ _, hs _ _, hs _ _, hs _ _⟩
  exact ((getFKJ_finite cc qc _ (rows 0 _) cf hcf).mul (kinTransformJ_finite he (v 2) (v 3))).inv.mul
    (((kinTransformJ_finite he (v 6) (v 7)).mul (getFKJ_finite tc qt _ (rows 1 _) tf htf)).mul
      (kinTransformJ_finite he (v 4) (v 5)))

structure FinQuat (j : JQuat) : Prop where
  w : FiniteJet j.w
  x : FiniteJet j.x
  y : FiniteJet j.y
  z : FiniteJet j.z

/-- The conversion to a quaternion never takes the square root of zero. -/
theorem toQuatJ_finite {m : JM3} (h : FinM3 m) : FinQuat m.toQuat := by
  obtain ⟨a00, a01, a02, a10, a11, a12, a20, a21, a22⟩ := h
  have htr : FiniteJet m.trace := (a00.add a11).add a22
  have hta : m.trace.a = m.m00.a + m.m11.a + m.m22.a := rfl
  have key : ∀ r : Jet, FiniteJet r → 0 < r.a → FiniteJet (Jet.const (1 / 2) * r.sqrt) ∧
      FiniteJet (Jet.const (1 / 2) / r.sqrt) := fun r hr h0 =>
    ⟨(FiniteJet.const _).mul (hr.sqrt h0), (FiniteJet.const _).div (hr.sqrt h0) (Real.sqrt_pos.2 h0).ne'⟩
  unfold JM3.toQuat
  split
  · rename_i h0
    obtain ⟨k1, k2⟩ := key (m.trace + 1) (htr.add .one) (by rw [Jet.add_a, Jet.one_a]; linarith)
    exact ⟨k1, (a21.sub a12).mul k2, (a02.sub a20).mul k2, (a10.sub a01).mul k2⟩
  rename_i h0
  rw [not_lt, hta] at h0
  split
  · rename_i h1
    split
    · rename_i h2
      obtain ⟨k1, k2⟩ := key (m.m22 - m.m00 - m.m11 + 1) (((a22.sub a00).sub a11).add .one) (by
        simp only [Jet.add_a, Jet.sub_a, Jet.one_a]; linarith)
      exact ⟨(a10.sub a01).mul k2, (a02.add a20).mul k2, (a12.add a21).mul k2, k1⟩
    · rename_i h2
      rw [not_lt] at h2
      obtain ⟨k1, k2⟩ := key (m.m11 - m.m22 - m.m00 + 1) (((a11.sub a22).sub a00).add .one) (by
        simp only [Jet.add_a, Jet.sub_a, Jet.one_a]; linarith)
      exact ⟨(a02.sub a20).mul k2, (a01.add a10).mul k2, k1, (a21.add a12).mul k2⟩
  · rename_i h1
    rw [not_lt] at h1
    split
    · rename_i h2
      obtain ⟨k1, k2⟩ := key (m.m22 - m.m00 - m.m11 + 1) (((a22.sub a00).sub a11).add .one) (by
        simp only [Jet.add_a, Jet.sub_a, Jet.one_a]; linarith)
      exact ⟨(a10.sub a01).mul k2, (a02.add a20).mul k2, (a12.add a21).mul k2, k1⟩
    · rename_i h2
      rw [not_lt] at h2
      obtain ⟨k1, k2⟩ := key (m.m00 - m.m11 - m.m22 + 1) (((a00.sub a11).sub a22).add .one) (by
        simp only [Jet.add_a, Jet.sub_a, Jet.one_a]; linarith)
      exact ⟨(a21.sub a12).mul k2, k1, (a10.add a01).mul k2, (a20.add a02).mul k2⟩

theorem FinQuat.rel {a b : JQuat} (ha : FinQuat a) (hb : FinQuat b) : FinQuat (a.mul b.conj) := by
  obtain ⟨a1, a2, a3, a4⟩ := ha
  obtain ⟨b1, b2, b3, b4⟩ := hb
  constructor <;> simp only [JQuat.mul, JQuat.conj] <;> fin_jet

/-- The derivative of the angle between orientations is finite unless they are equal. -/
theorem angularDistanceJ_finite {a b : JQuat} (ha : FinQuat a) (hb : FinQuat b)
    (h0 : ¬((a.mul b.conj).x.a = 0 ∧ (a.mul b.conj).y.a = 0 ∧ (a.mul b.conj).z.a = 0)) :
    FiniteJet (a.angularDistance b) := by
  have hd := ha.rel hb
  have hv : FinV3 ⟨(a.mul b.conj).x, (a.mul b.conj).y, (a.mul b.conj).z⟩ := ⟨hd.x, hd.y, hd.z⟩
  show FiniteJet (Jet.const 2 * Jet.atan2 (JV3.norm ⟨(a.mul b.conj).x, (a.mul b.conj).y, (a.mul b.conj).z⟩)
    (a.mul b.conj).w.abs)
  generalize a.mul b.conj = d at *
  have hpos : 0 < (JV3.dot ⟨d.x, d.y, d.z⟩ ⟨d.x, d.y, d.z⟩).a := by
    simp only [JV3.dot, Jet.add_a, Jet.mul_a]
    by_contra hle
    exact h0 ⟨by nlinarith [mul_self_nonneg d.x.a, mul_self_nonneg d.y.a, mul_self_nonneg d.z.a],
      by nlinarith [mul_self_nonneg d.x.a, mul_self_nonneg d.y.a, mul_self_nonneg d.z.a],
      by nlinarith [mul_self_nonneg d.x.a, mul_self_nonneg d.y.a, mul_self_nonneg d.z.a]⟩
  obtain ⟨x, hx⟩ := hv.norm hpos
  have habs : FiniteJet d.w.abs := by
    unfold Jet.abs; split
    · exact hd.w.neg
    · exact hd.w
  obtain ⟨y, hy⟩ := habs
  have hn : (JV3.norm ⟨d.x, d.y, d.z⟩).a ≠ 0 := (Real.sqrt_pos.2 hpos).ne'
  have hat : FiniteJet (Jet.atan2 (JV3.norm ⟨d.x, d.y, d.z⟩) d.w.abs) := by
    unfold Jet.atan2 FiniteJet
    rw [if_neg fun h => hn h.2, hx, hy]
    exact ⟨_, rfl⟩

  exact (FiniteJet.const 2).mul hat

/-- At equal orientations it is not finite. -/
theorem angularDistanceJ_aligned {a b : JQuat}
    (h0 : (a.mul b.conj).x.a = 0 ∧ (a.mul b.conj).y.a = 0 ∧ (a.mul b.conj).z.a = 0) : (a.angularDistance b).v = none := by
  show (Jet.const 2 * Jet.atan2 (JV3.norm ⟨(a.mul b.conj).x, (a.mul b.conj).y, (a.mul b.conj).z⟩) _).v = none
  apply Jet.mul_none
  have : (JV3.norm ⟨(a.mul b.conj).x, (a.mul b.conj).y, (a.mul b.conj).z⟩).v = none := by
    apply Jet.sqrt_none
    simp [JV3.dot, h0.1, h0.2.1, h0.2.2]
  unfold Jet.atan2
  simp [this]

/-- The derivative is zero or not finite. -/
def WStill (j : Jet) : Prop := j.v = none ∨ j.v = some 0

namespace WStill
variable {f g : Jet}
theorem of (h : Still f) : WStill f := .inr h
theorem const (x : ℝ) : WStill (.const x) := .inr rfl
theorem one : WStill 1 := .inr rfl
theorem add (hf : WStill f) (hg : WStill g) : WStill (f + g) := by
  unfold WStill at *
  rcases hf with hf | hf <;> rcases hg with hg | hg <;> simp [Jet.add_v, hf, hg]
theorem sub (hf : WStill f) (hg : WStill g) : WStill (f - g) := by
  unfold WStill at *
  rcases hf with hf | hf <;> rcases hg with hg | hg <;> simp [Jet.sub_v, hf, hg]
theorem neg (hf : WStill f) : WStill (-f) := by
  unfold WStill at *
  rcases hf with hf | hf <;> simp [Jet.neg_v, hf]
theorem mul (hf : WStill f) (hg : WStill g) : WStill (f * g) := by
  unfold WStill at *
  rcases hf with hf | hf <;> rcases hg with hg | hg <;> simp [Jet.mul_v, hf, hg]
theorem div (hf : WStill f) (hg : WStill g) : WStill (f / g) := by
  show (if g.a = 0 then none else Option.map₂ _ f.v g.v) = none ∨ (if g.a = 0 then none else Option.map₂ _ f.v g.v) = _
  unfold WStill at *
  split
  · exact .inl rfl
  · rcases hf with hf | hf <;> rcases hg with hg | hg <;> simp [hf, hg]
theorem sqrt (hf : WStill f) : WStill f.sqrt := by
  show (if f.a ≤ 0 then none else _) = _ ∨ (if f.a ≤ 0 then none else _) = _
  unfold WStill at *
  split
  · exact .inl rfl
  · rcases hf with hf | hf <;> simp [hf]
theorem abs (hf : WStill f) : WStill f.abs := by
  unfold Jet.abs; split
  · exact hf.neg
  · exact hf
theorem atan2 (hf : WStill f) (hg : WStill g) : WStill (Jet.atan2 f g) := by
  unfold Jet.atan2 WStill at *
  simp only
  split
  · exact .inl rfl
  · rcases hf with hf | hf <;> rcases hg with hg | hg <;> simp [hf, hg]
end WStill

macro "wstill" : tactic => `(tactic| repeat' first
  | assumption
  | exact WStill.const _
  | exact WStill.one
  | apply WStill.add
  | apply WStill.sub
  | apply WStill.mul
  | apply WStill.div
  | apply WStill.sqrt
  | apply WStill.neg)

structure WStillQuat (j : JQuat) : Prop where
  w : WStill j.w
  x : WStill j.x
  y : WStill j.y
  z : WStill j.z

theorem toQuatJ_still {m : JM3} (h : StillM3 m) : WStillQuat m.toQuat := by
  obtain ⟨a00, a01, a02, a10, a11, a12, a20, a21, a22⟩ := h
  replace a00 := WStill.of a00; replace a01 := WStill.of a01; replace a02 := WStill.of a02
  replace a10 := WStill.of a10; replace a11 := WStill.of a11; replace a12 := WStill.of a12
  replace a20 := WStill.of a20; replace a21 := WStill.of a21; replace a22 := WStill.of a22
  have htr : WStill m.trace := (a00.add a11).add a22
  unfold JM3.toQuat
  split
  · constructor <;> wstill
  split
  · split
    · constructor <;> wstill
    · constructor <;> wstill
  · split
    · constructor <;> wstill
    · constructor <;> wstill

theorem angularDistanceJ_still {a b : JQuat} (ha : WStillQuat a) (hb : WStillQuat b) : WStill (a.angularDistance b) := by
  obtain ⟨a1, a2, a3, a4⟩ := ha
  obtain ⟨b1, b2, b3, b4⟩ := hb
  have hd : WStillQuat (a.mul b.conj) := by
    constructor <;> simp only [JQuat.mul, JQuat.conj] <;> wstill
  obtain ⟨d1, d2, d3, d4⟩ := hd
  show WStill (Jet.const 2 * Jet.atan2 (JV3.norm ⟨_, _, _⟩) _)
  refine (WStill.const 2).mul (WStill.atan2 ?_ d1.abs)
  unfold JV3.norm JV3.dot
  wstill

end RCT
