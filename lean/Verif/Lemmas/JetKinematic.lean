import Verif.Lemmas.JetFunctors
import Verif.Lemmas.Kinematic
import Verif.Lemmas.Loops

/-!
# Jets through the kinematic chains
-/

namespace RCT

open Spec Filter Topology

variable {s : ℝ}

structure TanV4 (f : ℝ → V4) (s : ℝ) (j : JV4) : Prop where
  d : Tan (fun u => (f u).d) s j.d
  theta : Tan (fun u => (f u).theta) s j.theta
  r : Tan (fun u => (f u).r) s j.r
  alpha : Tan (fun u => (f u).alpha) s j.alpha

theorem TanIso.translateBy {f : ℝ → Iso} {i : JIso} {g : ℝ → V3} {j : JV3} (hf : TanIso f s i) (hg : TanV3 g s j) :
    TanIso (fun u => (f u).translateBy (g u)) s (i.translateBy j) :=
  hf.mul ⟨.const 1, hg⟩

theorem TanIso.rotateBy {f : ℝ → Iso} {i : JIso} {a : ℝ → ℝ} {ja : Jet} {w : ℝ → V3} {jw : JV3} (hf : TanIso f s i)
    (ha : Tan a s ja) (hw : TanV3 w s jw) : TanIso (fun u => (f u).rotateBy ⟨a u, w u⟩) s (i.rotateBy ja jw) :=
  hf.mul ⟨.ofAngleAxis ha hw, .const 0⟩

theorem relativeJ_tan (t : DHTransform) (q : ℝ) {o : ℝ → V4} {jo : JV4} (h : TanV4 o s jo) :
    TanIso (fun u => t.relative q (o u)) s (t.relativeJ q jo) := by
  have zero : Tan (fun _ => (0 : ℝ)) s 0 := .const 0 s
  have hd := (Tan.const t.params.d s).add h.d
  have ht := (Tan.const t.params.theta s).add h.theta
  have hr := (Tan.const t.params.r s).add h.r
  have ha := (Tan.const t.params.alpha s).add h.alpha
  unfold DHTransform.relative DHTransform.relativeJ
  cases t.type with
  | linear =>
    exact (((TanIso.const 1).translateBy ⟨zero, zero, hd.add (.const q s)⟩).rotateBy ht (.const _)).translateBy
      ⟨hr, zero, zero⟩ |>.rotateBy ha (.const _)
  | revolute =>
    exact (((TanIso.const 1).translateBy ⟨zero, zero, hd⟩).rotateBy (ht.add (.const q s)) (.const _)).translateBy
      ⟨hr, zero, zero⟩ |>.rotateBy ha (.const _)

theorem fkLoopJ_tan (ts : List DHTransform) (fs : List (ℝ → V4)) (js : List JV4)
    (h : List.Forall₂ (fun f j => TanV4 f s j) fs js) (i : Nat) (q : List ℝ) (T : ℝ → Iso) (TJ J : JIso)
    (hT : TanIso T s TJ) (hJ : DHChain.fkLoopJ ts js i q TJ = .ok J) :
    ∃ F : ℝ → Iso, (∀ u, DHChain.fkLoop ts (fs.map fun f => f u) i q (T u) = .ok (F u)) ∧ TanIso F s J := by
  induction q generalizing i T TJ with
  | nil =>
    simp only [DHChain.fkLoopJ, Res.ok.injEq] at hJ
    subst hJ
    exact ⟨T, fun u => rfl, hT⟩
  | cons q qs ih =>
    simp only [DHChain.fkLoopJ, Res.bind_ok_iff] at hJ
    obtain ⟨o, ho, t, ht, hJ⟩ := hJ
    rw [Res.idxList_ok_iff] at ho
    obtain ⟨hl, hf⟩ := List.forall₂_iff_get.1 h
    obtain ⟨hi, hoi⟩ := List.getElem?_eq_some_iff.1 ho
    have hio : TanV4 (fs[i]'(by rw [hl]; exact hi)) s o := by
      rw [← hoi]; exact hf i (by rw [hl]; exact hi) hi
    obtain ⟨F, hF, hFJ⟩ := ih (i + 1) _ _ (hT.mul (relativeJ_tan t q hio)) hJ
    refine ⟨F, fun u => ?_, hFJ⟩
    simp only [DHChain.fkLoop, Res.bind_ok_iff]
    refine ⟨(fs[i]'(by rw [hl]; exact hi)) u, ?_, t, ht, hF u⟩
    rw [Res.idxList_ok_iff, List.getElem?_map, List.getElem?_eq_getElem (by rw [hl]; exact hi)]
    rfl

theorem getFKJ_tan (c : DHChain) (q : List ℝ) (fs : List (ℝ → V4)) (js : List JV4)
    (h : List.Forall₂ (fun f j => TanV4 f s j) fs js) (J : JIso) (hJ : c.getFKJ q js = .ok J) :
    ∃ F : ℝ → Iso, (∀ u, c.getFK q (fs.map fun f => f u) = .ok (F u)) ∧ TanIso F s J := by
  unfold DHChain.getFKJ at hJ
  split at hJ
  · cases hJ
  split at hJ
  · cases hJ
  rename_i h1 h2
  obtain ⟨F, hF, hFJ⟩ := fkLoopJ_tan c.transforms fs js h 0 q _ _ J (TanIso.const c.base) hJ
  refine ⟨F, fun u => ?_, hFJ⟩
  unfold DHChain.getFK
  rw [if_neg h1, if_neg (by rw [List.length_map, h.length_eq]; exact h2)]
  exact hF u

/-- Parameter blocks described by jets. -/
def TanMem (f : ℝ → Nat → Mem) (s : ℝ) (j : Nat → JMem) : Prop := ∀ a k, Tan (fun u => f u a k) s (j a k)

theorem TanMem.v3 {f : ℝ → Nat → Mem} {j : Nat → JMem} (h : TanMem f s j) (a : Nat) :
    TanV3 (fun u => (f u a).v3) s (j a).v3 := ⟨h a 0, h a 1, h a 2⟩

theorem TanMem.dhRows {f : ℝ → Nat → Mem} {j : Nat → JMem} (h : TanMem f s j) (a rows : Nat) :
    ∃ fs : List (ℝ → V4), (∀ u, (f u a).dhRows rows = fs.map fun g => g u) ∧
      List.Forall₂ (fun g j => TanV4 g s j) fs ((j a).dhRows rows) := by
  refine ⟨(List.range rows).map fun r u => ⟨f u a r, f u a (rows + r), f u a (2 * rows + r), f u a (3 * rows + r)⟩, ?_, ?_⟩
  · intro u; simp [Mem.dhRows]
  · unfold JMem.dhRows
    rw [List.forall₂_map_left_iff, List.forall₂_map_right_iff, List.forall₂_same]
    intro r _
    exact ⟨h _ _, h _ _, h _ _, h _ _⟩

/-- The rotation of a fixed transform is on the same side of all thresholds, or exactly zero. -/
def AngleClear (e : ℝ) (aa : V3) : Prop := (dblEps < aa.norm ∧ e < aa.norm) ∨ (aa.norm < dblEps ∧ aa.norm ≤ e)

theorem kinTransformJ_tan {e : ℝ} (he : 0 ≤ e) {t aa : ℝ → V3} {jt ja : JV3} (ht : TanV3 t s jt) (ha : TanV3 aa s ja)
    (hc : AngleClear e (aa s)) : TanIso (fun u => kinTransform (t u) (aa u)) s (kinTransformJ e jt ja) := by
  have hbase := (TanIso.const (s := s) 1).translateBy ht
  have hn := ha.norm
  have hv : (aa s).norm = ja.norm.a := hn.val
  rcases hc with ⟨h1, h2⟩ | ⟨h1, h2⟩ <;> rw [hv] at h1 h2
  · have hpos : 0 < (ja.dot ja).a := Real.sqrt_pos.1 (lt_of_le_of_lt he h2)
    have hj : kinTransformJ e jt ja = ((JIso.const 1).translateBy jt).rotateBy ja.norm ja.normalized := by
      unfold kinTransformJ; rw [if_pos h2]
    rw [hj]
    refine (hbase.rotateBy hn (ha.normalized hpos)).congr ((hn.eventually_gt h1).mono fun u hu => ?_)
    dsimp only
    unfold kinTransform
    rw [if_pos hu]
  · have hj : kinTransformJ e jt ja = (JIso.const 1).translateBy jt := by
      unfold kinTransformJ; rw [if_neg (not_lt.2 h2)]
    rw [hj]
    refine hbase.congr ((hn.eventually_lt h1).mono fun u hu => ?_)
    dsimp only
    unfold kinTransform
    rw [if_neg (not_lt.2 hu.le)]

theorem kinCameraToTargetJ_tan {e : ℝ} (he : 0 ≤ e) (cc tc : DHChain) (qc qt : List ℝ) {p : ℝ → Nat → Mem}
    {jp : Nat → JMem} (hp : TanMem p s jp) (hc : ∀ a, a = 3 ∨ a = 5 ∨ a = 7 → AngleClear e (p s a).v3) (J : JIso)
    (hJ : kinCameraToTargetJ e cc tc qc qt jp = .ok J) :
    ∃ F : ℝ → Iso, (∀ u, kinCameraToTarget cc tc qc qt (p u) = .ok (F u)) ∧ TanIso F s J := by
  unfold kinCameraToTargetJ at hJ
  simp only [Res.bind_ok_iff, Res.ok.injEq] at hJ
  obtain ⟨cf, hcf, tf, htf, rfl⟩ := hJ
  obtain ⟨gs, hg, hgt⟩ := hp.dhRows 0 cc.dof
  obtain ⟨gs', hg', hgt'⟩ := hp.dhRows 1 tc.dof
  obtain ⟨C, hC, hCt⟩ := getFKJ_tan cc qc gs _ hgt cf hcf
  obtain ⟨D, hD, hDt⟩ := getFKJ_tan tc qt gs' _ hgt' tf htf
  have k1 := kinTransformJ_tan he (hp.v3 2) (hp.v3 3) (hc 3 (.inl rfl))
  have k2 := kinTransformJ_tan he (hp.v3 4) (hp.v3 5) (hc 5 (.inr (.inl rfl)))
  have k3 := kinTransformJ_tan he (hp.v3 6) (hp.v3 7) (hc 7 (.inr (.inr rfl)))
  refine ⟨_, fun u => ?_, (hCt.mul k1).inv.mul ((k3.mul hDt).mul k2)⟩
  unfold kinCameraToTarget
  simp only [hg u, hg' u, hC u, hD u, Res.ok_bind]

/-! ## Orientation difference -/

structure TanQuat (f : ℝ → Quat) (s : ℝ) (j : JQuat) : Prop where
  w : Tan (fun u => (f u).w) s j.w
  x : Tan (fun u => (f u).x) s j.x
  y : Tan (fun u => (f u).y) s j.y
  z : Tan (fun u => (f u).z) s j.z

theorem TanQuat.congr {f g : ℝ → Quat} {j : JQuat} (h : TanQuat f s j) (he : g =ᶠ[𝓝 s] f) : TanQuat g s j :=
  ⟨h.w.congr (he.mono fun u hu => by simp only [hu]), h.x.congr (he.mono fun u hu => by simp only [hu]),
    h.y.congr (he.mono fun u hu => by simp only [hu]), h.z.congr (he.mono fun u hu => by simp only [hu])⟩

/-- The branch that the conversion of a matrix to a quaternion takes is the same for all matrices nearby. -/
def BranchClear (m : M3) : Prop :=
  0 < m.trace ∨ (m.trace < 0 ∧ m.m00 ≠ m.m11 ∧ m.m11 ≠ m.m22 ∧ m.m00 ≠ m.m22)

theorem toQuatJ_tan {f : ℝ → M3} {j : JM3} (h : TanM3 f s j) (hb : BranchClear (f s)) :
    TanQuat (fun u => (f u).toQuat) s j.toQuat := by
  have hcopy := h
  have htr := h.trace
  have one : Tan (fun _ => (1 : ℝ)) s 1 := .const 1 s
  have half : Tan (fun _ => (1 / 2 : ℝ)) s (Jet.const (1 / 2)) := .const _ s
  have vtr : (f s).trace = j.trace.a := htr.val
  have vtr2 : j.trace.a = j.m00.a + j.m11.a + j.m22.a := rfl
  obtain ⟨a00, a01, a02, a10, a11, a12, a20, a21, a22⟩ := h
  have v0 := a00.val
  have v1 := a11.val
  have v2 := a22.val
  have scale : ∀ {q t : ℝ → ℝ} {jq jt : Jet}, Tan q s jq → Tan t s jt → jt.a ≠ 0 →
      Tan (fun u => q u * ((1 / 2) / t u)) s (jq * (Jet.const (1 / 2) / jt)) := fun hq ht h0 => hq.mul (half.div ht h0)
  have halfs : ∀ {t : ℝ → ℝ} {jt : Jet}, Tan t s jt → Tan (fun u => t u / 2) s (Jet.const (1 / 2) * jt) := by
    intro t jt ht
    exact (half.mul ht).congr (Eventually.of_forall fun u => by simp only; ring)
  rcases hb with hp | ⟨hneg, h01, h12, h02⟩
  · rw [vtr] at hp
    have ht := (htr.add one).sqrt
    have ht0 : (j.trace + 1).sqrt.a ≠ 0 := (Real.sqrt_pos.2 (by simp; linarith)).ne'
    unfold JM3.toQuat
    rw [if_pos hp]
    refine TanQuat.congr ⟨halfs ht, scale (a21.sub a12) ht ht0, scale (a02.sub a20) ht ht0, scale (a10.sub a01) ht ht0⟩
      (f := fun u => ⟨_, _, _, _⟩) ((htr.eventually_gt hp).mono fun u hu => ?_)
    dsimp only
    unfold M3.toQuat
    rw [if_pos hu]
  · rw [vtr] at hneg
    rw [v0, v1] at h01
    rw [v1, v2] at h12
    rw [v0, v2] at h02
    have evneg := htr.eventually_lt hneg
    have hsum : j.m00.a + j.m11.a + j.m22.a < 0 := hneg
    have cmp : ∀ {f g : ℝ → ℝ} {i k : Jet}, Tan f s i → Tan g s k → k.a < i.a → ∀ᶠ u in 𝓝 s, g u < f u := by
      intro f g i k hf hg hlt
      exact hg.cont.eventually_lt hf.cont (by rw [hf.val, hg.val]; exact hlt)
    unfold JM3.toQuat
    rw [if_neg (not_lt.2 hneg.le)]
    rcases lt_or_gt_of_ne h01 with h | h
    · rw [if_pos h]
      rcases lt_or_gt_of_ne h12 with h' | h'
      · rw [if_pos h']
        have ht := (((a22.sub a00).sub a11).add one).sqrt
        have ht0 : (j.m22 - j.m00 - j.m11 + 1).sqrt.a ≠ 0 := (Real.sqrt_pos.2 (by simp; linarith)).ne'
        refine TanQuat.congr ⟨scale (a10.sub a01) ht ht0, scale (a02.add a20) ht ht0, scale (a12.add a21) ht ht0, halfs ht⟩
          (f := fun u => ⟨_, _, _, _⟩) ?_
        filter_upwards [evneg, cmp a11 a00 h, cmp a22 a11 h'] with u h1 h2 h3
        unfold M3.toQuat
        rw [if_neg (not_lt.2 h1.le), if_pos h2, if_pos h3]
      · rw [if_neg (not_lt.2 h'.le)]
        have ht := (((a11.sub a22).sub a00).add one).sqrt
        have ht0 : (j.m11 - j.m22 - j.m00 + 1).sqrt.a ≠ 0 := (Real.sqrt_pos.2 (by simp; linarith)).ne'
        refine TanQuat.congr ⟨scale (a02.sub a20) ht ht0, scale (a01.add a10) ht ht0, halfs ht, scale (a21.add a12) ht ht0⟩
          (f := fun u => ⟨_, _, _, _⟩) ?_
        filter_upwards [evneg, cmp a11 a00 h, cmp a11 a22 h'] with u h1 h2 h3
        unfold M3.toQuat
        rw [if_neg (not_lt.2 h1.le), if_pos h2, if_neg (not_lt.2 h3.le)]
    · rw [if_neg (not_lt.2 h.le)]
      rcases lt_or_gt_of_ne h02 with h' | h'
      · rw [if_pos h']
        have ht := (((a22.sub a00).sub a11).add one).sqrt
        have ht0 : (j.m22 - j.m00 - j.m11 + 1).sqrt.a ≠ 0 := (Real.sqrt_pos.2 (by simp; linarith)).ne'
        refine TanQuat.congr ⟨scale (a10.sub a01) ht ht0, scale (a02.add a20) ht ht0, scale (a12.add a21) ht ht0, halfs ht⟩
          (f := fun u => ⟨_, _, _, _⟩) ?_
        filter_upwards [evneg, cmp a00 a11 h, cmp a22 a00 h'] with u h1 h2 h3
        unfold M3.toQuat
        rw [if_neg (not_lt.2 h1.le), if_neg (not_lt.2 h2.le), if_pos h3]
      · rw [if_neg (not_lt.2 h'.le)]
        have ht := (((a00.sub a11).sub a22).add one).sqrt
        have ht0 : (j.m00 - j.m11 - j.m22 + 1).sqrt.a ≠ 0 := (Real.sqrt_pos.2 (by simp; linarith)).ne'
        refine TanQuat.congr ⟨scale (a21.sub a12) ht ht0, halfs ht, scale (a10.add a01) ht ht0, scale (a20.add a02) ht ht0⟩
          (f := fun u => ⟨_, _, _, _⟩) ?_
        filter_upwards [evneg, cmp a00 a11 h, cmp a00 a22 h'] with u h1 h2 h3
        unfold M3.toQuat
        rw [if_neg (not_lt.2 h1.le), if_neg (not_lt.2 h2.le), if_neg (not_lt.2 h3.le)]

theorem angularDistanceJ_tan {f g : ℝ → Quat} {i j : JQuat} (hf : TanQuat f s i) (hg : TanQuat g s j)
    (hw : (i.mul j.conj).w.a ≠ 0) :
    Tan (fun u => (f u).angularDistance (g u)) s (i.angularDistance j) := by
  have two : Tan (fun _ => (2 : ℝ)) s (Jet.const 2) := .const 2 s
  have hd : TanQuat (fun u => f u * (g u).conj) s (i.mul j.conj) := by
    obtain ⟨a1, a2, a3, a4⟩ := hf
    obtain ⟨b1, b2, b3, b4⟩ := hg
    constructor <;> simp only [Quat.mul_def, Quat.conj, JQuat.mul, JQuat.conj] <;> tan
  have hv : TanV3 (fun u => (f u * (g u).conj).vec) s ⟨(i.mul j.conj).x, (i.mul j.conj).y, (i.mul j.conj).z⟩ :=
    ⟨hd.x, hd.y, hd.z⟩
  exact two.mul (Tan.atan2 hv.norm (hd.w.abs hw) (by rw [Jet.abs_a]; exact abs_pos.2 hw))

end RCT
