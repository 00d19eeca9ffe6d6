import Verif.Spec.Rounded
import Verif.Lemmas.RoundedTurn
import Verif.Lemmas.Kinematic
import Verif.Props.Near
import Verif.Model.StaticCameras
import Verif.Model.HandEye
import Verif.Model.PnP

/-!
# C229 Residuals in double arithmetic
-/

namespace RCT

open Spec

/-! ## One transform -/

theorem turnedBy_eq {r : V3} {R : M3} (h : IsRotVec r R) (p : V3) : turnedBy r p = R.mulVec p := by
  obtain ⟨u, th, ⟨hu, hR⟩, rfl⟩ := h
  rw [hR]
  unfold turnedBy
  have hn : (V3.smul th u).norm = |th| := V3.norm_smul_unit hu th
  rw [hn]
  rcases lt_trichotomy th 0 with h | rfl | h
  · have e : V3.smul (1 / |th|) (V3.smul th u) = V3.smul (-1) u := by
      rw [abs_of_neg h]
      have := h.ne
      ext <;> (simp only [V3.smul]; field_simp)
    rw [e, abs_of_neg h, Real.cos_neg, Real.sin_neg]
    ext <;> (simp only [V3.smul, V3.cross, V3.dot, V3.add_x, V3.add_y, V3.add_z]; ring)
  · ext <;> simp [V3.smul, V3.dot]
  · have e : V3.smul (1 / |th|) (V3.smul th u) = u := by
      rw [abs_of_pos h]
      ext <;> (simp only [V3.smul]; field_simp)
    rw [e, abs_of_pos h]

theorem Describes.rigid {p : Pose6} {T : Iso} (h : Describes p T) : T.IsRigid := IsRotVec.rot h.1

namespace Double

variable {D : Double}

/-- A point moved as six values say. -/
theorem WF.move (hD : D.WF) {p : Pose6} {T : Iso} (hp : Describes p T) (h7 : NoTwist p) {q : V3} {S : ℝ} (hq : q.norm ≤ S)
    (hT : (T.apply q).norm ≤ S) : (D.transformPoint p q - T.apply q).norm ≤ 996 * (dblUnit * S) := by
  have hS : 0 ≤ S := (V3.norm_nonneg q).trans hq
  have hu := dblUnit_pos
  have h := hD.turn (r := ⟨p.rx, p.ry, p.rz⟩) h7 hq
  rw [turnedBy_eq hp.1] at h
  have e : T.apply q = T.R.mulVec q + ⟨p.x, p.y, p.z⟩ := by rw [← hp.2]; rfl
  rw [e] at hT ⊢
  have key : ∀ {a' a b : ℝ}, |a' - a| ≤ 330 * (dblUnit * S) → |a + b| ≤ S → |D.add a' b - (a + b)| ≤ 332 * (dblUnit * S) := by
    intro a' a b h1 h2
    have := hD.add_step (Z := 1) hS h1 (exact_step b S) (by simpa using h2) (by norm_num) (by norm_num)
    exact this.trans (mul_le_mul_of_nonneg_right (by norm_num) (by positivity))
  have hx := key h.1 ((V3.abs_x_le _).trans hT)
  have hy := key h.2.1 ((V3.abs_y_le _).trans hT)
  have hz := key h.2.2 ((V3.abs_z_le _).trans hT)
  refine (V3.norm_le_abs _).trans ?_
  unfold Double.transformPoint
  simp only [V3.sub_x, V3.sub_y, V3.sub_z, V3.add_x, V3.add_y, V3.add_z]
  linarith

/-- A point that is itself known up to rounding. -/
theorem WF.step (hD : D.WF) {p : Pose6} {T : Iso} (hp : Describes p T) (h7 : NoTwist p) {q q' : V3} {S K : ℝ} (hq : q.norm ≤ S)
    (hT : (T.apply q).norm ≤ S) (hK : 0 ≤ K ∧ K ≤ 10000) (h : (q' - q).norm ≤ K * (dblUnit * S)) :
    (D.transformPoint p q' - T.apply q).norm ≤ (K + 1000) * (dblUnit * S) := by
  have hS : 0 ≤ S := (V3.norm_nonneg q).trans hq
  have hu := dblUnit_pos
  have hu' := dblUnit_le
  have hE : K * (dblUnit * S) ≤ 1 / 1000 * S := by
    have : K * dblUnit ≤ 1 / 1000 := by nlinarith [hK.1, hK.2]
    calc K * (dblUnit * S) = (K * dblUnit) * S := by ring
      _ ≤ _ := mul_le_mul_of_nonneg_right this hS
  have hd : (T.apply q' - T.apply q).norm = (q' - q).norm := by
    have : T.apply q' - T.apply q = T.R.mulVec (q' - q) := by
      unfold Iso.apply M3.mulVec; ext <;> simp <;> ring
    rw [this, M3.IsRot.norm (Describes.rigid hp)]
  have h1 : q'.norm ≤ 1001 / 1000 * S := by have := V3.norm_le_sub q' q; linarith
  have h2 : (T.apply q').norm ≤ 1001 / 1000 * S := by have := V3.norm_le_sub (T.apply q') (T.apply q); linarith
  have h3 := hD.move hp h7 h1 h2
  have h4 := V3.norm_sub_le (D.transformPoint p q') (T.apply q') (T.apply q)
  have : 0 ≤ dblUnit * S := by positivity
  nlinarith

/-- One coordinate of a pixel. -/
theorem WF.coordinate (hD : D.WF) {x x' z z' f c o F S : ℝ} (hz : z ≠ 0) (hxz : |x| ≤ |z|) (hS : S ≤ 100 * |z|) (hS0 : 0 ≤ S)
    (hx : |x' - x| ≤ 4000 * (dblUnit * S)) (hz' : |z' - z| ≤ 4000 * (dblUnit * S)) (hf : |f| ≤ F) (hc : |c| ≤ F) (ho : |o| ≤ F) :
    z' ≠ 0 ∧ |D.sub (D.add (D.mul f (D.div x' z')) c) o - (f * (x / z) + c - o)| ≤ 820000 * (dblUnit * F) := by
  have hu := dblUnit_pos
  have hu' := dblUnit_le
  have hF : 0 ≤ F := (abs_nonneg f).trans hf
  have hz0 : 0 < |z| := abs_pos.2 hz
  have hE : 4000 * (dblUnit * S) ≤ 400000 * (dblUnit * |z|) := by nlinarith
  have hzz : 99 / 100 * |z| ≤ |z'| := by
    have : |z| ≤ |z'| + |z' - z| := by
      have := abs_sub_abs_le_abs_sub z z'; rw [abs_sub_comm] at this; linarith
    nlinarith
  have hz'0 : 0 < |z'| := by linarith
  have hne : z' ≠ 0 := abs_pos.1 hz'0
  refine ⟨hne, ?_⟩
  have hq1 : |x / z| ≤ 1 := by rw [abs_div, div_le_one hz0]; exact hxz
  have hq : |x' / z' - x / z| ≤ 809000 * dblUnit := by
    have e : x' / z' - x / z = ((x' - x) - x / z * (z' - z)) / z' := by field_simp; ring
    rw [e, abs_div, div_le_iff₀ hz'0]
    have t1 : |x / z * (z' - z)| ≤ 1 * (4000 * (dblUnit * S)) := by
      rw [abs_mul]; exact mul_le_mul hq1 hz' (abs_nonneg _) (by norm_num)
    have t2 : |(x' - x) - x / z * (z' - z)| ≤ |x' - x| + |x / z * (z' - z)| := abs_sub _ _
    have : 0 < dblUnit * |z| := by positivity
    have t3 : dblUnit * (99 / 100 * |z|) ≤ dblUnit * |z'| := mul_le_mul_of_nonneg_left hzz hu.le
    nlinarith
  have hr : |D.div x' z' - x / z| ≤ 810000 * dblUnit := by
    have h1 := hD.rnd_err (x' / z')
    have h2 : |x' / z'| ≤ 2 := by
      have := abs_add_le (x / z) (x' / z' - x / z)
      rw [add_sub_cancel] at this
      nlinarith
    have h3 : |D.div x' z' - x / z| ≤ |D.rnd (x' / z') - x' / z'| + |x' / z' - x / z| := abs_sub_le _ _ _
    nlinarith
  have h1 : |D.mul f (D.div x' z') - f * (x / z)| ≤ 810002 * (dblUnit * F) := by
    have := hD.mul_step (X := 1) (Y := 1) (β := 0) hF hr hq1 (exact_step f F) (by simpa using hf) (by norm_num) (by norm_num) (by norm_num) (by norm_num)
    unfold Double.mul at this ⊢
    rw [mul_comm f, mul_comm f]
    exact this.trans (mul_le_mul_of_nonneg_right (by norm_num) (by positivity))
  have b1 : |f * (x / z)| ≤ F := by
    rw [abs_mul]; have := mul_le_mul hf hq1 (abs_nonneg _) hF; linarith
  have b2 : |f * (x / z) + c| ≤ 2 * F := (abs_add_le _ _).trans (by linarith)
  have h2 := hD.add_step (Z := 2) hF h1 (exact_step c F) b2 (by norm_num) (by norm_num)
  have h3 := hD.sub_step (Z := 3) hF h2 (exact_step o F) ((abs_sub _ _).trans (by linarith)) (by norm_num) (by norm_num)
  exact h3.trans (mul_le_mul_of_nonneg_right (by norm_num) (by positivity))

/-- The residual of a pixel. -/
theorem WF.pixel (hD : D.WF) {F S : ℝ} {i : Intr} {obs : V2} {c c' : V3} (hu : Usual F S i obs c) (hS0 : 0 ≤ S)
    (h : (c' - c).norm ≤ 4000 * (dblUnit * S)) :
    PixelErrorUpTo F (D.pixelResidual i c' obs) (pinhole i c) obs := by
  have hF : 0 ≤ F := (abs_nonneg _).trans hu.fx
  have fin : 820000 * (dblUnit * F) ≤ F / 10 ^ 10 := by
    have : 820000 * dblUnit ≤ 1 / 10 ^ 10 := by unfold dblUnit; norm_num
    calc 820000 * (dblUnit * F) = (820000 * dblUnit) * F := by ring
      _ ≤ 1 / 10 ^ 10 * F := mul_le_mul_of_nonneg_right this hF
      _ = _ := by ring
  obtain ⟨hz, hx⟩ := hD.coordinate hu.front hu.x hu.near hS0 ((V3.abs_x_le _).trans h) ((V3.abs_z_le _).trans h) hu.fx hu.cx hu.u
  obtain ⟨-, hy⟩ := hD.coordinate hu.front hu.y hu.near hS0 ((V3.abs_y_le _).trans h) ((V3.abs_z_le _).trans h) hu.fy hu.cy hu.v
  refine ⟨D.sub (D.add (D.mul i.fx (D.div c'.x c'.z)) i.cx) obs.x, D.sub (D.add (D.mul i.fy (D.div c'.y c'.z)) i.cy) obs.y, ?_, hx.trans fin, hy.trans fin⟩
  unfold Double.pixelResidual Double.projectPoint
  simp only [if_neg hz]

/-- Three transforms. -/
theorem WF.three (hD : D.WF) {p₁ p₂ p₃ : Pose6} {T₁ T₂ T₃ : Iso} (h₁ : Describes p₁ T₁) (h₂ : Describes p₂ T₂) (h₃ : Describes p₃ T₃)
    (n₁ : NoTwist p₁) (n₂ : NoTwist p₂) (n₃ : NoTwist p₃) {q : V3} {S : ℝ} (hS : ∀ r ∈ way [T₁, T₂, T₃] q, r.norm ≤ S) :
    (D.transformPoint p₃ (D.transformPoint p₂ (D.transformPoint p₁ q)) - (T₃ * (T₂ * T₁)).apply q).norm ≤ 3000 * (dblUnit * S) := by
  simp only [way, List.forall_mem_cons] at hS
  obtain ⟨s0, s1, s2, s3, -⟩ := hS
  have z : (q - q).norm ≤ 0 * (dblUnit * S) := by
    refine (V3.norm_le_abs _).trans ?_
    simp
  have a := hD.step h₁ n₁ s0 s1 (by norm_num) z
  have b := hD.step h₂ n₂ s1 s2 (by norm_num) a
  have c := hD.step h₃ n₃ s2 s3 (by norm_num) b
  rw [Iso.apply_mul, Iso.apply_mul]
  norm_num at c
  exact c

/-- Four transforms. -/
theorem WF.four (hD : D.WF) {p₁ p₂ p₃ p₄ : Pose6} {T₁ T₂ T₃ T₄ : Iso} (h₁ : Describes p₁ T₁) (h₂ : Describes p₂ T₂) (h₃ : Describes p₃ T₃)
    (h₄ : Describes p₄ T₄) (n₁ : NoTwist p₁) (n₂ : NoTwist p₂) (n₃ : NoTwist p₃) (n₄ : NoTwist p₄) {q : V3} {S : ℝ}
    (hS : ∀ r ∈ way [T₁, T₂, T₃, T₄] q, r.norm ≤ S) :
    (D.transformPoint p₄ (D.transformPoint p₃ (D.transformPoint p₂ (D.transformPoint p₁ q))) - (T₄ * (T₃ * (T₂ * T₁))).apply q).norm
      ≤ 4000 * (dblUnit * S) := by
  have a := hD.three h₁ h₂ h₃ n₁ n₂ n₃ (q := q) (S := S) (fun r hr => hS r (by simp only [way, List.mem_cons] at hr ⊢; tauto))
  simp only [way, List.forall_mem_cons] at hS
  obtain ⟨s0, s1, s2, s3, s4, -⟩ := hS
  have b := hD.step h₄ n₄ (by simpa only [Iso.apply_mul] using s3) (by simpa only [Iso.apply_mul] using s4) (by norm_num) a
  rw [Iso.apply_mul]
  norm_num at b
  exact b

/-- Two transforms. -/
theorem WF.two (hD : D.WF) {p₁ p₂ : Pose6} {T₁ T₂ : Iso} (h₁ : Describes p₁ T₁) (h₂ : Describes p₂ T₂)
    (n₁ : NoTwist p₁) (n₂ : NoTwist p₂) {q : V3} {S : ℝ} (hS : ∀ r ∈ way [T₁, T₂] q, r.norm ≤ S) :
    (D.transformPoint p₂ (D.transformPoint p₁ q) - (T₂ * T₁).apply q).norm ≤ 2000 * (dblUnit * S) := by
  simp only [way, List.forall_mem_cons] at hS
  obtain ⟨s0, s1, s2, -⟩ := hS
  have z : (q - q).norm ≤ 0 * (dblUnit * S) := by
    refine (V3.norm_le_abs _).trans ?_
    simp
  have a := hD.step h₁ n₁ s0 s1 (by norm_num) z
  have b := hD.step h₂ n₂ s1 s2 (by norm_num) a
  rw [Iso.apply_mul]
  norm_num at b
  exact b

theorem grow {S K : ℝ} (hS : 0 ≤ S) (hK : K ≤ 4000) : K * (dblUnit * S) ≤ 4000 * (dblUnit * S) :=
  mul_le_mul_of_nonneg_right hK (mul_nonneg dblUnit_pos.le hS)

end Double

/-! ## Property C229 -/

/-- C229: hand eye calibration from images. -/
theorem C229_hand_eye {D : Double} (hD : D.WF) {pCam pBase pMount pTgt : Pose6} {cam base mount tgt : Iso} (hc : Describes pCam cam)
    (hb : Describes pBase base) (hm : Describes pMount mount) (ht : Describes pTgt tgt) (nc : NoTwist pCam) (nb : NoTwist pBase)
    (nm : NoTwist pMount) (nt : NoTwist pTgt) {pt : V3} {S F : ℝ} (hS : ∀ r ∈ way [tgt, mount, base, cam] pt, r.norm ≤ S) {i : Intr} {obs : V2}
    (hu : Usual F S i obs ((cam * (base * (mount * tgt))).apply pt)) :
    PixelErrorUpTo F (D.handEyeCost2 obs pBase pMount pt i pCam pTgt) (pinhole i ((cam * (base * (mount * tgt))).apply pt)) obs :=
  hD.pixel hu ((V3.norm_nonneg pt).trans (hS pt (by simp [way]))) (hD.four ht hm hb hc nt nm nb nc hS)

/-- C229: hand eye calibration from points in space. -/
theorem C229_hand_eye_3d {D : Double} (hD : D.WF) {pCam pBase pMount pTgt : Pose6} {cam base mount tgt : Iso} (hc : Describes pCam cam)
    (hb : Describes pBase base) (hm : Describes pMount mount) (ht : Describes pTgt tgt) (nc : NoTwist pCam) (nb : NoTwist pBase)
    (nm : NoTwist pMount) (nt : NoTwist pTgt) {pt : V3} {S : ℝ} (hS : ∀ r ∈ way [tgt, mount, base, cam] pt, r.norm ≤ S) {obs : V3}
    (ho : obs.norm ≤ S) :
    ∃ e : V3, D.handEyeCost3 obs pBase pMount pt pCam pTgt = [e.x, e.y, e.z] ∧
      (e - ((cam * (base * (mount * tgt))).apply pt - obs)).norm ≤ S / 10 ^ 11 := by
  have h := hD.four ht hm hb hc nt nm nb nc hS
  have hS0 : 0 ≤ S := (V3.norm_nonneg pt).trans (hS pt (by simp [way]))
  have hl : ((cam * (base * (mount * tgt))).apply pt).norm ≤ S := by
    have := hS (cam.apply (base.apply (mount.apply (tgt.apply pt)))) (by simp [way])
    simpa only [Iso.apply_mul] using this
  set c := (cam * (base * (mount * tgt))).apply pt
  set c' := D.transformPoint pCam (D.transformPoint pBase (D.transformPoint pMount (D.transformPoint pTgt pt))) with hc'
  refine ⟨⟨D.sub c'.x obs.x, D.sub c'.y obs.y, D.sub c'.z obs.z⟩, rfl, ?_⟩
  have key : ∀ {a' a b : ℝ}, |a' - a| ≤ 4000 * (dblUnit * S) → |a| ≤ S → |b| ≤ S → |D.sub a' b - (a - b)| ≤ 4003 * (dblUnit * S) := by
    intro a' a b h1 h2 h3
    have := hD.sub_step (Z := 2) hS0 h1 (Double.exact_step b S) ((abs_sub _ _).trans (by linarith)) (by norm_num) (by norm_num)
    exact this.trans (mul_le_mul_of_nonneg_right (by norm_num) (mul_nonneg dblUnit_pos.le hS0))
  have hx := key (a' := c'.x) (a := c.x) (b := obs.x) ((V3.abs_x_le _).trans h) ((V3.abs_x_le _).trans hl) ((V3.abs_x_le _).trans ho)
  have hy := key (a' := c'.y) (a := c.y) (b := obs.y) ((V3.abs_y_le _).trans h) ((V3.abs_y_le _).trans hl) ((V3.abs_y_le _).trans ho)
  have hz := key (a' := c'.z) (a := c.z) (b := obs.z) ((V3.abs_z_le _).trans h) ((V3.abs_z_le _).trans hl) ((V3.abs_z_le _).trans ho)
  have fin : 12009 * (dblUnit * S) ≤ S / 10 ^ 11 := by
    have : 12009 * dblUnit ≤ 1 / 10 ^ 11 := by unfold dblUnit; norm_num
    calc 12009 * (dblUnit * S) = (12009 * dblUnit) * S := by ring
      _ ≤ 1 / 10 ^ 11 * S := mul_le_mul_of_nonneg_right this hS0
      _ = _ := by ring
  refine ((V3.norm_le_abs _).trans ?_).trans fin
  simp only [V3.sub_x, V3.sub_y, V3.sub_z]
  linarith

/-- C229: multi camera PnP. -/
theorem C229_multi_pnp {D : Double} (hD : D.WF) {pCam pTgt : Pose6} {cam tgt : Iso} (hc : Describes pCam cam) (ht : Describes pTgt tgt)
    (nc : NoTwist pCam) (nt : NoTwist pTgt) {pt : V3} {S F : ℝ} (hS : ∀ r ∈ way [tgt, cam] pt, r.norm ≤ S) {i : Intr} {obs : V2}
    (hu : Usual F S i obs ((cam * tgt).apply pt)) :
    PixelErrorUpTo F (D.mcPnpCost obs i pCam pt pTgt) (pinhole i ((cam * tgt).apply pt)) obs := by
  have hS0 := (V3.norm_nonneg pt).trans (hS pt (by simp [way]))
  exact hD.pixel hu hS0 ((hD.two ht hc nt nc hS).trans (Double.grow hS0 (by norm_num)))

/-- C229: static cameras and moved target. -/
theorem C229_static {D : Double} (hD : D.WF) {pCam pWrist pTgt : Pose6} {cam wrist tgt : Iso} (hc : Describes pCam cam)
    (hw : Describes pWrist wrist) (ht : Describes pTgt tgt) (nc : NoTwist pCam) (nw : NoTwist pWrist) (nt : NoTwist pTgt) {pt : V3} {S F : ℝ}
    (hS : ∀ r ∈ way [tgt, wrist, cam] pt, r.norm ≤ S) {i : Intr} {obs : V2} (hu : Usual F S i obs ((cam * (wrist * tgt)).apply pt)) :
    PixelErrorUpTo F (D.msCost obs i pWrist pt pCam pTgt) (pinhole i ((cam * (wrist * tgt)).apply pt)) obs := by
  have hS0 := (V3.norm_nonneg pt).trans (hS pt (by simp [way]))
  exact hD.pixel hu hS0 ((hD.three ht hw hc nt nw nc hS).trans (Double.grow hS0 (by norm_num)))

/-- C229: cameras only. -/
theorem C229_camera_only {D : Double} (hD : D.WF) {pCam pTgt : Pose6} {cam tgt : Iso} (hc : Describes pCam cam) (ht : Describes pTgt tgt)
    (nc : NoTwist pCam) (nt : NoTwist pTgt) {pt : V3} {S F : ℝ} (hS : ∀ r ∈ way [tgt, cam] pt, r.norm ≤ S) {i : Intr} {obs : V2}
    (hu : Usual F S i obs ((cam * tgt).apply pt)) :
    PixelErrorUpTo F (D.coCost obs i pt pCam pTgt) (pinhole i ((cam * tgt).apply pt)) obs := by
  have hS0 := (V3.norm_nonneg pt).trans (hS pt (by simp [way]))
  exact hD.pixel hu hS0 ((hD.two ht hc nt nc hS).trans (Double.grow hS0 (by norm_num)))

/-- C229: correction of the base only. -/
theorem C229_wrist_only {D : Double} (hD : D.WF) {pCam pCorr pWrist pTgt : Pose6} {cam corr wrist tgt : Iso} (hc : Describes pCam cam)
    (hr : Describes pCorr corr) (hw : Describes pWrist wrist) (ht : Describes pTgt tgt) (nc : NoTwist pCam) (nr : NoTwist pCorr)
    (nw : NoTwist pWrist) (nt : NoTwist pTgt) {pt : V3} {S F : ℝ} (hS : ∀ r ∈ way [tgt, wrist, corr, cam] pt, r.norm ≤ S) {i : Intr} {obs : V2}
    (hu : Usual F S i obs ((cam * (corr * (wrist * tgt))).apply pt)) :
    PixelErrorUpTo F (D.woCost obs i pWrist pCam pt pCorr pTgt) (pinhole i ((cam * (corr * (wrist * tgt))).apply pt)) obs :=
  hD.pixel hu ((V3.norm_nonneg pt).trans (hS pt (by simp [way]))) (hD.four ht hw hr hc nt nw nr nc hS)

/-! ## The model without rounding is the one of the other properties -/

theorem Double.exact_wf : Double.exact.WF := by
  have h := dblUnit_pos
  refine ⟨fun x => ?_, fun x _ => ?_, fun x => ?_, fun x => ?_⟩
  · simp only [Double.exact, id, sub_self, abs_zero]; positivity
  · simp only [Double.exact, sub_self, abs_zero]; positivity
  · simp only [Double.exact, sub_self, abs_zero]; positivity
  · simp only [Double.exact, sub_self, abs_zero]; positivity

theorem Double.exact_rotate (a p : V3) : Double.exact.angleAxisRotatePoint a p = RCT.angleAxisRotatePoint a p := by
  unfold Double.angleAxisRotatePoint RCT.angleAxisRotatePoint
  have e : Double.exact.dot a a = a.dot a := rfl
  rw [e]
  by_cases h : a.dot a > dblEps
  · simp only [if_pos h]
    simp only [Double.exact, Double.dot, Double.cross, Double.add, Double.sub, Double.mul, Double.div, id, V3.dot, V3.cross, V3.smul]
    ext <;> ring
  · simp only [if_neg h]
    rfl

theorem Double.exact_transform (p : Pose6) (q : V3) : Double.exact.transformPoint p q = RCT.poseTransformPoint p q := by
  unfold Double.transformPoint RCT.poseTransformPoint RCT.transformPoint
  rw [Double.exact_rotate]
  rfl

theorem Double.exact_project (i : Intr) (p : V3) : Double.exact.projectPoint i p = RCT.projectPoint i p := by
  unfold Double.projectPoint RCT.projectPoint
  by_cases h : p.z = 0 <;> simp [h, Double.exact, Double.add, Double.mul, Double.div]

theorem Double.exact_pixel (i : Intr) (p : V3) (o : V2) :
    Double.exact.pixelResidual i p o = [(RCT.projectPoint i p).x - o.x, (RCT.projectPoint i p).y - o.y] := by
  unfold Double.pixelResidual
  rw [Double.exact_project]
  rfl

/-- C229: without rounding the functors of this model are those of the other properties, whose poses are stored as six values. -/
theorem C229_same (obs : V2) (obs3 : V3) (a b : Iso) (pt : V3) (i : Intr) (p q : Pose6) :
    Double.exact.handEyeCost2 obs (poseEigenToCal a) (poseEigenToCal b) pt i p q = RCT.handEyeCost2 obs a b pt i p q ∧
      Double.exact.handEyeCost3 obs3 (poseEigenToCal a) (poseEigenToCal b) pt p q = RCT.handEyeCost3 obs3 a b pt p q ∧
      Double.exact.mcPnpCost obs i (poseEigenToCal a) pt q = RCT.mcPnpCost obs i a pt q ∧
      Double.exact.msCost obs i (poseEigenToCal a) pt p q = RCT.msCost obs i a pt p q ∧
      Double.exact.coCost obs i pt p q = RCT.coFreeCost obs i pt p q ∧
      Double.exact.coCost obs i pt (poseEigenToCal a.inv) q = RCT.coFixedCost obs i a pt q ∧
      Double.exact.woCost obs i (poseEigenToCal a) (poseEigenToCal b.inv) pt p q = RCT.woCost obs i a b pt p q := by
  refine ⟨?_, ?_, ?_, ?_, ?_, ?_, ?_⟩
  · unfold Double.handEyeCost2 Double.targetPointInCamera
    rw [Double.exact_pixel]; simp only [Double.exact_transform]; rfl
  · unfold Double.handEyeCost3 Double.targetPointInCamera
    simp only [Double.exact_transform]; rfl
  · unfold Double.mcPnpCost
    rw [Double.exact_pixel]; simp only [Double.exact_transform]; rfl
  · unfold Double.msCost
    rw [Double.exact_pixel]; simp only [Double.exact_transform]; rfl
  · unfold Double.coCost
    rw [Double.exact_pixel]; simp only [Double.exact_transform]; rfl
  · unfold Double.coCost
    rw [Double.exact_pixel]; simp only [Double.exact_transform]; rfl
  · unfold Double.woCost
    rw [Double.exact_pixel]; simp only [Double.exact_transform]; rfl

/-! ## Examples -/

/-- Arithmetic that rounds away from zero as far as allowed meets the contract. -/
example : (⟨fun x => x * (1 + dblUnit), fun x => Real.sqrt x * (1 + dblUnit), fun x => Real.sin x + dblUnit, Real.cos⟩ : Double).WF := by
  have h := dblUnit_pos
  refine ⟨fun x => ?_, fun x _ => ?_, fun x => ?_, fun x => ?_⟩
  · have : x * (1 + dblUnit) - x = dblUnit * x := by ring
    simp only [this, abs_mul, abs_of_pos h, le_refl]
  · have : Real.sqrt x * (1 + dblUnit) - Real.sqrt x = dblUnit * Real.sqrt x := by ring
    simp only [this, abs_mul, abs_of_pos h, abs_of_nonneg (Real.sqrt_nonneg x), le_refl]
  · simp only [add_sub_cancel_left, abs_of_pos h]; linarith
  · simp only [sub_self, abs_zero]; positivity

/-- A quarter turn about z and a shift. -/
example : Describes ⟨0, 0, Real.pi / 2, 1, 0, 2⟩ ⟨⟨0, -1, 0, 1, 0, 0, 0, 0, 1⟩, ⟨1, 0, 2⟩⟩ := by
  refine ⟨⟨⟨0, 0, 1⟩, Real.pi / 2, ⟨by norm_num [V3.normSq, V3.dot], ?_⟩, by ext <;> simp [V3.smul]⟩, rfl⟩
  intro p
  ext <;> simp [M3.mulVec, V3.smul, V3.cross, V3.dot]

/-- A point 2 in front of the camera and a bit to the side, a usual camera. -/
example : Usual 1000 5 ⟨500, 500, 320, 240⟩ ⟨300, 200⟩ ⟨1 / 2, -1, 2⟩ := by
  constructor <;> norm_num [abs_le]

/-- All hypotheses of `C229_multi_pnp` together: camera at the base, target turned by a quarter and shifted by 2 along the view. -/
example (D : Double) (hD : D.WF) :
    PixelErrorUpTo 1000 (D.mcPnpCost ⟨300, 200⟩ ⟨500, 500, 320, 240⟩ ⟨0, 0, 0, 0, 0, 0⟩ ⟨1, 0, 0⟩ ⟨0, 0, Real.pi / 2, 1, 0, 2⟩) ⟨500 * (1 / 2) + 320, 500 * (1 / 2) + 240⟩ ⟨300, 200⟩ := by
  have ht : Describes ⟨0, 0, Real.pi / 2, 1, 0, 2⟩ ⟨⟨0, -1, 0, 1, 0, 0, 0, 0, 1⟩, ⟨1, 0, 2⟩⟩ := by
    refine ⟨⟨⟨0, 0, 1⟩, Real.pi / 2, ⟨by norm_num [V3.normSq, V3.dot], ?_⟩, by ext <;> simp [V3.smul]⟩, rfl⟩
    intro p
    ext <;> simp [M3.mulVec, V3.smul, V3.cross, V3.dot]
  have hc : Describes ⟨0, 0, 0, 0, 0, 0⟩ ⟨⟨1, 0, 0, 0, 1, 0, 0, 0, 1⟩, ⟨0, 0, 0⟩⟩ := by
    refine ⟨⟨⟨0, 0, 1⟩, 0, ⟨by norm_num [V3.normSq, V3.dot], ?_⟩, by ext <;> simp [V3.smul]⟩, rfl⟩
    intro p
    ext <;> simp [M3.mulVec, V3.smul, V3.cross, V3.dot]
  have nt : NoTwist ⟨0, 0, Real.pi / 2, 1, 0, 2⟩ := by
    refine (V3.norm_le_abs _).trans ?_
    have := Real.pi_pos
    have := Real.pi_le_four
    simp only [abs_zero, abs_of_pos (show (0 : ℝ) < Real.pi / 2 by positivity)]
    linarith
  have nc : NoTwist ⟨0, 0, 0, 0, 0, 0⟩ := by
    refine (V3.norm_le_abs _).trans ?_
    simp only [abs_zero]
    norm_num
  have hv : ((⟨⟨1, 0, 0, 0, 1, 0, 0, 0, 1⟩, ⟨0, 0, 0⟩⟩ : Iso) * ⟨⟨0, -1, 0, 1, 0, 0, 0, 0, 1⟩, ⟨1, 0, 2⟩⟩).apply ⟨1, 0, 0⟩ = ⟨1, 1, 2⟩ := by
    rw [Iso.apply_mul]
    ext <;> norm_num [Iso.apply, M3.mulVec]
  have := C229_multi_pnp hD hc ht nc nt (pt := ⟨1, 0, 0⟩) (S := 5) (F := 1000) (i := ⟨500, 500, 320, 240⟩) (obs := ⟨300, 200⟩) ?_ ?_
  · rw [hv] at this
    simpa only [pinhole] using this
  · simp only [way, List.forall_mem_cons, List.not_mem_nil, false_implies, implies_true, and_true]
    refine ⟨?_, ?_, ?_⟩ <;> refine (V3.norm_le_abs _).trans ?_ <;> norm_num [Iso.apply, M3.mulVec, abs_of_pos]
  · rw [hv]
    constructor <;> norm_num [abs_le]

end RCT
