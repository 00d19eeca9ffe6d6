import Verif.Lemmas.LensIdentify
import Verif.Props.NoDistortion

/-!
# C214: with radial distortion, one tilted image of a large target is enough
-/

namespace RCT
open Spec

/-- Two lenses that explain the same images, one of which shows a large grid. -/
theorem images_identify {intr intr' : Intr} {k1 k2 p1 p2 k3 k1' k2' p1' p2' k3' : ℝ} {T T' : Nat → Iso} {images : List (List Corr2)}
    (hx : intr.fx ≠ 0) (hy : intr.fy ≠ 0) (hk : k3 ≠ 0 ∨ k2 ≠ 0 ∨ k1 ≠ 0 ∧ p1 = 0 ∧ p2 = 0)
    (hdata : LensImages intr k1 k2 p1 p2 k3 T images) (hdata' : LensImages intr' k1' k2' p1' p2' k3' T' images)
    {i : Nat} (hi : i < images.length) (hT : RigidMotion (T i)) (hT' : RigidMotion (T' i)) (hgrid : SeesGrid 15 (images.getD i []))
    (hcam : (T i).inv.t.z ≠ 0) :
    ∃ α β w : ℝ, w ≠ 0 ∧ α ≠ 0 ∧ α ^ 2 = β ^ 2 ∧ intr.fx = intr'.fx * α ∧ intr.fy = intr'.fy * β ∧ intr.cx = intr'.cx ∧ intr.cy = intr'.cy ∧
      k1 = k1' * α ^ 2 ∧ k2 = k2' * α ^ 4 ∧ k3 = k3' * α ^ 6 ∧ p1 = β * p1' ∧ p2 = α * p2' ∧
      V3.smul w (formX (T' i)) = V3.smul α (formX (T i)) ∧ V3.smul w (formY (T' i)) = V3.smul β (formY (T i)) ∧
      V3.smul w (formZ (T' i)) = formZ (T i) := by
  obtain ⟨as, bs, ha, hb, hg⟩ := hgrid
  refine lens_identify ((rigid_iff _).2 hT) ((rigid_iff _).2 hT') hx hy hk hcam ha hb ?_
  intro a ha' b hb'
  obtain ⟨k, hk1, hk2⟩ := hg a ha' b hb'
  obtain ⟨e1, e2⟩ := hdata i hi k hk1
  obtain ⟨e3, e4⟩ := hdata' i hi k hk1
  rw [hk2] at e1 e2 e3 e4
  exact ⟨e1, e3, e4.symm.trans e2⟩

/-- Images of a plane target through a lens with radial distortion, of an order above the third or without tangential distortion. One of them shows
a grid of fifteen by fifteen features, and the camera is not in the plane of the target there. Every run that ends with cost zero reports the true
centre; the other results are the true ones up to one scale. -/
theorem C214_scale (s3 : Ceres V3) (s : Ceres Mem) (p : IntrinsicProblem) (res : IntrinsicResult)
    (h : intrinsic s3 s p = .ok res) (intr : Intr) (hx : intr.fx ≠ 0) (hy : intr.fy ≠ 0) (k1 k2 p1 p2 k3 : ℝ)
    (hk : k3 ≠ 0 ∨ k2 ≠ 0 ∨ k1 ≠ 0 ∧ p1 = 0 ∧ p2 = 0) (T : Nat → Iso)
    (hT : ∀ i, i < p.observations.length → RigidMotion (T i)) (hdata : LensImages intr k1 k2 p1 p2 k3 T p.observations)
    (i : Nat) (hi : i < p.observations.length) (hgrid : SeesGrid 15 (p.observations.getD i [])) (hcam : (T i).inv.t.z ≠ 0)
    (hcost : res.finalCost = some 0) :
    ∃ poses, intrPoses s3 p = .ok poses ∧ ∀ T' : Nat → Iso,
      (∀ i, T' i = poseCalToEigen (s.solve (intrBuild p poses) (intrInit p poses) (poseBlk i)).pose) →
      (∀ i, i < p.observations.length → RigidMotion (T' i)) →
      (∀ i, i < p.observations.length → ∀ k ∈ p.observations.getD i [], ((T' i).apply k.inTarget).z ≠ 0) →
      ∃ m k1' k2' p1' p2' k3', 0 < m ∧ res.distortions = [k1', k2', p1', p2', k3'] ∧ k1 = m * k1' ∧ k2 = m ^ 2 * k2' ∧ k3 = m ^ 3 * k3' ∧
        p1 ^ 2 = m * p1' ^ 2 ∧ p2 ^ 2 = m * p2' ^ 2 ∧ intr.fx ^ 2 = m * res.intrinsics.fx ^ 2 ∧ intr.fy ^ 2 = m * res.intrinsics.fy ^ 2 ∧
        res.intrinsics.cx = intr.cx ∧ res.intrinsics.cy = intr.cy := by
  obtain ⟨k1', k2', p1', p2', k3', poses, hd, hp, hlens⟩ := intrinsic_lens h hcost
  refine ⟨poses, hp, fun T' hT' hrig hz => ?_⟩
  obtain ⟨α, β, w, hw, hα, hab, r3, r4, r5, r6, r7, r8, r9, r10, r11, -⟩ := images_identify hx hy hk hdata (hlens T' hT' hz) hi (hT i hi) (hrig i hi)
    hgrid hcam
  refine ⟨α ^ 2, k1', k2', p1', p2', k3', by positivity, hd, ?_, ?_, ?_, ?_, ?_, ?_, ?_, r5.symm, r6.symm⟩
  · rw [r7]; ring
  · rw [r8]; ring
  · rw [r9]; ring
  · rw [r10, hab]; ring
  · rw [r11]; ring
  · rw [r3]; ring
  · rw [r4, hab]; ring

/-- If the target is not parallel to the image there, the run reports the true centre and radial coefficients, and up to sign the true focal lengths
and tangential coefficients. If the focal lengths have the right signs, it reports exactly the true camera and lens, and in every image of such a grid
one feature of which is on the right side of the camera, the true pose of the target. -/
theorem C214_camera (s3 : Ceres V3) (s : Ceres Mem) (p : IntrinsicProblem) (res : IntrinsicResult)
    (h : intrinsic s3 s p = .ok res) (intr : Intr) (hx : intr.fx ≠ 0) (hy : intr.fy ≠ 0) (k1 k2 p1 p2 k3 : ℝ)
    (hk : k3 ≠ 0 ∨ k2 ≠ 0 ∨ k1 ≠ 0 ∧ p1 = 0 ∧ p2 = 0) (T : Nat → Iso)
    (hT : ∀ i, i < p.observations.length → RigidMotion (T i)) (hdata : LensImages intr k1 k2 p1 p2 k3 T p.observations)
    (i : Nat) (hi : i < p.observations.length) (hgrid : SeesGrid 15 (p.observations.getD i [])) (hcam : (T i).inv.t.z ≠ 0)
    (htilt : (T i).R.m20 ≠ 0 ∨ (T i).R.m21 ≠ 0) (hcost : res.finalCost = some 0) :
    ∃ poses, intrPoses s3 p = .ok poses ∧ ∀ T' : Nat → Iso,
      (∀ i, T' i = poseCalToEigen (s.solve (intrBuild p poses) (intrInit p poses) (poseBlk i)).pose) →
      (∀ i, i < p.observations.length → RigidMotion (T' i)) →
      (∀ i, i < p.observations.length → ∀ k ∈ p.observations.getD i [], ((T' i).apply k.inTarget).z ≠ 0) →
      SameCamera res.intrinsics intr ∧
      (∃ p1' p2', res.distortions = [k1, k2, p1', p2', k3] ∧ p1' ^ 2 = p1 ^ 2 ∧ p2' ^ 2 = p2 ^ 2) ∧
      (0 < res.intrinsics.fx * intr.fx → 0 < res.intrinsics.fy * intr.fy →
        res.intrinsics = intr ∧ res.distortions = [k1, k2, p1, p2, k3] ∧
        ∀ j, j < p.observations.length → SeesGrid 15 (p.observations.getD j []) → (T j).inv.t.z ≠ 0 →
          (∃ k ∈ p.observations.getD j [], k.inTarget.z = 0 ∧ 0 < ((T j).apply k.inTarget).z * ((T' j).apply k.inTarget).z) → T' j = T j) := by
  obtain ⟨k1', k2', p1', p2', k3', poses, hd, hp, hlens⟩ := intrinsic_lens h hcost
  refine ⟨poses, hp, fun T' hT' hrig hz => ?_⟩
  have key := fun j hj => images_identify hx hy hk hdata (hlens T' hT' hz) (i := j) hj (hT j hj) (hrig j hj)
  obtain ⟨α, β, w, hw, hα, hab, r3, r4, r5, r6, r7, r8, r9, r10, r11, t1, t2, t3⟩ := key i hi hgrid hcam
  have h1 := (lens_scale ((rigid_iff _).2 (hT i hi)) ((rigid_iff _).2 (hrig i hi)) hab t1 t2 t3).1 htilt
  have hb1 : β ^ 2 = 1 := by rw [← hab, h1]
  have e4 : α ^ 4 = 1 := by linear_combination (α ^ 2 + 1) * h1
  have e6 : α ^ 6 = 1 := by linear_combination (α ^ 4 + α ^ 2 + 1) * h1
  rw [h1, mul_one] at r7
  rw [e4, mul_one] at r8
  rw [e6, mul_one] at r9
  subst r7 r8 r9
  refine ⟨⟨?_, ?_, r5.symm, r6.symm⟩, ⟨p1', p2', hd, ?_, ?_⟩, fun sx sy => ?_⟩
  · rw [r3]; linear_combination (-res.intrinsics.fx ^ 2) * h1
  · rw [r4]; linear_combination (-res.intrinsics.fy ^ 2) * hb1
  · rw [r10]; linear_combination (-p1' ^ 2) * hb1
  · rw [r11]; linear_combination (-p2' ^ 2) * h1
  have one : ∀ {a f : ℝ}, a ^ 2 = 1 → 0 < f * (f * a) → a = 1 := by
    intro a f ha hf
    rcases mul_eq_zero.1 (by linear_combination ha : (a - 1) * (a + 1) = 0) with h | h
    · linarith
    · rw [show a = -1 by linarith] at hf; nlinarith [sq_nonneg f]
  have ea : α = 1 := one h1 (by rw [← r3]; exact sx)
  have eb : β = 1 := one hb1 (by rw [← r4]; exact sy)
  rw [ea, mul_one] at r3
  rw [eb, mul_one] at r4
  rw [eb, one_mul] at r10
  rw [ea, one_mul] at r11
  subst r10 r11
  refine ⟨by cases intr; cases hh : res.intrinsics; simp_all, hd, fun j hj hgj hcj ⟨k, hk1, hk2, hk3⟩ => ?_⟩
  obtain ⟨α', β', w', hw', hα', hab', s3', s4', -, -, -, -, -, -, -, u1, u2, u3⟩ := key j hj hgj hcj
  have ea' : α' = 1 := by
    rw [r3] at s3' hx; exact mul_left_cancel₀ hx (by rw [mul_one]; exact s3'.symm)
  have eb' : β' = 1 := by
    rw [r4] at s4' hy; exact mul_left_cancel₀ hy (by rw [mul_one]; exact s4'.symm)
  have hw2 := (lens_scale ((rigid_iff _).2 (hT j hj)) ((rigid_iff _).2 (hrig j hj)) hab' u1 u2 u3).2 (by rw [ea']; norm_num)
  have ew : w' = 1 := by
    refine one hw2 (f := ((T' j).apply k.inTarget).z) ?_
    have hq : k.inTarget = ⟨k.inTarget.x, k.inTarget.y, 0⟩ := by rw [← hk2]
    rw [hq, form_apply, form_apply] at hk3
    rw [hq, form_apply]
    simp only at hk3 ⊢
    rw [← u3] at hk3
    simp only [V3.dot, V3.smul] at hk3 ⊢
    linarith
  subst ea' eb' ew
  have so : ∀ v : V3, V3.smul 1 v = v := fun v => by ext <;> simp [V3.smul]
  rw [so, so] at u1 u2
  rw [so] at u3
  exact forms_pose ((rigid_iff _).2 (hT j hj)) ((rigid_iff _).2 (hrig j hj)) u1 u2 u3

/-- The tool for intrinsic calibration: images through a lens with radial distortion, one of which shows a grid of fifteen by fifteen features of a
target that is not parallel to the image. If the tool prints the error zero, it prints the true centre and radial coefficients, and up to sign the true
focal lengths and tangential coefficients. -/
theorem C214_tool {Img : Type} (W : ToolWorld Img) (hp : ProperParams W.param) (cv : CvCalibrate Img) (s3 : Ceres V3) (s : Ceres Mem)
    (rep : IntrinsicReport) (h : intrinsicMain W cv s3 s = .ok (some rep)) (cam : Intr) (hx : cam.fx ≠ 0) (hy : cam.fy ≠ 0) (k1 k2 p1 p2 k3 : ℝ)
    (hk : k3 ≠ 0 ∨ k2 ≠ 0 ∨ k1 ≠ 0 ∧ p1 = 0 ∧ p2 = 0)
    (d : DataSet Img) (hd : DataParam W (W.param "data_path") d) (F : Finder Img) (hF : FinderParam W F)
    (T : Nat → Iso) (himg : ∀ i cs, IntrinsicItem (plainEnv F) d.images i cs → RigidMotion (T i) ∧
      ∀ k ∈ cs, ((T i).apply k.inTarget).z ≠ 0 ∧ k.inImage = brown cam k1 k2 p1 p2 k3 (((T i).apply k.inTarget).x / ((T i).apply k.inTarget).z)
        (((T i).apply k.inTarget).y / ((T i).apply k.inTarget).z))
    (big : Nat) (hbig : ∃ cs, IntrinsicItem (plainEnv F) d.images big cs ∧ SeesGrid 15 cs ∧ (T big).inv.t.z ≠ 0 ∧
      ((T big).R.m20 ≠ 0 ∨ (T big).R.m21 ≠ 0)) (hcost : rep.opt.final = some 0) :
    ∃ js obs intr poses, SelectedAt d.images.length (IntrinsicItem (plainEnv F) d.images) js obs ∧
      intrPoses s3 { observations := obs, guess := intr } = .ok poses ∧ ∀ T' : Nat → Iso,
      (∀ i, T' i = poseCalToEigen (s.solve (intrBuild { observations := obs, guess := intr } poses)
        (intrInit { observations := obs, guess := intr } poses) (poseBlk i)).pose) →
      (∀ i, i < obs.length → RigidMotion (T' i)) →
      (∀ i, i < obs.length → ∀ k ∈ obs.getD i [], ((T' i).apply k.inTarget).z ≠ 0) →
      SameCamera rep.intrinsics cam ∧ ∃ p1' p2', rep.distortions = [k1, k2, p1', p2', k3] ∧ p1' ^ 2 = p1 ^ 2 ∧ p2' ^ 2 = p2 ^ 2 := by
  obtain ⟨d', F', intr, js, obs, r, front, K, dist, hset, hsel, hr, hrep, -⟩ := C190_intrinsic W hp cv s3 s rep h
  obtain rfl : d' = d := by
    obtain ⟨p1, a1, a2⟩ := hset.data
    obtain ⟨p2, b1, b2⟩ := hd
    rw [a1] at b1; cases b1
    rw [a2] at b2; cases b2; rfl
  obtain rfl : F' = F := Res.ok.inj (((loadFinder_ok_iff W F').2 hset.finder).symm.trans ((loadFinder_ok_iff W F).2 hF))
  have hlen := hsel.2.2.length_eq
  have hat : ∀ n, n < obs.length → IntrinsicItem (plainEnv F') d'.images (js.getD n 0) (obs.getD n []) := by
    intro n hn
    have := hsel.2.2.get (by omega : n < js.length) hn
    simpa [List.getD_eq_getElem?_getD, List.getElem?_eq_getElem hn, List.getElem?_eq_getElem (by omega : n < js.length)] using this
  have hidx : ∀ i cs, IntrinsicItem (plainEnv F') d'.images i cs →
      js.idxOf i < obs.length ∧ js.getD (js.idxOf i) 0 = i ∧ obs.getD (js.idxOf i) [] = cs := by
    intro i cs hcs
    have hmem : i ∈ js := by
      obtain ⟨m, fs, him, -⟩ := id hcs
      exact (hsel.2.1 i).2 ⟨(List.getElem?_eq_some_iff.1 him).1, cs, hcs⟩
    have hlt := List.idxOf_lt_length_iff.2 hmem
    have h2 : js.getD (js.idxOf i) 0 = i := by
      rw [List.getD_eq_getElem?_getD, List.getElem?_eq_getElem hlt]
      simp
    have h1 : js.idxOf i < obs.length := by omega
    refine ⟨h1, h2, ?_⟩
    have := hat _ h1
    rw [h2] at this
    obtain ⟨m, fs, a1, a2, a3, a4⟩ := hcs
    obtain ⟨m', fs', b1, b2, b3, b4⟩ := this
    rw [a1] at b1; cases b1
    rw [a2] at b2; cases b2
    rw [a4] at b4
    exact (Res.ok.inj b4).symm
  obtain ⟨csb, hcsb, hgrid, hcam, htilt⟩ := hbig
  obtain ⟨hb1, hb2, hb3⟩ := hidx big csb hcsb
  obtain ⟨poses, hposes, hfin⟩ := C214_camera s3 s _ r hr cam hx hy k1 k2 p1 p2 k3 hk (fun n => T (js.getD n 0)) (fun n hn => (himg _ _ (hat n hn)).1)
    (fun n hn k hk => (himg _ _ (hat n hn)).2 k hk) (js.idxOf big) hb1 (by simp only [hb3]; exact hgrid) (by simp only [hb2]; exact hcam)
    (by simp only [hb2]; exact htilt) (by
      rw [hrep.final] at hcost
      obtain ⟨poses, -, -, h2, -⟩ := intrinsic_ok hr
      rw [h2] at hcost ⊢
      exact (sqrt_cost_zero _ _).1 hcost)
  refine ⟨js, obs, intr, poses, hsel, hposes, fun T' h1 h2 h3 => ?_⟩
  obtain ⟨q1, q2, -⟩ := hfin T' h1 h2 h3
  rw [hrep.intrinsics, hrep.distortions]
  exact ⟨q1, q2⟩

/-! ## What the conditions are for -/

/-- If all targets are parallel to the image, the scale stays open, whatever the distortion: for every `m ≠ 0` there are runs that end with cost zero and
report the focal lengths divided by `m`, with coefficients that make up for it. -/
theorem C214_parallel (s3 : Ceres V3) (s : Ceres Mem) (hs : s.WF) (p : IntrinsicProblem) (res : IntrinsicResult)
    (h : intrinsic s3 s p = .ok res) (intr : Intr) (k1 k2 p1 p2 k3 : ℝ) (T : Nat → Iso)
    (hT : ∀ i, i < p.observations.length → RigidMotion (T i) ∧ (T i).R.m20 = 0 ∧ (T i).R.m21 = 0)
    (hdata : LensImages intr k1 k2 p1 p2 k3 T p.observations)
    (hplane : ∀ i, i < p.observations.length → ∀ k ∈ p.observations.getD i [], k.inTarget.z = 0) (m : ℝ) (hm : m ≠ 0) :
    ∃ (s' : Ceres Mem) (res' : IntrinsicResult), s'.WF ∧ intrinsic s3 s' p = .ok res' ∧ res'.finalCost = some 0 ∧
      res'.distortions = [k1 / m ^ 2, k2 / m ^ 4, p1 / m, p2 / m, k3 / m ^ 6] ∧
      res'.intrinsics = ⟨intr.fx / m, intr.fy / m, intr.cx, intr.cy⟩ := by
  obtain ⟨s', res', poses, w1, w2, -, w3, w4, w5, -⟩ := intrinsic_lens_reached hs h
    (intr := ⟨intr.fx / m, intr.fy / m, intr.cx, intr.cy⟩) (k1 := k1 / m ^ 2) (k2 := k2 / m ^ 4) (p1 := p1 / m) (p2 := p2 / m) (k3 := k3 / m ^ 6)
    (T := fun i => ⟨(T i).R, ⟨(T i).t.x, (T i).t.y, (T i).t.z / m⟩⟩) (fun i hi => by
      have := (rigid_iff _).2 (hT i hi).1
      rw [← rigid_iff]; exact this) (by
      intro i hi k hk'
      obtain ⟨hz, him⟩ := hdata i hi k hk'
      obtain ⟨-, h20, h21⟩ := hT i hi
      have h0 := hplane i hi k hk'
      have ez : ((T i).apply k.inTarget).z = (T i).t.z := by simp [Iso.apply, M3.mulVec, h20, h21, h0]
      have ez' : ((⟨(T i).R, ⟨(T i).t.x, (T i).t.y, (T i).t.z / m⟩⟩ : Iso).apply k.inTarget).z = (T i).t.z / m := by
        simp [Iso.apply, M3.mulVec, h20, h21, h0]
      have ex' : ((⟨(T i).R, ⟨(T i).t.x, (T i).t.y, (T i).t.z / m⟩⟩ : Iso).apply k.inTarget).x = ((T i).apply k.inTarget).x := rfl
      have ey' : ((⟨(T i).R, ⟨(T i).t.x, (T i).t.y, (T i).t.z / m⟩⟩ : Iso).apply k.inTarget).y = ((T i).apply k.inTarget).y := rfl
      rw [ez] at hz him
      have hz' : (T i).t.z / m ≠ 0 := div_ne_zero hz hm
      rw [ez', ex', ey']
      refine ⟨hz', him.trans ?_⟩
      generalize ((T i).apply k.inTarget).x = x
      generalize ((T i).apply k.inTarget).y = y
      generalize (T i).t.z = z at hz hz'
      obtain ⟨l1, l2⟩ := brown_lens intr k1 k2 p1 p2 k3 (x := x) (y := y) hz
      obtain ⟨n1, n2⟩ := brown_lens ⟨intr.fx / m, intr.fy / m, intr.cx, intr.cy⟩ (k1 / m ^ 2) (k2 / m ^ 4) (p1 / m) (p2 / m) (k3 / m ^ 6) (x := x) (y := y) hz'
      have h7 : (z / m) ^ 7 ≠ 0 := pow_ne_zero _ hz'
      have e : (z / m) ^ 7 = z ^ 7 / m ^ 7 := by rw [div_pow]
      ext
      · apply mul_right_cancel₀ h7
        rw [n1, e, ← mul_div_assoc, l1]
        simp only [lensX]; field_simp
      · apply mul_right_cancel₀ h7
        rw [n2, e, ← mul_div_assoc, l2]
        simp only [lensY]; field_simp)
  exact ⟨s', res', w1, w2, w3, w4, w5⟩

/-- A lens of third order with tangential distortion: if all targets are parallel to the image, there are runs that end with cost zero and report the
tangential coefficients with the opposite sign, and another centre. -/
theorem C214_tangential (s3 : Ceres V3) (s : Ceres Mem) (hs : s.WF) (p : IntrinsicProblem) (res : IntrinsicResult)
    (h : intrinsic s3 s p = .ok res) (intr : Intr) (k1 p1 p2 : ℝ) (hk : k1 ≠ 0) (T : Nat → Iso)
    (hT : ∀ i, i < p.observations.length → RigidMotion (T i) ∧ (T i).R.m20 = 0 ∧ (T i).R.m21 = 0)
    (hdata : LensImages intr k1 0 p1 p2 0 T p.observations)
    (hplane : ∀ i, i < p.observations.length → ∀ k ∈ p.observations.getD i [], k.inTarget.z = 0) :
    ∃ (s' : Ceres Mem) (res' : IntrinsicResult), s'.WF ∧ intrinsic s3 s' p = .ok res' ∧ res'.finalCost = some 0 ∧
      res'.distortions = [k1, 0, -p1, -p2, 0] ∧ res'.intrinsics.fx = intr.fx ∧ res'.intrinsics.fy = intr.fy ∧
      res'.intrinsics.cx = intr.cx - intr.fx * p2 * (2 / k1 - 4 * (p1 ^ 2 + p2 ^ 2) / k1 ^ 2) ∧
      res'.intrinsics.cy = intr.cy - intr.fy * p1 * (2 / k1 - 4 * (p1 ^ 2 + p2 ^ 2) / k1 ^ 2) := by
  obtain ⟨s', res', poses, w1, w2, -, w3, w4, w5, -⟩ := intrinsic_lens_reached hs h
    (intr := ⟨intr.fx, intr.fy, intr.cx - intr.fx * p2 * (2 / k1 - 4 * (p1 ^ 2 + p2 ^ 2) / k1 ^ 2),
      intr.cy - intr.fy * p1 * (2 / k1 - 4 * (p1 ^ 2 + p2 ^ 2) / k1 ^ 2)⟩) (k1 := k1) (k2 := 0) (p1 := -p1) (p2 := -p2) (k3 := 0)
    (T := fun i => ⟨(T i).R, ⟨(T i).t.x + 2 * p2 / k1 * (T i).t.z, (T i).t.y + 2 * p1 / k1 * (T i).t.z, (T i).t.z⟩⟩) (fun i hi => by
      have := (rigid_iff _).2 (hT i hi).1
      rw [← rigid_iff]; exact this) (by
      intro i hi k hk'
      obtain ⟨hz, him⟩ := hdata i hi k hk'
      obtain ⟨-, h20, h21⟩ := hT i hi
      have h0 := hplane i hi k hk'
      have ez : ((T i).apply k.inTarget).z = (T i).t.z := by simp [Iso.apply, M3.mulVec, h20, h21, h0]
      rw [ez] at hz him
      have e' : (⟨(T i).R, ⟨(T i).t.x + 2 * p2 / k1 * (T i).t.z, (T i).t.y + 2 * p1 / k1 * (T i).t.z, (T i).t.z⟩⟩ : Iso).apply k.inTarget =
          ⟨((T i).apply k.inTarget).x + 2 * p2 / k1 * (T i).t.z, ((T i).apply k.inTarget).y + 2 * p1 / k1 * (T i).t.z, (T i).t.z⟩ := by
        ext
        · simp only [Iso.apply, V3.add_x]; ring
        · simp only [Iso.apply, V3.add_y]; ring
        · simp [Iso.apply, M3.mulVec, h20, h21, h0]
      rw [e']
      refine ⟨hz, him.trans ?_⟩
      simp only
      generalize ((T i).apply k.inTarget).x = x
      generalize ((T i).apply k.inTarget).y = y
      generalize (T i).t.z = z at hz
      obtain ⟨l1, l2⟩ := brown_lens intr k1 0 p1 p2 0 (x := x) (y := y) hz
      obtain ⟨n1, n2⟩ := brown_lens ⟨intr.fx, intr.fy, intr.cx - intr.fx * p2 * (2 / k1 - 4 * (p1 ^ 2 + p2 ^ 2) / k1 ^ 2),
        intr.cy - intr.fy * p1 * (2 / k1 - 4 * (p1 ^ 2 + p2 ^ 2) / k1 ^ 2)⟩ k1 0 (-p1) (-p2) 0
        (x := x + 2 * p2 / k1 * z) (y := y + 2 * p1 / k1 * z) hz
      have h7 : z ^ 7 ≠ 0 := pow_ne_zero _ hz
      ext
      · apply mul_right_cancel₀ h7
        rw [n1, l1]
        simp only [lensX]; field_simp; ring
      · apply mul_right_cancel₀ h7
        rw [n2, l2]
        simp only [lensY]; field_simp; ring)
  exact ⟨s', res', w1, w2, w3, w4, by rw [w5], by rw [w5], by rw [w5], by rw [w5]⟩

/-! ### Examples -/

/-- Points of a grid of fifteen by fifteen. -/
noncomputable def bigGrid : List V3 :=
  (List.range 15).flatMap fun i : ℕ => (List.range 15).map fun j : ℕ => ⟨(i : ℝ) / 14, (j : ℝ) / 14, 0⟩

/-- An image of the grid through a lens. -/
noncomputable def lensGrid (i : Intr) (k1 k2 p1 p2 k3 : ℝ) (T : Iso) : List Corr2 :=
  bigGrid.map fun q => ⟨brown i k1 k2 p1 p2 k3 ((T.apply q).x / (T.apply q).z) ((T.apply q).y / (T.apply q).z), q⟩

theorem bigGrid_mem {q : V3} (h : q ∈ bigGrid) : 0 ≤ q.x ∧ q.x ≤ 1 ∧ 0 ≤ q.y ∧ q.y ≤ 1 ∧ q.z = 0 := by
  simp only [bigGrid, List.mem_flatMap, List.mem_range, List.mem_map] at h
  obtain ⟨i, hi, j, hj, rfl⟩ := h
  have h1 : (i : ℝ) ≤ 14 := by exact_mod_cast Nat.lt_succ_iff.1 hi
  have h2 : (j : ℝ) ≤ 14 := by exact_mod_cast Nat.lt_succ_iff.1 hj
  refine ⟨by positivity, by simp only; linarith, by positivity, by simp only; linarith, rfl⟩

theorem lensGrid_sees (i : Intr) (k1 k2 p1 p2 k3 : ℝ) (T : Iso) : SeesGrid 15 (lensGrid i k1 k2 p1 p2 k3 T) := by
  have hinj : Function.Injective fun n : ℕ => (n : ℝ) / 14 := by
    intro a b h
    simp only at h
    have : (a : ℝ) = b := by linarith
    exact_mod_cast this
  refine ⟨(Finset.range 15).image fun n : ℕ => (n : ℝ) / 14, (Finset.range 15).image fun n : ℕ => (n : ℝ) / 14, ?_, ?_, ?_⟩
  · rw [Finset.card_image_of_injective _ hinj]; simp
  · rw [Finset.card_image_of_injective _ hinj]; simp
  · intro a ha b hb
    obtain ⟨m, hm, rfl⟩ := Finset.mem_image.1 ha
    obtain ⟨n, hn, rfl⟩ := Finset.mem_image.1 hb
    rw [Finset.mem_range] at hm hn
    refine ⟨_, List.mem_map.2 ⟨⟨(m : ℝ) / 14, (n : ℝ) / 14, 0⟩, ?_, rfl⟩, rfl⟩
    simp only [bigGrid, List.mem_flatMap, List.mem_range, List.mem_map]
    exact ⟨m, hm, n, hn, rfl⟩

theorem lensGrid_lens (k1 k2 p1 p2 k3 : ℝ) (i : Nat) : ∀ k ∈ lensGrid ⟨2, 3, 4, 5⟩ k1 k2 p1 p2 k3 (tilted i), ((tilted i).apply k.inTarget).z ≠ 0 ∧
    k.inImage = brown ⟨2, 3, 4, 5⟩ k1 k2 p1 p2 k3 (((tilted i).apply k.inTarget).x / ((tilted i).apply k.inTarget).z)
      (((tilted i).apply k.inTarget).y / ((tilted i).apply k.inTarget).z) := by
  intro k hk
  obtain ⟨q, hq, rfl⟩ := List.mem_map.1 hk
  refine ⟨?_, rfl⟩
  obtain ⟨h1, h2, h3, h4, h5⟩ := bigGrid_mem hq
  rcases i with _ | _ | i <;> simp only [tilted, Iso.apply, M3.mulVec, M3.one_def, V3.add_z, h5] <;> apply ne_of_gt <;> linarith

theorem lensGrid_ne (i : Intr) (k1 k2 p1 p2 k3 : ℝ) (T : Iso) : lensGrid i k1 k2 p1 p2 k3 T ≠ [] := by
  obtain ⟨k, hk, -⟩ := (lensGrid_sees i k1 k2 p1 p2 k3 T).quadrangle (by norm_num)
  exact List.ne_nil_of_mem hk

/-- A single tilted image through a lens with all five coefficients meets the hypotheses of `C214_camera`, with the right signs. -/
example : ∃ (s : Ceres Mem) (p : IntrinsicProblem) (res : IntrinsicResult) (poses : List (Option Pose6)), intrinsic (idCeres V3) s p = .ok res ∧
    p.observations.length = 1 ∧ LensImages ⟨2, 3, 4, 5⟩ 1 2 3 4 5 tilted p.observations ∧ SeesGrid 15 (p.observations.getD 0 []) ∧
    RigidMotion (tilted 0) ∧ (tilted 0).inv.t.z ≠ 0 ∧ (tilted 0).R.m21 ≠ 0 ∧ res.finalCost = some 0 ∧
    intrPoses (idCeres V3) p = .ok poses ∧ poseCalToEigen (s.solve (intrBuild p poses) (intrInit p poses) (poseBlk 0)).pose = tilted 0 ∧
    0 < res.intrinsics.fx * 2 ∧ 0 < res.intrinsics.fy * 3 := by
  obtain ⟨r, hr⟩ := intrinsic_returns [lensGrid ⟨2, 3, 4, 5⟩ 1 2 3 4 5 (tilted 0)] (by simp) (by simp [lensGrid_ne]) ⟨1, 1, 0, 0⟩
  have hl : LensImages ⟨2, 3, 4, 5⟩ 1 2 3 4 5 tilted [lensGrid ⟨2, 3, 4, 5⟩ 1 2 3 4 5 (tilted 0)] := by
    intro i hi
    have : i = 0 := by simpa using hi
    subst this
    exact lensGrid_lens _ _ _ _ _ 0
  obtain ⟨s, res, poses, -, h1, h2, h3, -, h5, h6⟩ := intrinsic_lens_reached (idCeres_wf Mem) hr (fun i _ => tilted_rigid i) hl
  refine ⟨s, _, res, poses, h1, rfl, hl, lensGrid_sees _ _ _ _ _ _ _, tilted_rigid 0, ?_, ?_, h3, h2, h6 0 (by simp), ?_, ?_⟩
  · simp [tilted, Iso.inv, M3.tr, M3.mulVec]
  · simp [tilted]
  · rw [h5]; norm_num
  · rw [h5]; norm_num

/-- A run of the tool that meets the hypotheses of `C214_tool`. -/
example : ∃ (W : ToolWorld Nat) (s : Ceres Mem) (rep : IntrinsicReport) (d : DataSet Nat) (F : Finder Nat), ProperParams W.param ∧
    intrinsicMain W keepCalibrate (idCeres V3) s = .ok (some rep) ∧ DataParam W (W.param "data_path") d ∧ FinderParam W F ∧
    (∀ i cs, IntrinsicItem (plainEnv F) d.images i cs → RigidMotion (tilted i) ∧
      ∀ k ∈ cs, ((tilted i).apply k.inTarget).z ≠ 0 ∧ k.inImage = brown ⟨2, 3, 4, 5⟩ 1 0 0 0 0 (((tilted i).apply k.inTarget).x / ((tilted i).apply k.inTarget).z)
        (((tilted i).apply k.inTarget).y / ((tilted i).apply k.inTarget).z)) ∧
    (∃ cs, IntrinsicItem (plainEnv F) d.images 0 cs ∧ SeesGrid 15 cs ∧ (tilted 0).inv.t.z ≠ 0 ∧ ((tilted 0).R.m20 ≠ 0 ∨ (tilted 0).R.m21 ≠ 0)) ∧
    rep.opt.final = some 0 ∧ rep.distortions = [1, 0, 0, 0, 0] := by
  obtain ⟨P, C, D, fs, path, es, col, saved, stored, msg, a1, a2, a3, a4, a5, a6, a7, a8, hcap, hmsg⟩ :=
    example_session (fun _ => 1) fun _ => .one
  obtain ⟨hset, hcol, hitem, hitem'⟩ := exampleWorld_intrinsic (T := fun _ => 1) (threshold := 0)
    (view := fun n : Nat => lensGrid ⟨2, 3, 4, 5⟩ 1 0 0 0 0 (tilted n)) a8
  obtain ⟨r, hr⟩ := intrinsic_returns [lensGrid ⟨2, 3, 4, 5⟩ 1 0 0 0 0 (tilted 0), lensGrid ⟨2, 3, 4, 5⟩ 1 0 0 0 0 (tilted 1),
    lensGrid ⟨2, 3, 4, 5⟩ 1 0 0 0 0 (tilted 2)] (by simp) (by simp [lensGrid_ne]) ⟨1, 1, 0, 0⟩
  obtain ⟨s, res, poses, -, h1, h2, h3, h4, h5, h6⟩ := intrinsic_lens_reached (idCeres_wf Mem) hr (intr := ⟨2, 3, 4, 5⟩) (k1 := 1) (k2 := 0)
    (p1 := 0) (p2 := 0) (k3 := 0) (T := tilted) (fun i _ => tilted_rigid i) (by
      intro i hi
      have : i = 0 ∨ i = 1 ∨ i = 2 := by simp at hi; omega
      rcases this with rfl | rfl | rfl <;> exact lensGrid_lens _ _ _ _ _ _)
  have hp := exampleWorld_proper C (saveToDirectory P D fs path stored).1 (indexFile path) 0
    (fun n : Nat => lensGrid ⟨2, 3, 4, 5⟩ 1 0 0 0 0 (tilted n))
  refine ⟨_, s, _, _, _, hp, (intrinsicMain_ok_iff _ hp _ _ _ _).2 ⟨_, _, _, _, ⟨⟨1, 1, 0, 0⟩, [0, 0, 0, 0, 0]⟩, res, hset, hcol, rfl, h1, rfl⟩,
    hset.data, hset.finder, ?_, ?_, ?_, h4⟩
  · intro i cs hi
    obtain ⟨hlt, rfl⟩ := hitem i cs hi
    exact ⟨tilted_rigid i, lensGrid_lens _ _ _ _ _ i⟩
  · exact ⟨_, hitem' 0 (by norm_num), lensGrid_sees _ _ _ _ _ _ _, by simp [tilted, Iso.inv, M3.tr, M3.mulVec], by simp [tilted]⟩
  · show res.finalCost.map Real.sqrt = some 0
    rw [h3]
    simp

/-- An image of a target parallel to the image, through a lens of third order with tangential distortion, meets the hypotheses of `C214_parallel` and
`C214_tangential`. -/
example : ∃ (p : IntrinsicProblem) (res : IntrinsicResult), intrinsic (idCeres V3) (idCeres Mem) p = .ok res ∧ (idCeres Mem).WF ∧
    p.observations.length = 1 ∧ RigidMotion (tilted 2) ∧ (tilted 2).R.m20 = 0 ∧ (tilted 2).R.m21 = 0 ∧
    LensImages ⟨2, 3, 4, 5⟩ 1 0 2 3 0 (fun _ => tilted 2) p.observations ∧
    ∀ i, i < p.observations.length → ∀ k ∈ p.observations.getD i [], k.inTarget.z = 0 := by
  obtain ⟨r, hr⟩ := intrinsic_returns [lensGrid ⟨2, 3, 4, 5⟩ 1 0 2 3 0 (tilted 2)] (by simp) (by simp [lensGrid_ne]) ⟨1, 1, 0, 0⟩
  refine ⟨_, r, hr, idCeres_wf Mem, rfl, tilted_rigid 2, by simp [tilted, M3.one_def], by simp [tilted, M3.one_def], ?_, ?_⟩
  · intro i hi
    have : i = 0 := by simpa using hi
    subst this
    exact lensGrid_lens _ _ _ _ _ 2
  · intro i hi k hk
    have : i = 0 := by simpa using hi
    subst this
    obtain ⟨q, hq, rfl⟩ := List.mem_map.1 hk
    exact (bigGrid_mem hq).2.2.2.2

end RCT
