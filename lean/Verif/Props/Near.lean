import Verif.Lemmas.Near
import Verif.Props.Guess
import Verif.Props.HandEye

/-!
# C171 – C174: tiny rotations change results by rounding errors only

Claims C04, C05 and others about exact transforms hold only for rotations that are zero or not tiny. Here is how much is lost
otherwise.
-/

namespace RCT
open Spec

/-! ## C171 Pose conversions lose at most rounding -/

/-- Every six-value pose acts like a rigid motion, the rotation about its rotation vector by its length: up to 2^-52 times
the distance of the point, for the pose and for its inverse. -/
theorem C171_pose (p : Pose6) : ∃ T : Iso, RigidMotion T ∧ IsRotVec ⟨p.rx, p.ry, p.rz⟩ T.R ∧ T.t = ⟨p.x, p.y, p.z⟩ ∧
    NearAt (1 / 2 ^ 52) (poseCalToEigen p) T ∧ NearBy (1 / 2 ^ 52) (poseCalToEigen p).inv T.inv := by
  refine ⟨exactPose p, (rigid_iff _).1 (exactPose_isRigid p), ?_, rfl, exactPose_nearAt p, exactPose_nearBy_inv p⟩
  by_cases h : p.rot = 0
  · rw [exactPose_zero h]
    refine ⟨⟨1, 0, 0⟩, 0, ⟨by norm_num [V3.normSq, V3.dot], fun v => ?_⟩, ?_⟩
    · rw [M3.one_mulVec]; ext <;> simp
    · have : (⟨p.rx, p.ry, p.rz⟩ : V3) = 0 := h
      rw [this]; ext <;> simp
  · refine ⟨p.rot.normalized, p.rot.norm, ⟨V3.normSq_normalized h, fun v => ?_⟩, (smul_norm_normalized p.rot).symm⟩
    simp only [exactPose, AngleAxis.toMat, M3.mulVec, V3.cross, V3.dot]
    ext <;> simp <;> ring

/-- The round trip of a rigid transform through a six-value pose moves every point by at most 2^-52 of its distance. -/
theorem C171_roundtrip (T : Iso) (h : RigidMotion T) :
    NearAt (1 / 2 ^ 52) (poseCalToEigen (poseEigenToCal T)) T := by
  have := exactPose_nearAt (poseEigenToCal T)
  rwa [exactPose_poseEigenToCal ((rigid_iff T).2 h)] at this

/-- The round trip through the inverse, as done for the poses of cameras. -/
theorem C171_roundtrip_inverse (T : Iso) (h : RigidMotion T) :
    NearBy (1 / 2 ^ 52) (poseCalToEigen (poseEigenToCal T.inv)).inv T := by
  have h' := (rigid_iff T).2 h
  have := exactPose_nearBy_inv (poseEigenToCal T.inv)
  rwa [exactPose_poseEigenToCal h'.inv, Iso.inv_inv h'] at this

/-- A rotation by a nanoradian is rigid, but not represented exactly. -/
theorem tinyRotation (t : V3) : RigidMotion ⟨AngleAxis.toMat ⟨1 / 10 ^ 9, ⟨1, 0, 0⟩⟩, t⟩ ∧
    ¬ Representable ⟨AngleAxis.toMat ⟨1 / 10 ^ 9, ⟨1, 0, 0⟩⟩, t⟩ := by
  have hu : (⟨1, 0, 0⟩ : V3).normSq = 1 := by norm_num [V3.normSq, V3.dot]
  refine ⟨(rigid_iff ⟨_, t⟩).1 (AngleAxis.toMat_isRot hu), ?_⟩
  have ha : rotAngle (AngleAxis.toMat ⟨1 / 10 ^ 9, ⟨1, 0, 0⟩⟩) = 1 / 10 ^ 9 := by
    unfold rotAngle AngleAxis.toMat
    rw [show ((1 - Real.cos (1 / 10 ^ 9)) * 1 * 1 + Real.cos (1 / 10 ^ 9) + ((1 - Real.cos (1 / 10 ^ 9)) * 0 * 0 +
      Real.cos (1 / 10 ^ 9)) + ((1 - Real.cos (1 / 10 ^ 9)) * 0 * 0 + Real.cos (1 / 10 ^ 9)) - 1) / 2 =
        Real.cos (1 / 10 ^ 9) by ring]
    exact Real.arccos_cos (by norm_num) (by have := Real.pi_gt_three; norm_num; linarith)
  rintro ⟨-, h⟩
  simp only [ha] at h
  norm_num at h

/-! ## C172 Perfect hand-eye data leaves rounding errors at the true transforms -/

theorem targetPointInCamera_near {C B : Iso} (hC : C.IsRigid) (hB : B.IsRigid) (pt : V3) (cam tgt : Pose6) :
    (targetPointInCamera C.inv B pt cam tgt -
      Spec.targetInCamera (exactPose cam).inv C B (exactPose tgt) pt).norm ≤
      1 / 2 ^ 51 * (pt.norm + ((exactPose tgt).apply pt).norm + ((B * exactPose tgt).apply pt).norm +
        ((C.inv * (B * exactPose tgt)).apply pt).norm) := by
  have he : (0 : ℝ) ≤ 1 / 2 ^ 52 := by norm_num
  have n1 := (exactPose_nearAt tgt).2 pt
  have nB := C171_roundtrip B ((rigid_iff _).1 hB)
  have nC := C171_roundtrip C.inv ((rigid_iff _).1 hC.inv)
  have n2 := nB.step hB n1 he
  have n3 := nC.step hC.inv n2 he
  have n4 := (exactPose_nearAt cam).step (exactPose_isRigid cam) n3 he
  unfold targetPointInCamera Spec.targetInCamera
  rw [Iso.inv_inv (exactPose_isRigid cam)]
  simp only [transformPoint_eq, C03_pose_action, Iso.apply_mul]
  refine n4.trans ?_
  have p0 := pt.norm_nonneg
  have p1 := ((exactPose tgt).apply pt).norm_nonneg
  have p2 := (B.apply ((exactPose tgt).apply pt)).norm_nonneg
  have p3 := (C.inv.apply (B.apply ((exactPose tgt).apply pt))).norm_nonneg
  norm_num
  linarith

/-- 3D: every residual is at most 2^-51 times the distances of the point from the frames on its way to the camera, for all
rigid guesses and mount poses and all data that fit the guess. -/
theorem C172_perfect_3d (p : HandEyeProblem Corr3) (hc : RigidMotion p.cameraGuess) (ht : RigidMotion p.targetGuess)
    (hm : ∀ o ∈ p.observations, RigidMotion o.toCameraMount ∧ RigidMotion o.toTargetMount)
    (hd : ∀ f ∈ features p.observations, f.2.inImage = inCamera3 p.cameraGuess p.targetGuess f) :
    List.Forall₂ (fun f b => b.residual (heInit p) ≠ [] ∧
        ∀ r ∈ b.residual (heInit p), |r| ≤ 1 / 2 ^ 51 * reach p.targetGuess f.1 f.2.inTarget)
      (features p.observations) (heBuild3 p) := by
  have hc' := (rigid_iff _).2 hc
  have ht' := (rigid_iff _).2 ht
  rw [heBuild3_eq, List.forall₂_map_right_iff, List.forall₂_same]
  intro f hf
  have hmf := hm f.1 (mem_features.1 hf).1
  have key := targetPointInCamera_near ((rigid_iff _).2 hmf.1) ((rigid_iff _).2 hmf.2) f.2.inTarget (heInit p heCam)
    (heInit p heTgt)
  have e0 : heInit p heCam = poseEigenToCal p.cameraGuess.inv := by simp [heInit, heCam, heTgt]
  have e1 : heInit p heTgt = poseEigenToCal p.targetGuess := by simp [heInit]
  have er : (heBlock3 f).residual (heInit p) = diff3 (targetPointInCamera f.1.toCameraMount.inv f.1.toTargetMount
      f.2.inTarget (heInit p heCam) (heInit p heTgt)) f.2.inImage := rfl
  rw [er, hd f hf]
  generalize targetPointInCamera f.1.toCameraMount.inv f.1.toTargetMount f.2.inTarget (heInit p heCam)
    (heInit p heTgt) = q at key ⊢
  rw [e0, e1, exactPose_poseEigenToCal hc'.inv, exactPose_poseEigenToCal ht', Iso.inv_inv hc'] at key
  refine ⟨by simp [diff3], ?_⟩
  unfold inCamera3 reach
  intro r hr
  simp only [diff3, List.mem_cons, List.not_mem_nil, or_false] at hr
  rcases hr with rfl | rfl | rfl
  · exact (V3.abs_x_le (q - _)).trans key
  · exact (V3.abs_y_le (q - _)).trans key
  · exact (V3.abs_z_le (q - _)).trans key

/-- Two nearby points in front of the camera have nearby pixels. -/
theorem pinhole_near (i : Intr) {a b : V3} {d : ℝ} (hb : 0 < b.z) (hab : (a - b).norm ≤ d) (hd : d ≤ b.z / 2) :
    0 < a.z ∧ |(pinhole i a).x - (pinhole i b).x| ≤ |i.fx| * (2 * d) * (b.z + |b.x|) / b.z ^ 2 ∧
      |(pinhole i a).y - (pinhole i b).y| ≤ |i.fy| * (2 * d) * (b.z + |b.y|) / b.z ^ 2 := by
  have hx := (V3.abs_x_le (a - b)).trans hab
  have hy := (V3.abs_y_le (a - b)).trans hab
  have hz := (V3.abs_z_le (a - b)).trans hab
  simp only [V3.sub_x, V3.sub_y, V3.sub_z] at hx hy hz
  have hd0 : 0 ≤ d := (abs_nonneg _).trans hx
  have hz' := abs_le.1 hz
  have haz : b.z / 2 ≤ a.z := by linarith
  have ha : 0 < a.z := by linarith
  have key : ∀ f c s t : ℝ, |s - t| ≤ d →
      |f * (s / a.z) + c - (f * (t / b.z) + c)| ≤ |f| * (2 * d) * (b.z + |t|) / b.z ^ 2 := by
    intro f c s t hst
    have e : f * (s / a.z) + c - (f * (t / b.z) + c) = f * (((s - t) * b.z - t * (a.z - b.z)) / (a.z * b.z)) := by
      field_simp; ring
    rw [e, abs_mul, abs_div, abs_of_pos (mul_pos ha hb), mul_assoc, mul_div_assoc]
    apply mul_le_mul_of_nonneg_left _ (abs_nonneg f)
    have hnum : |(s - t) * b.z - t * (a.z - b.z)| ≤ d * (b.z + |t|) := by
      calc _ ≤ |(s - t) * b.z| + |t * (a.z - b.z)| := abs_sub _ _
        _ = |s - t| * b.z + |t| * |a.z - b.z| := by rw [abs_mul, abs_mul, abs_of_pos hb]
        _ ≤ d * b.z + |t| * d :=
          add_le_add (mul_le_mul_of_nonneg_right hst hb.le) (mul_le_mul_of_nonneg_left hz (abs_nonneg t))
        _ = _ := by ring
    rw [div_le_div_iff₀ (mul_pos ha hb) (by positivity)]
    have h2 : b.z ^ 2 ≤ 2 * (a.z * b.z) := by nlinarith
    have h3 : 0 ≤ d * (b.z + |t|) := mul_nonneg hd0 (add_nonneg hb.le (abs_nonneg t))
    calc _ ≤ d * (b.z + |t|) * b.z ^ 2 := mul_le_mul_of_nonneg_right hnum (by positivity)
      _ ≤ d * (b.z + |t|) * (2 * (a.z * b.z)) := mul_le_mul_of_nonneg_left h2 h3
      _ = _ := by ring
  exact ⟨ha, key _ _ _ _ hx, key _ _ _ _ hy⟩

/-- 2D: for features whose depth is not below 2^-50 times their distances, the visibility check passes, and the residuals
are what an error of that size makes in the image. -/
theorem C172_perfect_2d (p : HandEyeProblem Corr2) (hc : RigidMotion p.cameraGuess) (ht : RigidMotion p.targetGuess)
    (hm : ∀ o ∈ p.observations, RigidMotion o.toCameraMount ∧ RigidMotion o.toTargetMount)
    (hd : ∀ f ∈ features p.observations, f.2.inImage = pinhole p.intr (inCamera2 p.cameraGuess p.targetGuess f))
    (hz : ∀ f ∈ features p.observations, 0 < (inCamera2 p.cameraGuess p.targetGuess f).z ∧
      1 / 2 ^ 50 * reach p.targetGuess f.1 f.2.inTarget ≤ (inCamera2 p.cameraGuess p.targetGuess f).z) :
    ∃ pb, heBuild2 p = .ok pb ∧
      List.Forall₂ (fun f b => ∃ rx ry, b.residual (heInit p) = [rx, ry] ∧
          |rx| ≤ |p.intr.fx| * (1 / 2 ^ 50 * reach p.targetGuess f.1 f.2.inTarget) *
            ((inCamera2 p.cameraGuess p.targetGuess f).z + |(inCamera2 p.cameraGuess p.targetGuess f).x|) /
              (inCamera2 p.cameraGuess p.targetGuess f).z ^ 2 ∧
          |ry| ≤ |p.intr.fy| * (1 / 2 ^ 50 * reach p.targetGuess f.1 f.2.inTarget) *
            ((inCamera2 p.cameraGuess p.targetGuess f).z + |(inCamera2 p.cameraGuess p.targetGuess f).y|) /
              (inCamera2 p.cameraGuess p.targetGuess f).z ^ 2)
        (features p.observations) pb := by
  have hc' := (rigid_iff _).2 hc
  have ht' := (rigid_iff _).2 ht
  have e0 : heInit p heCam = poseEigenToCal p.cameraGuess.inv := by simp [heInit, heCam, heTgt]
  have e1 : heInit p heTgt = poseEigenToCal p.targetGuess := by simp [heInit]
  have near : ∀ f ∈ features p.observations, (targetPointInCamera f.1.toCameraMount.inv f.1.toTargetMount f.2.inTarget
      (heInit p heCam) (heInit p heTgt) - inCamera2 p.cameraGuess p.targetGuess f).norm ≤
        1 / 2 ^ 51 * reach p.targetGuess f.1 f.2.inTarget := by
    intro f hf
    have hmf := hm f.1 (mem_features.1 hf).1
    have key := targetPointInCamera_near ((rigid_iff _).2 hmf.1) ((rigid_iff _).2 hmf.2) f.2.inTarget (heInit p heCam)
      (heInit p heTgt)
    generalize targetPointInCamera f.1.toCameraMount.inv f.1.toTargetMount f.2.inTarget (heInit p heCam)
      (heInit p heTgt) = q at key ⊢
    rw [e0, e1, exactPose_poseEigenToCal hc'.inv, exactPose_poseEigenToCal ht', Iso.inv_inv hc'] at key
    exact key
  have pix := fun f hf => pinhole_near p.intr (hz f hf).1 (near f hf) (by
    have := (hz f hf).2
    norm_num at this ⊢; linarith)
  rcases heBuild2_cases p with ⟨-, hb⟩ | ⟨⟨f, hf, hv⟩, -⟩
  · refine ⟨_, hb, ?_⟩
    rw [List.forall₂_map_right_iff, List.forall₂_same]
    intro f hf
    obtain ⟨h0, hx, hy⟩ := pix f hf
    refine ⟨_, _, rfl, ?_, ?_⟩
    · simp only [C02_pinhole p.intr _ h0.ne', hd f hf]
      refine hx.trans (le_of_eq ?_)
      norm_num; ring
    · simp only [C02_pinhole p.intr _ h0.ne', hd f hf]
      refine hy.trans (le_of_eq ?_)
      norm_num; ring
  · exact absurd (pix f hf).1 hv

/-- A target two metres in front of the camera, rotated by a nanoradian, meets the conditions. -/
example : let T : Iso := ⟨AngleAxis.toMat ⟨1 / 10 ^ 9, ⟨1, 0, 0⟩⟩, ⟨0, 0, 2⟩⟩
    let p : HandEyeProblem Corr2 := ⟨[⟨[⟨⟨250, 0⟩, ⟨1, 0, 0⟩⟩], 1, 1⟩], ⟨500, 500, 0, 0⟩, T, 1, "c", "t", labelsIsometry3d⟩
    RigidMotion p.cameraGuess ∧ RigidMotion p.targetGuess ∧ ¬ Representable p.targetGuess ∧
    (∀ o ∈ p.observations, RigidMotion o.toCameraMount ∧ RigidMotion o.toTargetMount) ∧
    (∀ f ∈ features p.observations, f.2.inImage = pinhole p.intr (inCamera2 p.cameraGuess p.targetGuess f)) ∧
    (∀ f ∈ features p.observations, 0 < (inCamera2 p.cameraGuess p.targetGuess f).z ∧
      1 / 2 ^ 50 * reach p.targetGuess f.1 f.2.inTarget ≤ (inCamera2 p.cameraGuess p.targetGuess f).z) := by
  have h1 : RigidMotion 1 := (rigid_iff 1).1 Iso.IsRigid.one
  have hp : (⟨AngleAxis.toMat ⟨1 / 10 ^ 9, ⟨1, 0, 0⟩⟩, ⟨0, 0, 2⟩⟩ : Iso).apply ⟨1, 0, 0⟩ = ⟨1, 0, 2⟩ := by
    simp only [Iso.apply, AngleAxis.toMat, M3.mulVec]; ext <;> simp
  have hn : (⟨1, 0, 2⟩ : V3).norm ≤ 3 := by
    apply V3.norm_le_of_normSq (by norm_num); norm_num [V3.normSq, V3.dot]
  have hn1 : (⟨1, 0, 0⟩ : V3).norm ≤ 1 := by
    apply V3.norm_le_of_normSq (by norm_num); norm_num [V3.normSq, V3.dot]
  refine ⟨h1, (tinyRotation _).1, (tinyRotation _).2, ?_, ?_, ?_⟩
  · intro o ho
    simp only [List.mem_singleton] at ho
    subst ho; exact ⟨h1, h1⟩
  · intro f hf
    simp only [features, List.flatMap_cons, List.flatMap_nil, List.map_cons, List.map_nil, List.append_nil,
      List.mem_singleton] at hf
    subst hf
    simp only [inCamera2, Spec.targetInCamera, Iso.inv_one, Iso.one_mul, hp, pinhole]
    norm_num
  · intro f hf
    simp only [features, List.flatMap_cons, List.flatMap_nil, List.map_cons, List.map_nil, List.append_nil,
      List.mem_singleton] at hf
    subst hf
    simp only [inCamera2, Spec.targetInCamera, Iso.inv_one, Iso.one_mul, hp, reach]
    norm_num; linarith

/-! ## C173 Guesses come back up to rounding -/

/-- Hand-eye, both entry points. -/
theorem C173_hand_eye_3d (s : Ceres Pose6) (p : HandEyeProblem Corr3) (res : HandEyeResult)
    (hstay : ∀ pb st, s.solve pb st = st) (hc : RigidMotion p.cameraGuess) (ht : RigidMotion p.targetGuess)
    (h : handEye3 s p = .ok res) :
    NearBy (1 / 2 ^ 52) res.cameraMountToCamera p.cameraGuess ∧
      NearAt (1 / 2 ^ 52) res.targetMountToTarget p.targetGuess := by
  obtain ⟨-, h1, h2⟩ := heFinish_ok h
  rw [hstay] at h1 h2
  have e0 : heInit p heCam = poseEigenToCal p.cameraGuess.inv := by simp [heInit, heCam, heTgt]
  have e1 : heInit p heTgt = poseEigenToCal p.targetGuess := by simp [heInit]
  rw [h1, h2, e0, e1]
  exact ⟨C171_roundtrip_inverse _ hc, C171_roundtrip _ ht⟩

theorem C173_hand_eye_2d (s : Ceres Pose6) (p : HandEyeProblem Corr2) (res : HandEyeResult)
    (hstay : ∀ pb st, s.solve pb st = st) (hc : RigidMotion p.cameraGuess) (ht : RigidMotion p.targetGuess)
    (h : handEye2 s p = .ok res) :
    NearBy (1 / 2 ^ 52) res.cameraMountToCamera p.cameraGuess ∧
      NearAt (1 / 2 ^ 52) res.targetMountToTarget p.targetGuess := by
  unfold handEye2 at h
  rw [Res.bind_ok_iff] at h
  obtain ⟨pb, -, h⟩ := h
  obtain ⟨-, h1, h2⟩ := heFinish_ok h
  rw [hstay] at h1 h2
  have e0 : heInit p heCam = poseEigenToCal p.cameraGuess.inv := by simp [heInit, heCam, heTgt]
  have e1 : heInit p heTgt = poseEigenToCal p.targetGuess := by simp [heInit]
  rw [h1, h2, e0, e1]
  exact ⟨C171_roundtrip_inverse _ hc, C171_roundtrip _ ht⟩

/-- A guess rotated by a nanoradian and a solver that stays meet the conditions. -/
example : let T : Iso := ⟨AngleAxis.toMat ⟨1 / 10 ^ 9, ⟨1, 0, 0⟩⟩, ⟨0, 0, 2⟩⟩
    RigidMotion T ∧ ¬ Representable T ∧ (∀ pb st, (idCeres Pose6).solve pb st = st) ∧
    ∃ res, mcPnp (idCeres Pose6) ⟨[], [], [], T⟩ = .ok res :=
  ⟨(tinyRotation _).1, (tinyRotation _).2, fun _ _ => rfl, _, rfl⟩

/-- Multi camera PnP. -/
theorem C173_multi_camera_pnp (s : Ceres Pose6) (p : McPnpProblem) (res : McPnpResult) (hstay : ∀ pb st, s.solve pb st = st)
    (hg : RigidMotion p.guess) (h : mcPnp s p = .ok res) : NearAt (1 / 2 ^ 52) res.baseToTarget p.guess := by
  unfold mcPnp at h
  rw [Res.bind_ok_iff] at h
  obtain ⟨pb, -, h⟩ := h
  cases h
  simp only [hstay]
  exact C171_roundtrip _ hg

theorem forall₂_range {α β : Type} (l : List α) (f : Nat → β) (r : β → α → Prop)
    (h : ∀ i a, l[i]? = some a → r (f i) a) : List.Forall₂ r ((List.range l.length).map f) l := by
  rw [List.forall₂_iff_get]
  refine ⟨by simp, fun i h1 h2 => ?_⟩
  simp only [List.get_eq_getElem, List.getElem_map, List.getElem_range]
  exact h i _ (List.getElem?_eq_getElem h2)

/-- Static cameras, moving target. -/
theorem C173_multi_static (s : Ceres Pose6) (p : MsProblem) (res : MsResult) (hstay : ∀ pb st, s.solve pb st = st)
    (ht : RigidMotion p.wristToTargetGuess) (hc : ∀ g ∈ p.baseToCameraGuess, RigidMotion g)
    (h : multiStatic s p = .ok res) :
    NearAt (1 / 2 ^ 52) res.wristToTarget p.wristToTargetGuess ∧
      List.Forall₂ (NearBy (1 / 2 ^ 52)) res.baseToCamera p.baseToCameraGuess := by
  unfold multiStatic at h
  simp only [Res.bind_ok_iff] at h
  obtain ⟨pb, -, cov, -, h⟩ := h
  cases h
  simp only [hstay]
  refine ⟨by simpa [msInit, msTgt] using C171_roundtrip _ ht, forall₂_range _ _ _ ?_⟩
  intro i g hi
  have : msInit p (msCam i) = poseEigenToCal g.inv := by simp [msInit, msCam, msTgt, hi]
  rw [this]
  exact C171_roundtrip_inverse g (hc g (List.mem_of_getElem? hi))

/-- Static cameras only, with at least one image (without images the cameras are lost: `C39_negation`). -/
theorem C173_camera_only (s : Ceres Pose6) (p : CoProblem) (res : CoResult) (hstay : ∀ pb st, s.solve pb st = st)
    (h0 : p.baseToTargetGuess ≠ []) (ht : ∀ g ∈ p.baseToTargetGuess, RigidMotion g)
    (hc : ∀ g ∈ p.baseToCameraGuess, RigidMotion g) (h : cameraOnly s p = .ok res) :
    List.Forall₂ (NearAt (1 / 2 ^ 52)) res.baseToTarget p.baseToTargetGuess ∧
      List.Forall₂ (NearBy (1 / 2 ^ 52)) res.baseToCamera p.baseToCameraGuess := by
  unfold cameraOnly at h
  simp only [Res.bind_ok_iff] at h
  obtain ⟨pb, -, h⟩ := h
  cases h
  simp only [hstay]
  constructor
  · refine forall₂_range _ _ _ fun i g hi => ?_
    have : coInit p (coTgt i) = poseEigenToCal g := by simp [coInit, coTgt, hi]
    rw [this]
    exact C171_roundtrip g (ht g (List.mem_of_getElem? hi))
  · refine forall₂_range _ _ _ fun i g hi => ?_
    have : coInit p (coCam i) = poseEigenToCal g.inv := by
      have h1 : (2 * i + 1) % 2 = 1 := by omega
      have h2 : (2 * i + 1) / 2 = i := by omega
      simp [coInit, coCam, h1, h2, hi, h0]
    rw [this]
    exact C171_roundtrip_inverse g (hc g (List.mem_of_getElem? hi))

/-- Static cameras only, for every solver: the first camera, if it is fixed. -/
theorem C173_first_camera (s : Ceres Pose6) (hs : s.WF) (p : CoProblem) (res : CoResult) (h : cameraOnly s p = .ok res)
    (hf : p.fixFirst = true) (hi : p.baseToTargetGuess ≠ []) (g : Iso) (h0 : p.baseToCameraGuess[0]? = some g)
    (hg : RigidMotion g) : ∃ T, res.baseToCamera[0]? = some T ∧ NearBy (1 / 2 ^ 52) T g := by
  unfold cameraOnly at h
  rw [Res.bind_ok_iff] at h
  obtain ⟨pb, hb, h⟩ := h
  cases h
  have hn : coCam 0 ∉ usedBlocks pb := by
    rw [mem_usedBlocks]
    rintro ⟨b, hb', hc⟩
    exact (C39_constrains p pb hb hf).2 b hb' hc
  have hpos : 0 < p.baseToCameraGuess.length := (List.getElem?_eq_some_iff.1 h0).1
  simp only
  rw [List.getElem?_map, List.getElem?_range hpos, Option.map_some, hs.frame _ _ _ hn]
  have : coInit p (coCam 0) = poseEigenToCal g.inv := by
    simp [coInit, coCam, h0, hi]
  rw [this]
  exact ⟨_, rfl, C171_roundtrip_inverse g hg⟩

/-- Common correction of all cameras: the cameras come back exactly, the target up to rounding. -/
theorem C173_wrist_only (s : Ceres Pose6) (p : WoProblem) (res : WoResult) (hstay : ∀ pb st, s.solve pb st = st)
    (ht : RigidMotion p.wristToTargetGuess) (h : wristOnly s p = .ok res) :
    NearAt (1 / 2 ^ 52) res.wristToTarget p.wristToTargetGuess ∧ res.baseToCamera = p.baseToCameraGuess := by
  unfold wristOnly at h
  simp only [Res.bind_ok_iff] at h
  obtain ⟨pb, -, h⟩ := h
  cases h
  simp only [hstay]
  refine ⟨by simpa [woInit, woTgt] using C171_roundtrip _ ht, ?_⟩
  have : woInit p woCorr = poseEigenToCal 1 := by simp [woInit, woTgt, woCorr]
  rw [this, Representable.one.roundtrip, Iso.inv_one]
  simp [Iso.one_mul]

theorem kinTransform_near {T : Iso} (h : RigidMotion T) : NearAt (1 / 2 ^ 52) (kinTransform T.t (aaOf T)) T := by
  have hr : T.R.IsRot := (rigid_iff T).2 h
  by_cases hk : KinRepresentable T
  · rw [kinTransform_aaOf hk]
    exact ⟨rfl, fun v => by rw [V3.sub_self, norm_zero_v3]; exact mul_nonneg (by norm_num) v.norm_nonneg⟩
  · have hang := toAngleAxis_angle hr
    obtain ⟨h1, h2, h3⟩ := hr.toAngleAxis
    have hle : rotAngle T.R ≤ 1 / 2 ^ 52 := by
      by_contra hc
      exact hk ⟨h, Or.inr (not_le.1 hc)⟩
    have hn : (aaOf T).norm = rotAngle T.R := by
      unfold aaOf
      rw [V3.norm_smul_unit h1, abs_of_nonneg h2, hang]
    rw [kinTransform_small (by rw [hn]; exact not_lt.2 hle)]
    refine ⟨rfl, fun v => ?_⟩
    rw [apply_sub_apply (S := ⟨1, T.t⟩) (T := T) rfl, M3.one_mulVec]
    have := rot_near_one h1 h2 v
    have e : AngleAxis.toMat ⟨T.R.toAngleAxis.angle, T.R.toAngleAxis.axis⟩ = T.R := h3
    rw [e, hang] at this
    exact this.trans (mul_le_mul_of_nonneg_right hle v.norm_nonneg)

/-- Kinematic calibration. -/
theorem C173_kinematic (K : KCeres) (hK : K.WF) (p : KinProblem) (costs : List ((Nat → Mem) → Res (List ℝ)))
    (r : KinResult) (hstay : ∀ bs pb st, (K.run bs).solve pb st = st) (h1 : RigidMotion p.cmToC)
    (h2 : RigidMotion p.tmToT) (h3 : RigidMotion p.cbToTb) (h : kinOptimize K p costs = .ok r) :
    NearAt (1 / 2 ^ 52) r.cmToC p.cmToC ∧ NearAt (1 / 2 ^ 52) r.tmToT p.tmToT ∧ NearAt (1 / 2 ^ 52) r.cbToTb p.cbToTb := by
  obtain ⟨R⟩ := kinOptimize_ok hK h
  have hst := R.st_eq
  rw [hstay] at hst
  rw [R.cmToC, R.tmToT, R.cbToTb, hst]
  exact ⟨kinTransform_near h1, kinTransform_near h2, kinTransform_near h3⟩

/-! ## C174 Optimised errors are those of the reported transforms up to rounding -/

/-- 3D hand-eye: at every parameter state, the reported transforms are within rounding of rigid transforms whose
reprojection errors are within rounding of the optimised residuals. -/
theorem C174_hand_eye_3d (p : HandEyeProblem Corr3) (st : Nat → Pose6)
    (hm : ∀ o ∈ p.observations, RigidMotion o.toCameraMount ∧ RigidMotion o.toTargetMount) :
    ∃ Xc Xt : Iso, RigidMotion Xc ∧ RigidMotion Xt ∧
      NearBy (1 / 2 ^ 52) (poseCalToEigen (st heCam)).inv Xc ∧ NearAt (1 / 2 ^ 52) (poseCalToEigen (st heTgt)) Xt ∧
      List.Forall₂ (fun f b => List.Forall₂ (fun r e => |r - e| ≤ 1 / 2 ^ 51 * reach Xt f.1 f.2.inTarget)
          (b.residual st) (diff3 (inCamera3 Xc Xt f) f.2.inImage))
        (features p.observations) (heBuild3 p) := by
  refine ⟨(exactPose (st heCam)).inv, exactPose (st heTgt), (rigid_iff _).1 (exactPose_isRigid _).inv,
    (rigid_iff _).1 (exactPose_isRigid _), exactPose_nearBy_inv _, exactPose_nearAt _, ?_⟩
  rw [heBuild3_eq, List.forall₂_map_right_iff, List.forall₂_same]
  intro f hf
  have hmf := hm f.1 (mem_features.1 hf).1
  have key := targetPointInCamera_near ((rigid_iff _).2 hmf.1) ((rigid_iff _).2 hmf.2) f.2.inTarget (st heCam) (st heTgt)
  have er : (heBlock3 f).residual st = diff3 (targetPointInCamera f.1.toCameraMount.inv f.1.toTargetMount
      f.2.inTarget (st heCam) (st heTgt)) f.2.inImage := rfl
  rw [er]
  unfold inCamera3 reach diff3
  generalize targetPointInCamera f.1.toCameraMount.inv f.1.toTargetMount f.2.inTarget (st heCam) (st heTgt) = q at key ⊢
  simp only [List.forall₂_cons, List.forall₂_nil_left_iff, and_true, sub_sub_sub_cancel_right]
  exact ⟨(V3.abs_x_le (q - _)).trans key, (V3.abs_y_le (q - _)).trans key, (V3.abs_z_le (q - _)).trans key⟩

/-- 2D hand-eye, for features whose depth is not below 2^-50 times their distances. -/
theorem C174_hand_eye_2d (p : HandEyeProblem Corr2) (pb : List (ResBlock Pose6)) (hb : heBuild2 p = .ok pb)
    (st : Nat → Pose6) (hm : ∀ o ∈ p.observations, RigidMotion o.toCameraMount ∧ RigidMotion o.toTargetMount) :
    ∃ Xc Xt : Iso, RigidMotion Xc ∧ RigidMotion Xt ∧
      NearBy (1 / 2 ^ 52) (poseCalToEigen (st heCam)).inv Xc ∧ NearAt (1 / 2 ^ 52) (poseCalToEigen (st heTgt)) Xt ∧
      List.Forall₂ (fun f b => 0 < (inCamera2 Xc Xt f).z →
          1 / 2 ^ 50 * reach Xt f.1 f.2.inTarget ≤ (inCamera2 Xc Xt f).z →
          ∃ rx ry, b.residual st = [rx, ry] ∧
            |rx - ((pinhole p.intr (inCamera2 Xc Xt f)).x - f.2.inImage.x)| ≤
              |p.intr.fx| * (1 / 2 ^ 50 * reach Xt f.1 f.2.inTarget) *
                ((inCamera2 Xc Xt f).z + |(inCamera2 Xc Xt f).x|) / (inCamera2 Xc Xt f).z ^ 2 ∧
            |ry - ((pinhole p.intr (inCamera2 Xc Xt f)).y - f.2.inImage.y)| ≤
              |p.intr.fy| * (1 / 2 ^ 50 * reach Xt f.1 f.2.inTarget) *
                ((inCamera2 Xc Xt f).z + |(inCamera2 Xc Xt f).y|) / (inCamera2 Xc Xt f).z ^ 2)
        (features p.observations) pb := by
  refine ⟨(exactPose (st heCam)).inv, exactPose (st heTgt), (rigid_iff _).1 (exactPose_isRigid _).inv,
    (rigid_iff _).1 (exactPose_isRigid _), exactPose_nearBy_inv _, exactPose_nearAt _, ?_⟩
  rcases heBuild2_cases p with ⟨-, hb'⟩ | ⟨-, hb'⟩
  swap
  · rw [hb'] at hb; cases hb
  rw [hb'] at hb
  cases hb
  rw [List.forall₂_map_right_iff, List.forall₂_same]
  intro f hf h0 hz
  have hmf := hm f.1 (mem_features.1 hf).1
  have key := targetPointInCamera_near ((rigid_iff _).2 hmf.1) ((rigid_iff _).2 hmf.2) f.2.inTarget (st heCam) (st heTgt)
  obtain ⟨ha, hx, hy⟩ := pinhole_near p.intr h0 key (by
    unfold reach at hz
    norm_num at hz ⊢; linarith)
  refine ⟨_, _, rfl, ?_, ?_⟩
  · simp only [C02_pinhole p.intr _ ha.ne', sub_sub_sub_cancel_right]
    refine hx.trans (le_of_eq ?_)
    unfold inCamera2 reach
    norm_num; ring
  · simp only [C02_pinhole p.intr _ ha.ne', sub_sub_sub_cancel_right]
    refine hy.trans (le_of_eq ?_)
    unfold inCamera2 reach
    norm_num; ring

end RCT
