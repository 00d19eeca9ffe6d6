import Verif.Lemmas.StableIntrinsic
import Verif.Props.Stable
import Verif.Props.IntrinsicStart

/-!
# C216: little noise leaves the intrinsic calibration close to the truth

The results hold for all runs of all solvers.
-/

namespace RCT

open Spec

/-! ## C216 -/

theorem usable_length {s3 : Ceres V3} {s : Ceres Mem} {p : IntrinsicProblem} {res : IntrinsicResult} (h : intrinsic s3 s p = .ok res)
    {poses : List (Option Pose6)} (hp : intrPoses s3 p = .ok poses) {targets : List (List V3)}
    (ht : p.observations.map targetPoints = targets) :
    (usableFeatures p.observations (validIdx poses)).length = (targets.map List.length).sum := by
  rw [validIdx_all h hp, ← ht]
  simp only [usableFeatures, List.length_flatMap, List.length_map, List.map_map]
  congr 1
  apply List.ext_getElem
  · simp
  · intro i h1 h2
    simp at h1
    simp [targetPoints, h1]

theorem targets_getD {obs : List (List Corr2)} {targets : List (List V3)} (ht : obs.map targetPoints = targets) (j : Nat) :
    targets.getD j [] = targetPoints (obs.getD j []) := by
  rw [← ht]
  by_cases hj : j < obs.length
  · simp [hj]
  · simp [not_lt.1 hj, targetPoints]

/-- Errors in the image at the end of a run. -/
theorem intrinsic_pixels {targets : List (List V3)} {δ : ℝ} (hδ : 0 < δ) :
    ∃ r : ℝ, 0 < r ∧ ∀ (s3 : Ceres V3) (s : Ceres Mem) (p : IntrinsicProblem) (res : IntrinsicResult) (F : ℝ) (intr : Intr) (T : Nat → Iso),
      intrinsic s3 s p = .ok res → p.observations.map targetPoints = targets → NoisyImages r intr T p.observations →
      res.finalCost = some F → F ≤ r →
      ∃ poses, intrPoses s3 p = .ok poses ∧ ∀ T' : Nat → Iso,
        (∀ i, T' i = poseCalToEigen (s.solve (intrBuild p poses) (intrInit p poses) (poseBlk i)).pose) →
        (∀ i, i < p.observations.length → ∀ k ∈ p.observations.getD i [], ((T' i).apply k.inTarget).z ≠ 0) →
        LittleDistortion r res.intrinsics res.distortions T' p.observations →
        ∀ i, i < p.observations.length → ∀ q ∈ targets.getD i [],
          |(pinhole res.intrinsics ((T' i).apply q)).x - (pinhole intr ((T i).apply q)).x| ≤ δ ∧
          |(pinhole res.intrinsics ((T' i).apply q)).y - (pinhole intr ((T i).apply q)).y| ≤ δ := by
  obtain ⟨r, hr, hb⟩ := pixel_bound (half_pos hδ) (targets.map List.length).sum
  refine ⟨min r (δ / 2), lt_min hr (half_pos hδ), fun s3 s p res F intr T h ht hn hF hle => ?_⟩
  obtain ⟨k1, k2, p1, p2, k3, poses, hd, hp, hres⟩ := C89_residuals s3 s p res h
  refine ⟨poses, hp, fun T' hT' hz hdist => ?_⟩
  obtain ⟨poses', hp', -, hfin, -⟩ := intrinsic_ok h
  rw [hp] at hp'
  cases hp'
  have hr' := hres T' hT' fun f hf => by
    obtain ⟨h1, h2⟩ := (intrinsic_features h hp f).1 hf
    exact hz f.1 h1 f.2 h2
  rw [hfin, costPerObs_eq_meanCost, hr'] at hF
  have hpx := hb (usableFeatures p.observations (validIdx poses)) _ _ (fun f => pinhole intr ((T f.1).apply f.2.inTarget)) F
    (usable_length h hp ht) hF (hle.trans (min_le_left _ _)) (fun f hf => by
      obtain ⟨h1, h2⟩ := (intrinsic_features h hp f).1 hf
      obtain ⟨n1, n2⟩ := hn f.1 h1 f.2 h2
      exact ⟨n1.trans (min_le_left _ _), n2.trans (min_le_left _ _)⟩)
  intro i hi q hq
  rw [targets_getD ht] at hq
  obtain ⟨k, hk, rfl⟩ := List.mem_map.1 hq
  obtain ⟨a1, a2⟩ := hpx (i, k) ((intrinsic_features h hp (i, k)).2 ⟨hi, hk⟩)
  obtain ⟨b1, b2⟩ := hdist i hi k hk
  rw [hd] at b1 b2
  simp only [lensPixel, List.getD_cons_zero, List.getD_cons_succ] at a1 a2 b1 b2
  have c1 := b1.trans (min_le_right _ _)
  have c2 := b2.trans (min_le_right _ _)
  rw [abs_le] at a1 a2 c1 c2
  rw [abs_le, abs_le]
  exact ⟨⟨by linarith [a1.1, c1.2], by linarith [a1.2, c1.1]⟩, ⟨by linarith [a2.1, c2.2], by linarith [a2.2, c2.1]⟩⟩

/-- For every camera, every arrangement of targets that determines it (as in `C181_unique`) and every wanted accuracy there is a bound
on noise, final cost and reported distortion that guarantees the accuracy of the reported focal lengths (up to sign) and centre. -/
theorem C216_camera (intr : Intr) (hx : intr.fx ≠ 0) (hy : intr.fy ≠ 0) (T : Nat → Iso) (targets : List (List V3)) (good : List Nat)
    (hgood : ∀ j ∈ good, j < targets.length ∧ ViewedWell (T j) (targets.getD j []))
    (hfew : ¬ FewDirections (good.map fun j => Spec.planeNormal (T j))) (e : ℝ) (he : 0 < e) :
    ∃ r : ℝ, 0 < r ∧ ∀ (s3 : Ceres V3) (s : Ceres Mem) (p : IntrinsicProblem) (res : IntrinsicResult) (F : ℝ),
      intrinsic s3 s p = .ok res → p.observations.map targetPoints = targets → NoisyImages r intr T p.observations →
      res.finalCost = some F → F ≤ r →
      ∃ poses, intrPoses s3 p = .ok poses ∧ ∀ T' : Nat → Iso,
        (∀ i, T' i = poseCalToEigen (s.solve (intrBuild p poses) (intrInit p poses) (poseBlk i)).pose) →
        (∀ i, i < p.observations.length → RigidMotion (T' i)) →
        (∀ i, i < p.observations.length → ∀ k ∈ p.observations.getD i [], ((T' i).apply k.inTarget).z ≠ 0) →
        LittleDistortion r res.intrinsics res.distortions T' p.observations →
        CloseCamera e res.intrinsics intr := by
  obtain ⟨δ, hδ, hst⟩ := camera_stable hx hy (good := good) (T := T) (pts := fun j => targets.getD j [])
    (fun j hj => ⟨(rigid_iff _).2 (hgood j hj).2.1, (hgood j hj).2.2⟩) hfew he
  obtain ⟨r, hr, hpx⟩ := intrinsic_pixels (targets := targets) hδ
  refine ⟨r, hr, fun s3 s p res F h ht hn hF hle => ?_⟩
  obtain ⟨poses, hp, hall⟩ := hpx s3 s p res F intr T h ht hn hF hle
  refine ⟨poses, hp, fun T' hT' hrig hz hdist => hst _ T' fun j hj => ?_⟩
  have hjl : j < p.observations.length := by have := (hgood j hj).1; rw [← ht] at this; simpa using this
  refine ⟨(rigid_iff _).2 (hrig j hjl), fun q hq => ⟨?_, hall T' hT' hz hdist j hjl q hq⟩⟩
  have hq' : q ∈ targets.getD j [] := hq
  rw [targets_getD ht] at hq'
  obtain ⟨k, hk, rfl⟩ := List.mem_map.1 hq'
  exact hz j hjl k hk

/-- If in addition the signs of the focal lengths are right and the target is in front of the camera, in truth and in the result: the
final poses of the target in the images are close to the true ones too, and the focal lengths including their signs. -/
theorem C216_poses (intr : Intr) (hx : intr.fx ≠ 0) (hy : intr.fy ≠ 0) (T : Nat → Iso) (targets : List (List V3)) (good : List Nat)
    (hgood : ∀ j ∈ good, j < targets.length ∧ ViewedWell (T j) (targets.getD j []) ∧ ∀ q ∈ targets.getD j [], 0 < ((T j).apply q).z)
    (hfew : ¬ FewDirections (good.map fun j => Spec.planeNormal (T j))) (e : ℝ) (he : 0 < e) :
    ∃ r : ℝ, 0 < r ∧ ∀ (s3 : Ceres V3) (s : Ceres Mem) (p : IntrinsicProblem) (res : IntrinsicResult) (F : ℝ),
      intrinsic s3 s p = .ok res → p.observations.map targetPoints = targets → NoisyImages r intr T p.observations →
      res.finalCost = some F → F ≤ r → 0 < res.intrinsics.fx * intr.fx → 0 < res.intrinsics.fy * intr.fy →
      ∃ poses, intrPoses s3 p = .ok poses ∧ ∀ T' : Nat → Iso,
        (∀ i, T' i = poseCalToEigen (s.solve (intrBuild p poses) (intrInit p poses) (poseBlk i)).pose) →
        (∀ i, i < p.observations.length → RigidMotion (T' i)) →
        (∀ i, i < p.observations.length → ∀ k ∈ p.observations.getD i [], 0 < ((T' i).apply k.inTarget).z) →
        LittleDistortion r res.intrinsics res.distortions T' p.observations →
        |res.intrinsics.fx - intr.fx| ≤ e ∧ |res.intrinsics.fy - intr.fy| ≤ e ∧ |res.intrinsics.cx - intr.cx| ≤ e ∧
          |res.intrinsics.cy - intr.cy| ≤ e ∧ ∀ j ∈ good, Close e (T' j) (T j) := by
  obtain ⟨ρ, hρ, hposes⟩ := uniform_bound (fun (j : Nat) r => ∀ (i' : Intr) (T' : Iso), CloseCamera r i' intr → 0 < i'.fx * intr.fx →
      0 < i'.fy * intr.fy → T'.IsRigid → (∀ p ∈ targets.getD j [], 0 < (T'.apply p).z ∧
        |(pinhole i' (T'.apply p)).x - (pinhole intr ((T j).apply p)).x| ≤ r ∧
        |(pinhole i' (T'.apply p)).y - (pinhole intr ((T j).apply p)).y| ≤ r) → Close e T' (T j))
    (fun j r r' h hle i' T' c s1 s2 hr hp => h i' T' ⟨c.1.trans hle, c.2.1.trans hle, c.2.2.1.trans hle, c.2.2.2.trans hle⟩ s1 s2 hr
      fun q hq => ⟨(hp q hq).1, (hp q hq).2.1.trans hle, (hp q hq).2.2.trans hle⟩) good
    (fun j hj => pose_stable hx hy ((rigid_iff _).2 (hgood j hj).2.1.1) (hgood j hj).2.1.2.1 (hgood j hj).2.1.2.2.1 (hgood j hj).2.2 he)
  obtain ⟨r1, hr1, hcam⟩ := C216_camera intr hx hy T targets good (fun j hj => ⟨(hgood j hj).1, (hgood j hj).2.1⟩) hfew (min e ρ) (lt_min he hρ)
  obtain ⟨r2, hr2, hpx⟩ := intrinsic_pixels (targets := targets) hρ
  have noise : ∀ {a b : ℝ}, a ≤ b → ∀ {α : Type} {l : List α} {m t : α → V2}, PixelNoise a l m t → PixelNoise b l m t :=
    fun hab _ _ _ _ h x hx => ⟨(h x hx).1.trans hab, (h x hx).2.trans hab⟩
  have m1 := min_le_left r1 r2
  have m2 := min_le_right r1 r2
  refine ⟨min r1 r2, lt_min hr1 hr2, fun s3 s p res F h ht hn hF hle sx sy => ?_⟩
  obtain ⟨poses, hp, hc⟩ := hcam s3 s p res F h ht (fun i hi => noise m1 (hn i hi)) hF (hle.trans m1)
  obtain ⟨poses', hp', ha⟩ := hpx s3 s p res F intr T h ht (fun i hi => noise m2 (hn i hi)) hF (hle.trans m2)
  rw [hp] at hp'
  cases hp'
  refine ⟨poses, hp, fun T' hT' hrig hz hdist => ?_⟩
  have hz' : ∀ i, i < p.observations.length → ∀ k ∈ p.observations.getD i [], ((T' i).apply k.inTarget).z ≠ 0 :=
    fun i hi k hk => (hz i hi k hk).ne'
  obtain ⟨c1, c2, c3, c4⟩ := hc T' hT' hrig hz' fun i hi => noise m1 (hdist i hi)
  have n1 := min_le_left e ρ
  have n2 := min_le_right e ρ
  refine ⟨abs_sub_of_sign sx (c1.trans n1), abs_sub_of_sign sy (c2.trans n1), c3.trans n1, c4.trans n1, fun j hj => ?_⟩
  have hjl : j < p.observations.length := by have := (hgood j hj).1; rw [← ht] at this; simpa using this
  refine hposes j hj _ _ ⟨c1.trans n2, c2.trans n2, c3.trans n2, c4.trans n2⟩ sx sy ((rigid_iff _).2 (hrig j hjl)) fun q hq => ⟨?_, ?_⟩
  · rw [targets_getD ht] at hq
    obtain ⟨k, hk, rfl⟩ := List.mem_map.1 hq
    exact hz j hjl k hk
  · exact ha T' hT' hz' (fun i hi => noise m2 (hdist i hi)) j hjl q hq

/-- A result that fits at least as well as the truth needs no bound on the cost. -/
theorem C216_best (intr : Intr) (hx : intr.fx ≠ 0) (hy : intr.fy ≠ 0) (T : Nat → Iso) (targets : List (List V3)) (good : List Nat)
    (hgood : ∀ j ∈ good, j < targets.length ∧ ViewedWell (T j) (targets.getD j []))
    (hfew : ¬ FewDirections (good.map fun j => Spec.planeNormal (T j))) (e : ℝ) (he : 0 < e) :
    ∃ r : ℝ, 0 < r ∧ ∀ (s3 : Ceres V3) (s : Ceres Mem) (p : IntrinsicProblem) (res : IntrinsicResult) (F F0 : ℝ),
      intrinsic s3 s p = .ok res → p.observations.map targetPoints = targets → NoisyImages r intr T p.observations →
      res.finalCost = some F → meanCost (imageErrors intr T p.observations) = some F0 → F ≤ F0 →
      ∃ poses, intrPoses s3 p = .ok poses ∧ ∀ T' : Nat → Iso,
        (∀ i, T' i = poseCalToEigen (s.solve (intrBuild p poses) (intrInit p poses) (poseBlk i)).pose) →
        (∀ i, i < p.observations.length → RigidMotion (T' i)) →
        (∀ i, i < p.observations.length → ∀ k ∈ p.observations.getD i [], ((T' i).apply k.inTarget).z ≠ 0) →
        LittleDistortion r res.intrinsics res.distortions T' p.observations →
        CloseCamera e res.intrinsics intr := by
  obtain ⟨r, hr, hcam⟩ := C216_camera intr hx hy T targets good hgood hfew e he
  obtain ⟨r', hr', hle', hbest⟩ := best_bound hr
  have noise : ∀ {α : Type} {l : List α} {m t : α → V2}, PixelNoise r' l m t → PixelNoise r l m t :=
    fun h x hx => ⟨(h x hx).1.trans hle', (h x hx).2.trans hle'⟩
  refine ⟨r', hr', fun s3 s p res F F0 h ht hn hF hF0 hle => ?_⟩
  have hF0r : F0 ≤ r := by
    have e1 : imageErrors intr T p.observations = ((List.range p.observations.length).flatMap fun i =>
        (p.observations.getD i []).map fun k => (i, k)).flatMap fun f => diff2 (pinhole intr ((T f.1).apply f.2.inTarget)) f.2.inImage := by
      simp [imageErrors, pixelErrors, List.flatMap_assoc, List.flatMap_map]
    rw [e1] at hF0
    refine hbest ((List.range p.observations.length).flatMap fun i => (p.observations.getD i []).map fun k => (i, k))
      (fun f => pinhole intr ((T f.1).apply f.2.inTarget)) (fun f => f.2.inImage) (fun f => pinhole intr ((T f.1).apply f.2.inTarget))
      F0 hF0 (fun f hf => ?_) (le_refl _)
    obtain ⟨i, hi, hf⟩ := List.mem_flatMap.1 hf
    obtain ⟨k, hk, rfl⟩ := List.mem_map.1 hf
    exact hn i (List.mem_range.1 hi) k hk
  obtain ⟨poses, hp, hc⟩ := hcam s3 s p res F h ht (fun i hi => noise (hn i hi)) hF (hle.trans hF0r)
  exact ⟨poses, hp, fun T' hT' hrig hz hdist => hc T' hT' hrig hz fun i hi => noise (hdist i hi)⟩

/-- Three tilted images of a square, all measured pixels moved by up to `r`: a run that returns, does not report the true camera, but
meets all hypotheses. -/
example (r : ℝ) (hr : 0 < r) : ∃ (s : Ceres Mem) (p : IntrinsicProblem) (res : IntrinsicResult) (poses : List (Option Pose6)) (T' : Nat → Iso),
    intrinsic (idCeres V3) s p = .ok res ∧ p.observations.map targetPoints = [squarePoints, squarePoints, squarePoints] ∧
    (∀ j ∈ [0, 1, 2], j < [squarePoints, squarePoints, squarePoints].length ∧
      ViewedWell (tilted j) ([squarePoints, squarePoints, squarePoints].getD j []) ∧
      ∀ q ∈ [squarePoints, squarePoints, squarePoints].getD j [], 0 < ((tilted j).apply q).z) ∧
    ¬ FewDirections ([0, 1, 2].map fun j => Spec.planeNormal (tilted j)) ∧
    NoisyImages r ⟨2, 3, 4, 5⟩ tilted p.observations ∧ res.finalCost = some 0 ∧
    (∃ F0, meanCost (imageErrors ⟨2, 3, 4, 5⟩ tilted p.observations) = some F0 ∧ 0 ≤ F0) ∧
    0 < res.intrinsics.fx * 2 ∧ 0 < res.intrinsics.fy * 3 ∧ res.intrinsics.cx ≠ 4 ∧
    intrPoses (idCeres V3) p = .ok poses ∧
    (∀ i, T' i = poseCalToEigen (s.solve (intrBuild p poses) (intrInit p poses) (poseBlk i)).pose) ∧
    (∀ i, i < p.observations.length → RigidMotion (T' i)) ∧
    (∀ i, i < p.observations.length → ∀ k ∈ p.observations.getD i [], 0 < ((T' i).apply k.inTarget).z) ∧
    LittleDistortion r res.intrinsics res.distortions T' p.observations := by
  obtain ⟨c, hc⟩ : ∃ c : Intr, c = ⟨2, 3, 4 + r, 5⟩ := ⟨_, rfl⟩
  obtain ⟨imgs, himgs⟩ : ∃ imgs, imgs = [squareImage c (tilted 0), squareImage c (tilted 1), squareImage c (tilted 2)] := ⟨_, rfl⟩
  have hlen : imgs.length = 3 := by rw [himgs]; rfl
  have hget : ∀ i, i < 3 → imgs.getD i [] = squareImage c (tilted i) := by
    intro i hi
    rw [himgs]
    interval_cases i <;> rfl
  have hdep : ∀ i, i < 3 → ∀ q ∈ squarePoints, 0 < ((tilted i).apply q).z := by
    intro i hi q hq
    simp only [squarePoints, List.mem_cons, List.not_mem_nil, or_false] at hq
    interval_cases i <;> rcases hq with rfl | rfl | rfl | rfl <;> simp [tilted, Iso.apply, M3.mulVec, M3.one_def] <;> norm_num
  have hperf : PerfectImages c tilted imgs := by
    intro i hi k hk
    rw [hlen] at hi
    rw [hget i hi] at hk
    obtain ⟨q, hq, rfl⟩ := List.mem_map.1 hk
    exact ⟨(hdep i hi q hq).ne', rfl⟩
  obtain ⟨r0, hr0⟩ := intrinsic_returns imgs (by rw [himgs]; simp) (by rw [himgs]; simp [squareImage, squarePoints]) ⟨1, 1, 0, 0⟩
  obtain ⟨s, res, poses, -, h1, h2, h3, h4, h5, h6⟩ := intrinsic_reached (idCeres_wf Mem) hr0 (fun i _ => tilted_rigid i) hperf
  have n1 : (Spec.planeNormal (tilted 0)).cross (Spec.planeNormal (tilted 1)) ≠ 0 := by
    intro h; have := congrArg V3.x h; simp [Spec.planeNormal, tilted, V3.cross] at this
  have n2 : (Spec.planeNormal (tilted 0)).cross (Spec.planeNormal (tilted 2)) ≠ 0 := by
    intro h; have := congrArg V3.x h; simp [Spec.planeNormal, tilted, V3.cross, M3.one_def] at this
  have n3 : (Spec.planeNormal (tilted 1)).cross (Spec.planeNormal (tilted 2)) ≠ 0 := by
    intro h; have := congrArg V3.y h; simp [Spec.planeNormal, tilted, V3.cross, M3.one_def] at this
  have hsq : ∀ i, i < 3 → [squarePoints, squarePoints, squarePoints].getD i [] = squarePoints := by
    intro i hi; interval_cases i <;> rfl
  have hT : ∀ i, i < 3 → poseCalToEigen (s.solve (intrBuild ⟨imgs, ⟨1, 1, 0, 0⟩, "pose"⟩ poses)
      (intrInit ⟨imgs, ⟨1, 1, 0, 0⟩, "pose"⟩ poses) (poseBlk i)).pose = tilted i := fun i hi => h6 i (by show i < imgs.length; rw [hlen]; exact hi)
  refine ⟨s, _, res, poses, _, h1, ?_, ?_, ?_, ?_, h3, ?_, ?_, ?_, ?_, h2, fun i => rfl, ?_, ?_, ?_⟩
  · show imgs.map targetPoints = _
    rw [himgs]
    simp [targetPoints, squareImage, Function.comp_def]
  · intro j hj
    have hj3 : j < 3 := by simp at hj; omega
    rw [hsq j hj3]
    refine ⟨hj3, ⟨tilted_rigid j, ?_, ?_, fun q hq => (hdep j hj3 q hq).ne'⟩, hdep j hj3⟩
    · interval_cases j <;> simp [tilted, Iso.inv, M3.tr, M3.mulVec, M3.one_def]
    · exact ⟨_, by simp [squarePoints], _, by simp [squarePoints], _, by simp [squarePoints], _, by simp [squarePoints], square_quadrangle⟩
  · exact not_few_of_three (a := Spec.planeNormal (tilted 0)) (b := Spec.planeNormal (tilted 1)) (c := Spec.planeNormal (tilted 2))
      (by simp) (by simp) (by simp) n1 n2 n3
  · intro i hi k hk
    have hi' : i < 3 := by rw [← hlen]; exact hi
    have hk' : k ∈ imgs.getD i [] := hk
    rw [hget i hi'] at hk'
    obtain ⟨q, -, rfl⟩ := List.mem_map.1 hk'
    rw [hc]
    simp [pinhole, abs_of_pos hr, hr.le]
  · obtain ⟨F0, hF0⟩ : ∃ F0, meanCost (imageErrors ⟨2, 3, 4, 5⟩ tilted imgs) = some F0 := by
      rw [meanCost, if_neg]
      · exact ⟨_, rfl⟩
      · rw [himgs]; simp [imageErrors, pixelErrors, squareImage, squarePoints, List.range_succ, diff2]
    refine ⟨F0, hF0, ?_⟩
    have e1 := meanCost_sumSq hF0
    have e2 : 0 ≤ Spec.sumSq (imageErrors ⟨2, 3, 4, 5⟩ tilted imgs) := List.sum_nonneg fun x hx => by
      obtain ⟨y, -, rfl⟩ := List.mem_map.1 hx; positivity
    have e3 : (0 : ℝ) < (imageErrors ⟨2, 3, 4, 5⟩ tilted imgs).length := by
      have : 0 < (imageErrors ⟨2, 3, 4, 5⟩ tilted imgs).length := by
        apply List.length_pos_of_ne_nil
        intro h0
        rw [h0] at hF0
        simp [meanCost] at hF0
      exact_mod_cast this
    rw [e1] at e2
    exact nonneg_of_mul_nonneg_right e2 (by linarith)
  · rw [h5, hc]; norm_num
  · rw [h5, hc]; norm_num
  · rw [h5, hc]; simpa using hr.ne'
  · intro i hi
    rw [hT i (by rw [← hlen]; exact hi)]
    exact tilted_rigid i
  · intro i hi k hk
    have hi' : i < 3 := by rw [← hlen]; exact hi
    have hk' : k ∈ imgs.getD i [] := hk
    rw [hget i hi'] at hk'
    obtain ⟨q, hq, rfl⟩ := List.mem_map.1 hk'
    rw [hT i hi']
    exact hdep i hi' q hq
  · intro i hi k hk
    rw [h4]
    simp only [lensPixel, List.getD_cons_zero, List.getD_cons_succ, brown_plain]
    simpa using hr.le

end RCT
