import Verif.Props.Stable
import Verif.Props.StableStatic
import Verif.Props.StableTool
import Verif.Props.Mains

/-!
# C207 for the tools for one camera
-/

namespace RCT

open Spec

/-- What the tools have in common: the observations are those of the numbers `seen`, with known mounts and points. -/
theorem handEye_noise (i : Intr) (hfx : i.fx ≠ 0) (hfy : i.fy ≠ 0) (X Y : Iso) (hX : RigidMotion X) (hY : RigidMotion Y)
    (seen : List Nat) (cm tm : Nat → Iso) (pts : Nat → List V3)
    (hw : ∀ n ∈ seen, Representable (cm n) ∧ Representable (tm n) ∧
      ∀ p ∈ pts n, 0 < ((X.inv * ((cm n).inv * (tm n * Y))).apply p).z)
    (a b o : Nat) (hobs : ∀ n ∈ [a, b, o], n ∈ seen ∧ QuadrangleIn (pts n) ∧ (X.inv * ((cm n).inv * (tm n * Y))).inv.t.z ≠ 0)
    (hax : AxesDiffer ((cm a).inv * tm a * ((cm o).inv * tm o).inv).R ((cm b).inv * tm b * ((cm o).inv * tm o).inv).R)
    (e : ℝ) (he : 0 < e) :
    ∃ r : ℝ, 0 < r ∧ ∀ (s : Ceres Pose6) (p : HandEyeProblem Corr2) (res : HandEyeResult) (f : ℝ), handEye2 s p = .ok res → p.intr = i →
      List.Forall₂ (fun n (q : Obs Corr2) => q.toCameraMount = cm n ∧ q.toTargetMount = tm n ∧ targetPoints q.corrs = pts n ∧
        PixelNoise r q.corrs (fun k => k.inImage) (fun k => pinhole i ((X.inv * ((cm n).inv * (tm n * Y))).apply k.inTarget)) ∧
        ∀ k ∈ q.corrs, 0 < ((res.cameraMountToCamera.inv * ((cm n).inv * (tm n * res.targetMountToTarget))).apply k.inTarget).z)
        seen p.observations →
      RigidMotion res.cameraMountToCamera → RigidMotion res.targetMountToTarget →
      res.finalCost.map Real.sqrt = some f → f ≤ r → Spec.Close e res.cameraMountToCamera X ∧ Spec.Close e res.targetMountToTarget Y := by
  obtain ⟨mk, hmk⟩ : ∃ mk : Nat → Obs Corr2, mk = fun n => ⟨(pts n).map fun q => ⟨⟨0, 0⟩, q⟩, cm n, tm n⟩ := ⟨_, rfl⟩
  have hmem : ∀ f ∈ features (seen.map mk), ∃ n ∈ seen, f.1 = mk n ∧ f.2.inTarget ∈ pts n := by
    intro f hf
    obtain ⟨q, hq, hf⟩ := List.mem_flatMap.1 hf
    obtain ⟨n, hn, rfl⟩ := List.mem_map.1 hq
    obtain ⟨c, hc, rfl⟩ := List.mem_map.1 hf
    rw [hmk] at hc
    obtain ⟨v, hv, rfl⟩ := List.mem_map.1 hc
    exact ⟨n, hn, rfl, hv⟩
  obtain ⟨r, hr, hst⟩ := C207_hand_eye i hfx hfy X Y hX hY (seen.map mk)
    (by
      intro q hq
      obtain ⟨n, hn, rfl⟩ := List.mem_map.1 hq
      rw [hmk]
      exact ⟨(hw n hn).1, (hw n hn).2.1⟩)
    (by
      intro f hf
      obtain ⟨n, hn, h1, h2⟩ := hmem f hf
      have := (hw n hn).2.2 _ h2
      rw [inCamera2, h1, hmk]
      exact this)
    (mk a) (mk b) (mk o)
    (by
      intro q hq
      obtain ⟨n, hn, rfl⟩ : ∃ n ∈ [a, b, o], q = mk n := by
        simp only [List.mem_cons, List.not_mem_nil, or_false] at hq
        rcases hq with rfl | rfl | rfl
        exacts [⟨a, by simp, rfl⟩, ⟨b, by simp, rfl⟩, ⟨o, by simp, rfl⟩]
      obtain ⟨h1, ⟨u, hu, v, hv, x, hx, y, hy, h2⟩, h3⟩ := hobs n hn
      refine ⟨List.mem_map_of_mem h1, ?_, by rw [hmk]; exact h3⟩
      rw [hmk]
      exact ⟨_, List.mem_map_of_mem hu, _, List.mem_map_of_mem hv, _, List.mem_map_of_mem hx, _, List.mem_map_of_mem hy, h2⟩)
    (by rw [hmk]; exact hax) e he
  have hle1 := min_le_left r 1
  have hle2 := min_le_right r 1
  refine ⟨min r 1, lt_min hr one_pos, fun s p res f h hi hall hr1 hr2 hf hle => ?_⟩
  obtain ⟨F, hF, rfl⟩ := Option.map_eq_some_iff.1 hf
  have hFr : F ≤ r := by
    by_cases hneg : F ≤ 0
    · linarith
    · have hpos : 0 ≤ F := le_of_lt (not_le.1 hneg)
      have hsq := Real.mul_self_sqrt hpos
      have hs0 := Real.sqrt_nonneg F
      nlinarith [hle.trans hle1, hle.trans hle2]
  have hfeat : ∀ f ∈ features p.observations, ∃ n, f.1.toCameraMount = cm n ∧ f.1.toTargetMount = tm n ∧
      (|f.2.inImage.x - (pinhole i ((X.inv * ((cm n).inv * (tm n * Y))).apply f.2.inTarget)).x| ≤ r ∧
       |f.2.inImage.y - (pinhole i ((X.inv * ((cm n).inv * (tm n * Y))).apply f.2.inTarget)).y| ≤ r) ∧
      0 < ((res.cameraMountToCamera.inv * ((cm n).inv * (tm n * res.targetMountToTarget))).apply f.2.inTarget).z := by
    intro f hf
    obtain ⟨hq, hc⟩ := mem_features.1 hf
    obtain ⟨m, hm, hq'⟩ := List.getElem_of_mem hq
    have := hall.get (by rw [hall.length_eq]; exact hm) hm
    simp only [List.get_eq_getElem, hq'] at this
    obtain ⟨g1, g2, g3, g4, g5⟩ := this
    exact ⟨_, g1, g2, ⟨(g4 _ hc).1.trans hle1, (g4 _ hc).2.trans hle1⟩, g5 _ hc⟩
  refine hst s p res F h hi ?_ hr1 hr2 ?_ ?_ hF hFr
  · rw [List.forall₂_map_left_iff]
    refine hall.imp fun n q hq => ?_
    obtain ⟨g1, g2, g3, -⟩ := hq
    rw [hmk]
    refine ⟨g1.symm, g2.symm, ?_⟩
    show ((pts n).map fun q => (⟨⟨0, 0⟩, q⟩ : Corr2)).map (fun k => k.inTarget) = targetPoints q.corrs
    rw [g3, List.map_map]
    simp [Function.comp_def]
  · intro f hf
    obtain ⟨n, g1, g2, g3, -⟩ := hfeat f hf
    simp only [inCamera2, Spec.targetInCamera, g1, g2]
    exact g3
  · intro f hf
    obtain ⟨n, g1, g2, -, g4⟩ := hfeat f hf
    simp only [inCamera2, Spec.targetInCamera, g1, g2]
    exact g4

/-- The tool for a camera on the wrist. Fixed are the camera, the true transforms, the numbers of the accepted images, the wrist poses and
the points of the target seen in them; three of the images show four points well and differ by turns about different axes. Then there is a
tolerance such that whenever the pixels are within it of the true ones and the tool prints a final error within it, the printed transforms
have the wanted accuracy, if they are rigid and put the target in front of the camera. -/
theorem C207_wrist (i : Intr) (hfx : i.fx ≠ 0) (hfy : i.fy ≠ 0) (X Y : Iso) (hX : RigidMotion X) (hY : RigidMotion Y)
    (seen : List Nat) (hseen : seen.Pairwise (· < ·)) (w : Nat → Iso) (pts : Nat → List V3)
    (hw : ∀ n ∈ seen, Representable (w n) ∧ ∀ p ∈ pts n, 0 < ((seenFromWrist X Y (w n)).apply p).z)
    (a b o : Nat) (hobs : ∀ n ∈ [a, b, o], n ∈ seen ∧ QuadrangleIn (pts n) ∧ (seenFromWrist X Y (w n)).inv.t.z ≠ 0)
    (hax : AxesDiffer ((w a).inv * w o).R ((w b).inv * w o).R) (e : ℝ) (he : 0 < e) :
    ∃ r : ℝ, 0 < r ∧ ∀ (Img : Type) (W : ToolWorld Img) (s : Ceres Pose6) (s3 : Ceres V3) (rep : HandEyeReport) (threshold : ℝ)
      (d : DataSet Img) (F : Finder Img) (A B : Iso) (f : ℝ), ProperParams W.param → KeepsPlain s →
      (∀ X, PoseParam (W.param "wrist_to_camera_guess") X → Representable X) →
      (∀ Y, PoseParam (W.param "base_to_target_guess") Y → Representable Y) → wristMain W s s3 = .ok (some rep) →
      NumberParam (W.param "homography_threshold") threshold → IntrinsicsParam (W.param "intrinsics") i →
      DataParam W (W.param "data_path") d → FinderParam W F →
      (∀ n, n ∈ seen ↔ n < d.images.length ∧ ∃ q, WristItem (W.env F threshold) d n q) →
      (∀ n q, WristItem (W.env F threshold) d n q → d.poses[n]? = some (w n) ∧ targetPoints q.1.corrs = pts n ∧
        PixelNoise r q.1.corrs (fun k => k.inImage) (fun k => pinhole i ((seenFromWrist X Y (w n)).apply k.inTarget)) ∧
        ∀ k ∈ q.1.corrs, 0 < ((seenFromWrist A B (w n)).apply k.inTarget).z) →
      RigidMotion A → RigidMotion B → rep.camera = printTransform A → rep.target = printTransform B →
      rep.opt.final = some f → f ≤ r → Spec.Close e A X ∧ Spec.Close e B Y := by
  have hone : ∀ T S : Iso, X.inv * (T.inv * (1 * S)) = seenFromWrist X S T := fun T S => by rw [Iso.one_mul]; rfl
  obtain ⟨r, hr, hst⟩ := handEye_noise i hfx hfy X Y hX hY seen w (fun _ => 1) pts
    (fun n hn => ⟨(hw n hn).1, .one, by simpa only [hone] using (hw n hn).2⟩) a b o
    (fun n hn => by simpa only [hone] using hobs n hn)
    (by
      have ho := (hw o (hobs o (by simp)).1).1
      simp only [Iso.mul_one, Iso.inv_inv ho.rigid]
      exact hax) e he
  refine ⟨r, hr, fun Img W s s3 rep threshold d F A B f hp hs hX0 hY0 h ht hi hd hF hsel hdata hA hB hcam htgt hfin hle => ?_⟩
  obtain ⟨t', i', d', F', X', Y', js, items, p, res, hset, hsel', hpo, hpi, hpX, hpY, hres, hrep, -, -⟩ := C183_wrist W hp s s3 rep h
  obtain ⟨k1, k2, ⟨path', k3, k4⟩, k5, k6, k7⟩ := hset
  obtain ⟨path, l3, l4⟩ := hd
  rw [← getDouble_ok_iff] at ht k1
  rw [← loadFinder_ok_iff] at hF k5
  rw [← intrParam_ok_iff hp] at hi k2
  rw [ht] at k1; cases k1
  rw [hF] at k5; cases k5
  rw [hi] at k2; cases k2
  rw [l3] at k3; cases k3
  rw [l4] at k4; cases k4
  obtain rfl : js = seen := ascending_eq hsel'.1 hseen fun n => (hsel'.2.1 n).trans (hsel n).symm
  obtain ⟨r1, r2⟩ := handEye2_rigid hres hs (hpX ▸ hX0 _ k6) (hpY ▸ hY0 _ k7)
  obtain rfl := C145_distinct _ _ hA r1 (hcam.symm.trans hrep.camera)
  obtain rfl := C145_distinct _ _ hB r2 (htgt.symm.trans hrep.target)
  refine hst s p res f hres hpi ?_ r1 r2 (hrep.final ▸ hfin) hle
  rw [hpo, List.forall₂_map_right_iff]
  refine hsel'.2.2.imp fun n q hq => ?_
  obtain ⟨g1, g2, g3, g4⟩ := hdata n q hq
  obtain ⟨q1, q2, q3, q4⟩ := hq
  rw [q3] at g1
  refine ⟨Option.some.inj g1, q4, g2, by simpa only [hone] using g3, ?_⟩
  intro k hk
  have := g4 k hk
  rwa [Iso.one_mul]

/-- The same for the tool for a static camera and a target on the wrist. -/
theorem C207_static (i : Intr) (hfx : i.fx ≠ 0) (hfy : i.fy ≠ 0) (X Y : Iso) (hX : RigidMotion X) (hY : RigidMotion Y)
    (seen : List Nat) (hseen : seen.Pairwise (· < ·)) (w : Nat → Iso) (pts : Nat → List V3)
    (hw : ∀ n ∈ seen, Representable (w n) ∧ ∀ p ∈ pts n, 0 < ((seenOnWrist X Y (w n)).apply p).z)
    (a b o : Nat) (hobs : ∀ n ∈ [a, b, o], n ∈ seen ∧ QuadrangleIn (pts n) ∧ (seenOnWrist X Y (w n)).inv.t.z ≠ 0)
    (hax : AxesDiffer (w a * (w o).inv).R (w b * (w o).inv).R) (e : ℝ) (he : 0 < e) :
    ∃ r : ℝ, 0 < r ∧ ∀ (Img : Type) (W : ToolWorld Img) (s : Ceres Pose6) (s3 : Ceres V3) (rep : HandEyeReport) (threshold : ℝ)
      (d : DataSet Img) (F : Finder Img) (A B : Iso) (f : ℝ), ProperParams W.param → KeepsPlain s →
      (∀ X, PoseParam (W.param "base_to_camera_guess") X → Representable X) →
      (∀ Y, PoseParam (W.param "wrist_to_target_guess") Y → Representable Y) → staticMain W s s3 = .ok (some rep) →
      NumberParam (W.param "homography_threshold") threshold → IntrinsicsParam (W.param "intrinsics") i →
      DataParam W (W.param "data_path") d → FinderParam W F →
      (∀ n, n ∈ seen ↔ n < d.images.length ∧ ∃ q, StaticItem (W.env F threshold) d n q) →
      (∀ n q, StaticItem (W.env F threshold) d n q → d.poses[n]? = some (w n) ∧ targetPoints q.1.corrs = pts n ∧
        PixelNoise r q.1.corrs (fun k => k.inImage) (fun k => pinhole i ((seenOnWrist X Y (w n)).apply k.inTarget)) ∧
        ∀ k ∈ q.1.corrs, 0 < ((seenOnWrist A B (w n)).apply k.inTarget).z) →
      RigidMotion A → RigidMotion B → rep.camera = printTransform A → rep.target = printTransform B →
      rep.opt.final = some f → f ≤ r → Spec.Close e A X ∧ Spec.Close e B Y := by
  have hone : ∀ T S : Iso, X.inv * ((1 : Iso).inv * (T * S)) = seenOnWrist X S T := fun T S => by rw [Iso.inv_one, Iso.one_mul]; rfl
  obtain ⟨r, hr, hst⟩ := handEye_noise i hfx hfy X Y hX hY seen (fun _ => 1) w pts
    (fun n hn => ⟨.one, (hw n hn).1, by simpa only [hone] using (hw n hn).2⟩) a b o
    (fun n hn => by simpa only [hone] using hobs n hn)
    (by
      simp only [Iso.inv_one, Iso.one_mul]
      exact hax) e he
  refine ⟨r, hr, fun Img W s s3 rep threshold d F A B f hp hs hX0 hY0 h ht hi hd hF hsel hdata hA hB hcam htgt hfin hle => ?_⟩
  obtain ⟨t', i', d', F', X', Y', js, items, p, res, hset, hsel', hpo, hpi, hpX, hpY, hres, hrep, -, -⟩ := C183_static W hp s s3 rep h
  obtain ⟨k1, k2, ⟨path', k3, k4⟩, k5, k6, k7⟩ := hset
  obtain ⟨path, l3, l4⟩ := hd
  rw [← getDouble_ok_iff] at ht k1
  rw [← loadFinder_ok_iff] at hF k5
  rw [← intrParam_ok_iff hp] at hi k2
  rw [ht] at k1; cases k1
  rw [hF] at k5; cases k5
  rw [hi] at k2; cases k2
  rw [l3] at k3; cases k3
  rw [l4] at k4; cases k4
  obtain rfl : js = seen := ascending_eq hsel'.1 hseen fun n => (hsel'.2.1 n).trans (hsel n).symm
  obtain ⟨r1, r2⟩ := handEye2_rigid hres hs (hpX ▸ hX0 _ k6) (hpY ▸ hY0 _ k7)
  obtain rfl := C145_distinct _ _ hA r1 (hcam.symm.trans hrep.camera)
  obtain rfl := C145_distinct _ _ hB r2 (htgt.symm.trans hrep.target)
  refine hst s p res f hres hpi ?_ r1 r2 (hrep.final ▸ hfin) hle
  rw [hpo, List.forall₂_map_right_iff]
  refine hsel'.2.2.imp fun n q hq => ?_
  obtain ⟨g1, g2, g3, g4⟩ := hdata n q hq
  obtain ⟨q1, q2, q3, q4⟩ := hq
  rw [q3] at g1
  refine ⟨q4, Option.some.inj g1, g2, by simpa only [hone] using g3, ?_⟩
  intro k hk
  have := g4 k hk
  rwa [Iso.inv_one, Iso.one_mul]

/-- A run on three perfect images of a square that meets all hypotheses of `C207_wrist`, for every tolerance. -/
example (r : ℝ) (hr : 0 < r) : ∃ (i : Intr) (X Y : Iso) (w : Nat → Iso) (pts : Nat → List V3) (W : ToolWorld Nat) (s : Ceres Pose6)
    (s3 : Ceres V3) (rep : HandEyeReport) (threshold : ℝ) (d : DataSet Nat) (F : Finder Nat) (A B : Iso), i.fx ≠ 0 ∧ i.fy ≠ 0 ∧
    RigidMotion X ∧ RigidMotion Y ∧ ([0, 1, 2] : List Nat).Pairwise (· < ·) ∧
    (∀ n ∈ [0, 1, 2], Representable (w n) ∧ ∀ p ∈ pts n, 0 < ((seenFromWrist X Y (w n)).apply p).z) ∧
    (∀ n ∈ [1, 2, 0], n ∈ [0, 1, 2] ∧ QuadrangleIn (pts n) ∧ (seenFromWrist X Y (w n)).inv.t.z ≠ 0) ∧
    AxesDiffer ((w 1).inv * w 0).R ((w 2).inv * w 0).R ∧ ProperParams W.param ∧ KeepsPlain s ∧
    (∀ X, PoseParam (W.param "wrist_to_camera_guess") X → Representable X) ∧ (∀ Y, PoseParam (W.param "base_to_target_guess") Y → Representable Y) ∧
    wristMain W s s3 = .ok (some rep) ∧ NumberParam (W.param "homography_threshold") threshold ∧
    IntrinsicsParam (W.param "intrinsics") i ∧ DataParam W (W.param "data_path") d ∧ FinderParam W F ∧
    (∀ n, n ∈ [0, 1, 2] ↔ n < d.images.length ∧ ∃ q, WristItem (W.env F threshold) d n q) ∧
    (∀ n q, WristItem (W.env F threshold) d n q → d.poses[n]? = some (w n) ∧ targetPoints q.1.corrs = pts n ∧
      PixelNoise r q.1.corrs (fun k => k.inImage) (fun k => pinhole i ((seenFromWrist X Y (w n)).apply k.inTarget)) ∧
      ∀ k ∈ q.1.corrs, 0 < ((seenFromWrist A B (w n)).apply k.inTarget).z) ∧
    RigidMotion A ∧ RigidMotion B ∧ rep.camera = printTransform A ∧ rep.target = printTransform B ∧ rep.opt.final = some 0 := by
  obtain ⟨T, hT⟩ : ∃ T : Nat → Iso, T = fun n => if n = 0 then 1 else if n = 1 then quarterX.inv else quarterZ.inv := ⟨_, rfl⟩
  have T0 : T 0 = 1 := by simp [hT]
  have T1 : T 1 = quarterX.inv := by simp [hT]
  have T2 : T 2 = quarterZ.inv := by simp [hT]
  have hrep : ∀ n, Representable (T n) := by
    intro n
    simp only [hT]
    split_ifs
    exacts [.one, quarterX_rep.inv, quarterZ_rep.inv]
  obtain ⟨P, C, D, fs, path, es, col, saved, stored, msg, a1, a2, a3, a4, a5, a6, a7, a8, hcap, hmsg⟩ := example_session T hrep
  obtain ⟨rep, b1, b2, b3, b4, b5⟩ := triple_report T (fun _ => 1) hrep (fun _ => .one) (by rw [T0, Iso.inv_one, Iso.mul_one])
    (by rw [T1, Iso.mul_one, Iso.inv_inv quarterX_rep.rigid]) (by rw [T2, Iso.mul_one, Iso.inv_inv quarterZ_rep.rigid])
  obtain ⟨threshold, ht⟩ := exampleWorld_gate C (saveToDirectory P D fs path stored).1 (indexFile path) (T) (fun _ => 1)
  obtain ⟨W, hW⟩ : ∃ W, W = exampleWorld C (saveToDirectory P D fs path stored).1 (indexFile path) threshold
    fun n => (tripleView (T n) 1).corrs := ⟨_, rfl⟩
  obtain ⟨F, hF⟩ : ∃ F, F = exampleFinder fun n => (tripleView (T n) 1).corrs := ⟨_, rfl⟩
  have hp : ProperParams W.param := by rw [hW]; exact exampleWorld_proper _ _ _ _ _
  have hset : ExtrinsicSetup W "wrist_to_camera_guess" "base_to_target_guess" threshold ⟨1, 1, 0, 0⟩
      ⟨[0, 1, 2], [T 0, T 1, T 2]⟩ F 1 (shiftBy 10 10 10) := by
    rw [hW, hF]; exact exampleWorld_setup _ _ _ _ _ (.inl ⟨rfl, rfl⟩) a8
  rw [← hW, ← hF] at ht
  have hacc : ∀ i m cs, ImageAccepted (W.env F threshold) i m cs → cs = (tripleView (T m) 1).corrs := by
    rintro i m cs ⟨fs, h1, -, h2, -⟩
    rw [hF] at h1 h2
    cases h1
    cases h2
    rfl
  have hsee : ∀ n, seenFromWrist 1 (shiftBy 10 10 10) (T n) = (T n).inv * ((1 : Iso) * shiftBy 10 10 10) :=
    fun n => by rw [seenFromWrist, Iso.inv_one, Iso.one_mul, Iso.one_mul]
  obtain ⟨c1, c2, c3⟩ := exampleWorld_tool (A := T) (B := fun _ => 1) (seen := seenFromWrist 1 (shiftBy 10 10 10)) hcap hmsg hsee hacc ht b4 b5
  have hmain : wristMain W (idCeres Pose6) (idCeres V3) = .ok (some rep) := by
    rw [wristMain_ok_iff W hp]
    refine ⟨_, _, _, _, _, _, ⟨[tripleView (T 0) 1, tripleView (T 1) 1, tripleView (T 2) 1], [0, 1, 2]⟩, hset, ?_, b1⟩
    refine exampleWorld_collect (view := fun n => (tripleView (T n) 1).corrs) T (fun n hn => ?_) wristObs
    obtain ⟨fs, h1, -, h2, h3⟩ := ht n hn
    rw [hF] at h1 h2 ⊢
    cases h1
    refine ⟨rfl, rfl, ?_, rfl⟩
    exact h3
  have hX0 : ∀ X, PoseParam (W.param "wrist_to_camera_guess") X → Representable X :=
    fun X hX => by rw [poseParam_unique hp hX hset.camera]; exact .one
  have hY0 : ∀ Y, PoseParam (W.param "base_to_target_guess") Y → Representable Y :=
    fun Y hY => by rw [poseParam_unique hp hY hset.target]; exact shiftBy_rep _ _ _
  have hax : AxesDiffer ((T 1).inv * T 0).R ((T 2).inv * T 0).R := by
    rw [T0, T1, T2, Iso.mul_one, Iso.mul_one, Iso.inv_inv quarterX_rep.rigid, Iso.inv_inv quarterZ_rep.rigid]
    intro h
    have := congrArg V3.y h
    norm_num [turnVector, V3.cross, quarterX, quarterZ] at this
  have hfin := (C185_wrist P a1 D a2 fs path (.inl a3) es col saved a4 stored a7 W hp (by rw [hW]; rfl) (by rw [hW]; rfl)
    (by rw [hW]; exact a5) a6 threshold hset.threshold F hset.finder _ hset.intrinsics (by norm_num) (by norm_num) hX0 hY0
    (idCeres Pose6) keepsPlain_idCeres (idCeres V3) rep hmain 1 (shiftBy 10 10 10) Representable.one.1 (shiftBy_rep _ _ _).1 c1
    1 0 2 0 (T 1) (T 0) (T 2) (T 0) (c2 1) (c2 0) (c2 2) (c2 0) hax 1 (shiftBy 10 10 10) Representable.one.1 (shiftBy_rep _ _ _).1
    b2 b3 c3).2 ⟨rfl, rfl⟩
  have hmem : ∀ n : Nat, n ∈ [0, 1, 2] ↔ n < 3 := by intro n; simp; omega
  have hpts : ∀ n, ∀ p ∈ targetPoints (tripleView (T n) 1).corrs, ∃ c ∈ (tripleView (T n) 1).corrs, c.inTarget = p := by
    intro n p hpp
    obtain ⟨c, hc, rfl⟩ := List.mem_map.1 hpp
    exact ⟨c, hc, rfl⟩
  have himg : ∀ n, n < 3 → ([0, 1, 2] : List Nat)[n]? = some n ∧ [T 0, T 1, T 2][n]? = some (T n) := by
    intro n hn; interval_cases n <;> exact ⟨rfl, rfl⟩
  refine ⟨⟨1, 1, 0, 0⟩, 1, shiftBy 10 10 10, T, fun n => targetPoints (tripleView (T n) 1).corrs, W, idCeres Pose6, idCeres V3, rep, threshold,
    ⟨[0, 1, 2], [T 0, T 1, T 2]⟩, F, 1, shiftBy 10 10 10, by norm_num, by norm_num, Representable.one.1, (shiftBy_rep _ _ _).1, by simp, ?_, ?_,
    hax, hp, keepsPlain_idCeres, hX0, hY0, hmain, hset.threshold, hset.intrinsics, hset.data, hset.finder, ?_, ?_, Representable.one.1,
    (shiftBy_rep _ _ _).1, b2, b3, hfin⟩
  · intro n hn
    refine ⟨hrep n, fun p hpp => ?_⟩
    obtain ⟨c, hc, rfl⟩ := hpts n p hpp
    rw [hsee]
    exact (b4 n ((hmem n).1 hn) c hc).1
  · intro n hn
    have hn3 : n < 3 := by simp at hn; omega
    refine ⟨(hmem n).2 hn3, ?_, by rw [hsee]; exact b5 n hn3⟩
    obtain ⟨a, ha, b, hb, c, hc, d, hd, hq⟩ := squareImage_sees ⟨1, 1, 0, 0⟩ ((T n).inv * ((1 : Iso) * shiftBy 10 10 10))
    exact ⟨_, List.mem_map_of_mem (mem_tripleView.2 ha), _, List.mem_map_of_mem (mem_tripleView.2 hb), _,
      List.mem_map_of_mem (mem_tripleView.2 hc), _, List.mem_map_of_mem (mem_tripleView.2 hd), hq⟩
  · intro n
    refine (hmem n).trans ⟨fun h => ⟨h, (tripleView (T n) 1, n), (himg n h).1, ht n h, (himg n h).2, rfl⟩, fun h => h.1⟩
  · rintro n q ⟨q1, q2, q3, q4⟩
    have hn : n < 3 := (List.getElem?_eq_some_iff.1 q1).1
    have hq2 : q.2 = n := Option.some.inj (q1.symm.trans (himg n hn).1)
    have hq := hacc n q.2 _ q2
    rw [hq2] at hq
    rw [hq]
    refine ⟨(himg n hn).2, rfl, fun k hk => ?_, fun k hk => ?_⟩
    · obtain ⟨-, h2⟩ := b4 n hn k hk
      simp only [hsee, ← h2, sub_self, abs_zero]
      exact ⟨hr.le, hr.le⟩
    · rw [hsee]
      exact (b4 n hn k hk).1

/-- A run on three perfect images of a square that meets all hypotheses of `C207_static`, for every tolerance. -/
example (r : ℝ) (hr : 0 < r) : ∃ (i : Intr) (X Y : Iso) (w : Nat → Iso) (pts : Nat → List V3) (W : ToolWorld Nat) (s : Ceres Pose6)
    (s3 : Ceres V3) (rep : HandEyeReport) (threshold : ℝ) (d : DataSet Nat) (F : Finder Nat) (A B : Iso), i.fx ≠ 0 ∧ i.fy ≠ 0 ∧
    RigidMotion X ∧ RigidMotion Y ∧ ([0, 1, 2] : List Nat).Pairwise (· < ·) ∧
    (∀ n ∈ [0, 1, 2], Representable (w n) ∧ ∀ p ∈ pts n, 0 < ((seenOnWrist X Y (w n)).apply p).z) ∧
    (∀ n ∈ [1, 2, 0], n ∈ [0, 1, 2] ∧ QuadrangleIn (pts n) ∧ (seenOnWrist X Y (w n)).inv.t.z ≠ 0) ∧
    AxesDiffer (w 1 * (w 0).inv).R (w 2 * (w 0).inv).R ∧ ProperParams W.param ∧ KeepsPlain s ∧
    (∀ X, PoseParam (W.param "base_to_camera_guess") X → Representable X) ∧ (∀ Y, PoseParam (W.param "wrist_to_target_guess") Y → Representable Y) ∧
    staticMain W s s3 = .ok (some rep) ∧ NumberParam (W.param "homography_threshold") threshold ∧
    IntrinsicsParam (W.param "intrinsics") i ∧ DataParam W (W.param "data_path") d ∧ FinderParam W F ∧
    (∀ n, n ∈ [0, 1, 2] ↔ n < d.images.length ∧ ∃ q, StaticItem (W.env F threshold) d n q) ∧
    (∀ n q, StaticItem (W.env F threshold) d n q → d.poses[n]? = some (w n) ∧ targetPoints q.1.corrs = pts n ∧
      PixelNoise r q.1.corrs (fun k => k.inImage) (fun k => pinhole i ((seenOnWrist X Y (w n)).apply k.inTarget)) ∧
      ∀ k ∈ q.1.corrs, 0 < ((seenOnWrist A B (w n)).apply k.inTarget).z) ∧
    RigidMotion A ∧ RigidMotion B ∧ rep.camera = printTransform A ∧ rep.target = printTransform B ∧ rep.opt.final = some 0 := by
  obtain ⟨T, hT⟩ : ∃ T : Nat → Iso, T = fun n => if n = 0 then 1 else if n = 1 then quarterX else quarterZ := ⟨_, rfl⟩
  have T0 : T 0 = 1 := by simp [hT]
  have T1 : T 1 = quarterX := by simp [hT]
  have T2 : T 2 = quarterZ := by simp [hT]
  have hrep : ∀ n, Representable (T n) := by
    intro n
    simp only [hT]
    split_ifs
    exacts [.one, quarterX_rep, quarterZ_rep]
  obtain ⟨P, C, D, fs, path, es, col, saved, stored, msg, a1, a2, a3, a4, a5, a6, a7, a8, hcap, hmsg⟩ := example_session T hrep
  obtain ⟨rep, b1, b2, b3, b4, b5⟩ := triple_report (fun _ => 1) T (fun _ => .one) hrep (by rw [T0, Iso.inv_one, Iso.mul_one])
    (by rw [T1, Iso.inv_one, Iso.one_mul]) (by rw [T2, Iso.inv_one, Iso.one_mul])
  obtain ⟨threshold, ht⟩ := exampleWorld_gate C (saveToDirectory P D fs path stored).1 (indexFile path) (fun _ => 1) (T)
  obtain ⟨W, hW⟩ : ∃ W, W = exampleWorld C (saveToDirectory P D fs path stored).1 (indexFile path) threshold
    fun n => (tripleView 1 (T n)).corrs := ⟨_, rfl⟩
  obtain ⟨F, hF⟩ : ∃ F, F = exampleFinder fun n => (tripleView 1 (T n)).corrs := ⟨_, rfl⟩
  have hp : ProperParams W.param := by rw [hW]; exact exampleWorld_proper _ _ _ _ _
  have hset : ExtrinsicSetup W "base_to_camera_guess" "wrist_to_target_guess" threshold ⟨1, 1, 0, 0⟩
      ⟨[0, 1, 2], [T 0, T 1, T 2]⟩ F 1 (shiftBy 10 10 10) := by
    rw [hW, hF]; exact exampleWorld_setup _ _ _ _ _ (.inr ⟨rfl, rfl⟩) a8
  rw [← hW, ← hF] at ht
  have hacc : ∀ i m cs, ImageAccepted (W.env F threshold) i m cs → cs = (tripleView 1 (T m)).corrs := by
    rintro i m cs ⟨fs, h1, -, h2, -⟩
    rw [hF] at h1 h2
    cases h1
    cases h2
    rfl
  have hsee : ∀ n, seenOnWrist 1 (shiftBy 10 10 10) (T n) = (1 : Iso).inv * (T n * shiftBy 10 10 10) :=
    fun n => by simp only [seenOnWrist, Iso.inv_one, Iso.one_mul]
  obtain ⟨c1, c2, c3⟩ := exampleWorld_tool (A := fun _ => 1) (B := T) (seen := seenOnWrist 1 (shiftBy 10 10 10)) hcap hmsg hsee hacc ht b4 b5
  have hmain : staticMain W (idCeres Pose6) (idCeres V3) = .ok (some rep) := by
    rw [staticMain_ok_iff W hp]
    refine ⟨_, _, _, _, _, _, ⟨[tripleView 1 (T 0), tripleView 1 (T 1), tripleView 1 (T 2)], [0, 1, 2]⟩, hset, ?_, b1⟩
    refine exampleWorld_collect (view := fun n => (tripleView 1 (T n)).corrs) T (fun n hn => ?_) staticObs
    obtain ⟨fs, h1, -, h2, h3⟩ := ht n hn
    rw [hF] at h1 h2 ⊢
    cases h1
    refine ⟨rfl, rfl, ?_, rfl⟩
    exact h3
  have hX0 : ∀ X, PoseParam (W.param "base_to_camera_guess") X → Representable X :=
    fun X hX => by rw [poseParam_unique hp hX hset.camera]; exact .one
  have hY0 : ∀ Y, PoseParam (W.param "wrist_to_target_guess") Y → Representable Y :=
    fun Y hY => by rw [poseParam_unique hp hY hset.target]; exact shiftBy_rep _ _ _
  have hax : AxesDiffer (T 1 * (T 0).inv).R (T 2 * (T 0).inv).R := by
    rw [T0, T1, T2, Iso.inv_one, Iso.mul_one, Iso.mul_one]
    intro h
    have := congrArg V3.y h
    norm_num [turnVector, V3.cross, quarterX, quarterZ] at this
  have hfin := (C185_static P a1 D a2 fs path (.inl a3) es col saved a4 stored a7 W hp (by rw [hW]; rfl) (by rw [hW]; rfl)
    (by rw [hW]; exact a5) a6 threshold hset.threshold F hset.finder _ hset.intrinsics (by norm_num) (by norm_num) hX0 hY0
    (idCeres Pose6) keepsPlain_idCeres (idCeres V3) rep hmain 1 (shiftBy 10 10 10) Representable.one.1 (shiftBy_rep _ _ _).1 c1
    1 0 2 0 (T 1) (T 0) (T 2) (T 0) (c2 1) (c2 0) (c2 2) (c2 0) hax 1 (shiftBy 10 10 10) Representable.one.1 (shiftBy_rep _ _ _).1
    b2 b3 c3).2 ⟨rfl, rfl⟩
  have hmem : ∀ n : Nat, n ∈ [0, 1, 2] ↔ n < 3 := by intro n; simp; omega
  have hpts : ∀ n, ∀ p ∈ targetPoints (tripleView 1 (T n)).corrs, ∃ c ∈ (tripleView 1 (T n)).corrs, c.inTarget = p := by
    intro n p hpp
    obtain ⟨c, hc, rfl⟩ := List.mem_map.1 hpp
    exact ⟨c, hc, rfl⟩
  have himg : ∀ n, n < 3 → ([0, 1, 2] : List Nat)[n]? = some n ∧ [T 0, T 1, T 2][n]? = some (T n) := by
    intro n hn; interval_cases n <;> exact ⟨rfl, rfl⟩
  refine ⟨⟨1, 1, 0, 0⟩, 1, shiftBy 10 10 10, T, fun n => targetPoints (tripleView 1 (T n)).corrs, W, idCeres Pose6, idCeres V3, rep, threshold,
    ⟨[0, 1, 2], [T 0, T 1, T 2]⟩, F, 1, shiftBy 10 10 10, by norm_num, by norm_num, Representable.one.1, (shiftBy_rep _ _ _).1, by simp, ?_, ?_,
    hax, hp, keepsPlain_idCeres, hX0, hY0, hmain, hset.threshold, hset.intrinsics, hset.data, hset.finder, ?_, ?_, Representable.one.1,
    (shiftBy_rep _ _ _).1, b2, b3, hfin⟩
  · intro n hn
    refine ⟨hrep n, fun p hpp => ?_⟩
    obtain ⟨c, hc, rfl⟩ := hpts n p hpp
    rw [hsee]
    exact (b4 n ((hmem n).1 hn) c hc).1
  · intro n hn
    have hn3 : n < 3 := by simp at hn; omega
    refine ⟨(hmem n).2 hn3, ?_, by rw [hsee]; exact b5 n hn3⟩
    obtain ⟨a, ha, b, hb, c, hc, d, hd, hq⟩ := squareImage_sees ⟨1, 1, 0, 0⟩ ((1 : Iso).inv * (T n * shiftBy 10 10 10))
    exact ⟨_, List.mem_map_of_mem (mem_tripleView.2 ha), _, List.mem_map_of_mem (mem_tripleView.2 hb), _,
      List.mem_map_of_mem (mem_tripleView.2 hc), _, List.mem_map_of_mem (mem_tripleView.2 hd), hq⟩
  · intro n
    refine (hmem n).trans ⟨fun h => ⟨h, (tripleView 1 (T n), n), (himg n h).1, ht n h, (himg n h).2, rfl⟩, fun h => h.1⟩
  · rintro n q ⟨q1, q2, q3, q4⟩
    have hn : n < 3 := (List.getElem?_eq_some_iff.1 q1).1
    have hq2 : q.2 = n := Option.some.inj (q1.symm.trans (himg n hn).1)
    have hq := hacc n q.2 _ q2
    rw [hq2] at hq
    rw [hq]
    refine ⟨(himg n hn).2, rfl, fun k hk => ?_, fun k hk => ?_⟩
    · obtain ⟨-, h2⟩ := b4 n hn k hk
      simp only [hsee, ← h2, sub_self, abs_zero]
      exact ⟨hr.le, hr.le⟩
    · rw [hsee]
      exact (b4 n hn k hk).1

end RCT
