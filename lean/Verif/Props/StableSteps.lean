import Verif.Props.StableTools
import Verif.Spec.StableJoint

/-!
# C211 for the tool with two steps
-/

namespace RCT

open Spec

variable {Img : Type}

/-- A common correction of cameras given anywhere. Nothing is assumed of the given poses: a result with small final cost is right if one
camera sees the target well in three images between which the wrist turned about two different axes, and every camera in one image. -/
theorem C211_wrist_only_any (intr : List Intr) (wrist : List Iso) (pts : Nat → Nat → List V3) (T : List Iso) (Y : Iso)
    (hw : ∀ w ∈ wrist, Representable w) (hT : ∀ t ∈ T, RigidMotion t) (hY : RigidMotion Y)
    (hz : ∀ c < T.length, ∀ i < wrist.length, ∀ q ∈ pts c i, 0 < (((T.getD c 1).inv * (wrist.getD i 1 * Y)).apply q).z)
    (x a b o : Nat) (hx : x < T.length) (hthree : ∀ i ∈ [a, b, o], i < wrist.length ∧
      SeenWell (intr.getD x ⟨0, 0, 0, 0⟩) ((T.getD x 1).inv * (wrist.getD i 1 * Y)) (pts x i))
    (hax : AxesDiffer (wristMotion (wrist.getD a 1) (wrist.getD o 1)).R (wristMotion (wrist.getD b 1) (wrist.getD o 1)).R)
    (hone : ∀ c < T.length, ∃ i < wrist.length,
      SeenWell (intr.getD c ⟨0, 0, 0, 0⟩) ((T.getD c 1).inv * (wrist.getD i 1 * Y)) (pts c i)) (e : ℝ) (he : 0 < e) :
    ∃ r : ℝ, 0 < r ∧ ∀ (s : Ceres Pose6) (p : WoProblem) (res : WoResult), wristOnly s p = .ok res → p.intr = intr →
      p.wristPoses = wrist → p.baseToCameraGuess.length = T.length → (∀ g ∈ p.baseToCameraGuess, Representable g) →
      Shows p.observations pts → (∀ c ∈ res.baseToCamera, RigidMotion c) → RigidMotion res.wristToTarget →
      ∀ fs, fs = byCamera p.observations T.length (fun _ => wrist.length) →
      PixelNoise r fs (fun f => f.corr.inImage) (truePixel intr T fun _ i => wrist.getD i 1 * Y) →
      (∀ f ∈ fs, 0 < staticDepth (res.baseToCamera.getD f.cam 1) (wrist.getD f.img 1 * res.wristToTarget) f.corr) →
      ((∃ F, res.finalCost = some F ∧ F ≤ r) ∨
        Spec.sumSq (staticErrors intr res.baseToCamera (fun _ i => wrist.getD i 1 * res.wristToTarget) fs) ≤
          Spec.sumSq (staticErrors intr T (fun _ i => wrist.getD i 1 * Y) fs)) →
      Spec.Close e res.wristToTarget Y ∧ ∀ c < T.length, Spec.Close e (res.baseToCamera.getD c 1) (T.getD c 1) := by
  have rW : ∀ i : Nat, (wrist.getD i 1).IsRigid := rigid_getD fun w hw' => (hw w hw').1
  have rT := rigid_getD hT
  have rY := (rigid_iff _).2 hY
  obtain ⟨r, hr, hst⟩ := static_stable (W := fun _ i => wrist.getD i 1) (images := fun _ => wrist.length)
    (T := fun c => T.getD c 1) (fun _ i => rW i) rT rY hz hx hthree hax hone he
  obtain ⟨d, hd, hfit⟩ := fit_bound hr ((List.range T.length).flatMap fun c => (List.range wrist.length).flatMap fun i => pts c i).length
  refine ⟨d, hd, fun s p res h hi hwr hlen hg hobs hr1 hr2 fs hfs hn hz' hgood => ?_⟩
  have hfin := C126_wrist_only_final s p res h (by rw [hwr]; exact hw) hg hr1 (by
    rw [hwr, hlen, ← hfs]; exact fun f hf => (hz' f hf).ne')
  rw [hwr, hlen, hi, ← hfs] at hfin
  rw [hfin] at hgood
  have key := hfit fs (truePixel intr res.baseToCamera fun _ i => wrist.getD i 1 * res.wristToTarget) (fun f => f.corr.inImage)
    (truePixel intr T fun _ i => wrist.getD i 1 * Y) (by rw [hfs, byCamera_length hobs]) hgood hn
  refine hst (fun c => res.baseToCamera.getD c 1) res.wristToTarget (rigid_getD hr1) ((rigid_iff _).2 hr2) fun c hc i hi' => ?_
  exact nearView_of (intr := intr) (cams := res.baseToCamera) (cams' := T) (tgt := fun _ i => wrist.getD i 1 * res.wristToTarget)
    (tgt' := fun _ i => wrist.getD i 1 * Y) hobs (fun k hk => by rw [hfs]; exact byCamera_mem hc hi' hk) hz' key

/-- The points of all cameras, by the place of the image in the list of images used. -/
def jointPts (n : Nat) (seen : List Nat) (pts : Nat → Nat → List V3) (c m : Nat) : List V3 :=
  if h : c < n ∧ m < seen.length then pts c (seen[m]'h.2) else []

theorem jointPts_at {n : Nat} {seen : List Nat} {pts : Nat → Nat → List V3} {c m : Nat} (hc : c < n) (hm : m < seen.length) :
    jointPts n seen pts c m = pts c seen[m] := dif_pos ⟨hc, hm⟩

/-- What the lists of the two steps consist of. -/
theorem joint_lists {F : Finder Img} {cams : List (CameraParams Img)} {k : Nat} {seen : List Nat} {w : Nat → Iso}
    {pts : Nat → Nat → List V3} {T : List Iso} {Y : Iso} {r : ℝ} (hseen : seen.Pairwise (· < ·)) (hd : NoisyJoint F cams k seen w pts T Y r)
    {js : List Nat} {items : List (Iso × List (List Corr2))} (hsel : SelectedAt k (JointItem F cams) js items)
    {obs : List (List (List Corr2))} (hlen : obs.length = cams.length)
    (hobs : ∀ (c : Nat), c < cams.length → obs[c]? = some (items.map fun e => e.2.getD c [])) :
    items.length = seen.length ∧ items.map Prod.fst = seen.map w ∧ Shows obs (jointPts cams.length seen pts) ∧
    ∀ c m k, c < cams.length → (hm : m < seen.length) → k ∈ (obs.getD c []).getD m [] → ∃ e q cs,
      JointItem F cams seen[m] e ∧ items[m]? = some e ∧ e.1 = w seen[m] ∧ cams[c]? = some q ∧ e.2[c]? = some cs ∧ k ∈ cs := by
  obtain rfl : js = seen := ascending_eq hsel.1 hseen fun n => (hsel.2.1 n).trans (hd.images n).symm
  have hl := hsel.2.2.length_eq
  have item : ∀ m, (hm : m < js.length) → ∃ e, items[m]? = some e ∧ JointItem F cams js[m] e := fun m hm =>
    ⟨_, List.getElem?_eq_getElem (hl ▸ hm), hsel.2.2.get hm (hl ▸ hm)⟩
  have ob : ∀ c m, c < cams.length → (hm : m < js.length) → ∃ e q cs, JointItem F cams js[m] e ∧ items[m]? = some e ∧
      cams[c]? = some q ∧ e.2[c]? = some cs ∧ (obs.getD c []).getD m [] = cs := by
    intro c m hc hm
    obtain ⟨e, h1, h2⟩ := item m hm
    have hcl : c < e.2.length := by rw [← h2.2.length_eq]; exact hc
    refine ⟨e, _, _, h2, h1, List.getElem?_eq_getElem hc, List.getElem?_eq_getElem hcl, ?_⟩
    rw [getD_of_some (hobs c hc), getD_of_some (l := items.map fun e => e.2.getD c []) (by rw [List.getElem?_map, h1]; rfl)]
    exact getD_of_some (List.getElem?_eq_getElem hcl)
  refine ⟨hl.symm, ?_, fun c m => ?_, fun c m k hc hm hk => ?_⟩
  · refine List.ext_getElem (by simp [hl]) fun m m1 m2 => ?_
    simp only [List.length_map] at m1 m2
    obtain ⟨e, h1, h2⟩ := item m m2
    rw [List.getElem?_eq_getElem m1] at h1
    simp only [List.getElem_map]
    rw [Option.some.inj h1]
    exact hd.pose _ _ h2
  · by_cases hc : c < cams.length
    · by_cases hm : m < js.length
      · obtain ⟨e, q, cs, h1, -, h3, h4, h5⟩ := ob c m hc hm
        rw [h5, jointPts_at hc hm]
        exact hd.points _ _ h1 c cs h4
      · rw [jointPts, dif_neg (by tauto), getD_of_some (hobs c hc), List.getD_eq_getElem?_getD, List.getElem?_eq_none (by simp; omega)]
        rfl
    · rw [jointPts, dif_neg (by tauto), List.getD_eq_getElem?_getD (l := obs), List.getElem?_eq_none (by omega)]
      rfl
  · obtain ⟨e, q, cs, h1, h2, h3, h4, h5⟩ := ob c m hc hm
    exact ⟨e, q, cs, h1, h2, hd.pose _ _ h1, h3, h4, h5 ▸ hk⟩

/-- The place of an image in the list of images used. -/
theorem joint_index {seen : List Nat} {i : Nat} (h : i ∈ seen) : ∃ m, ∃ hm : m < seen.length, seen[m] = i := List.getElem_of_mem h

theorem map_getD_at {seen : List Nat} (w : Nat → Iso) {m : Nat} (hm : m < seen.length) : (seen.map w).getD m 1 = w seen[m] :=
  getD_of_some (by rw [List.getElem?_map, List.getElem?_eq_getElem hm]; rfl)

/-- The second step of the tool with two steps. Fixed are the cameras, their true poses, that of the target on the wrist, the numbers of
the images in which all cameras find the target, the wrist poses and points. One camera sees the target well in three images that differ
by turns about different axes, every other one in one image. Then for every wanted accuracy there is a bound on the noise and the error
printed after the second step that guarantees it for all poses printed, whatever the first step found. -/
theorem C211_second_step (intr : List Intr) (T : List Iso) (Y : Iso) (hT : ∀ t ∈ T, RigidMotion t)
    (hY : RigidMotion Y) (seen : List Nat) (hseen : seen.Pairwise (· < ·)) (w : Nat → Iso) (pts : Nat → Nat → List V3)
    (hw : ∀ i ∈ seen, Representable (w i) ∧ ∀ c < T.length, ∀ q ∈ pts c i, 0 < ((seenOnWrist (T.getD c 1) Y (w i)).apply q).z)
    (x a b o : Nat) (hx : x < T.length) (hthree : ∀ i ∈ [a, b, o], i ∈ seen ∧
      SeenWell (intr.getD x ⟨0, 0, 0, 0⟩) (seenOnWrist (T.getD x 1) Y (w i)) (pts x i))
    (hax : AxesDiffer (wristMotion (w a) (w o)).R (wristMotion (w b) (w o)).R)
    (hone : ∀ c < T.length, ∃ i ∈ seen, SeenWell (intr.getD c ⟨0, 0, 0, 0⟩) (seenOnWrist (T.getD c 1) Y (w i)) (pts c i))
    (e : ℝ) (he : 0 < e) :
    ∃ r : ℝ, 0 < r ∧ ∀ (Img : Type) (W : ToolWorld Img) (junk : Nat → Nat → Nat) (s : Ceres Pose6) (rep : MultiStepReport Img) (k : Nat)
      (cams : List (CameraParams Img)) (F : Finder Img) (A' A : List Iso) (B : Iso) (f : ℝ), ProperParams W.param → KeepsPlain s →
      multiStepMain W junk s = .ok (some rep) →
      (∀ (c : Nat) d, DataParam W (W.param ("camera_" ++ toString c ++ "/data_path")) d → d.images.length = k) →
      CamerasSetup W "base_to_camera_guess" cams k F → cams.map (fun q => q.intr) = intr → cams.length = T.length →
      (∀ q ∈ cams, Representable q.pose) →
      (∀ Y, PoseParam (W.param "wrist_to_target_guess") Y → Representable Y ∧ ∀ i e, JointItem F cams i e → Representable (e.1 * Y)) →
      NoisyJoint F cams k seen w pts T Y r →
      (∀ t ∈ A', Representable t) → ReportsCameras rep.cameras A' →
      (∀ t ∈ A, RigidMotion t) → RigidMotion B → ReportsCameras rep.corrected A → rep.wristToTarget = printTransform B →
      InFrontJoint F cams A B → rep.wristOpt.final = some f → f ≤ r →
      Spec.Close e B Y ∧ ∀ c < T.length, Spec.Close e (A.getD c 1) (T.getD c 1) := by
  have good : ∀ c < T.length, ∀ i ∈ seen, SeenWell (intr.getD c ⟨0, 0, 0, 0⟩) (seenOnWrist (T.getD c 1) Y (w i)) (pts c i) →
      ∃ m < (seen.map w).length, (seen.map w).getD m 1 = w i ∧
        SeenWell (intr.getD c ⟨0, 0, 0, 0⟩) ((T.getD c 1).inv * ((seen.map w).getD m 1 * Y)) (jointPts T.length seen pts c m) := by
    intro c hc i hi hs
    obtain ⟨m, hm, rfl⟩ := joint_index hi
    refine ⟨m, by simpa using hm, map_getD_at w hm, ?_⟩
    rw [map_getD_at w hm, jointPts_at hc hm]
    exact hs
  obtain ⟨na, a1, a2, a3⟩ := good x hx a (hthree a (by simp)).1 (hthree a (by simp)).2
  obtain ⟨nb, b1, b2, b3⟩ := good x hx b (hthree b (by simp)).1 (hthree b (by simp)).2
  obtain ⟨no, o1, o2, o3⟩ := good x hx o (hthree o (by simp)).1 (hthree o (by simp)).2
  obtain ⟨r, hr, hst⟩ := C211_wrist_only_any intr (seen.map w) (jointPts T.length seen pts) T Y
    (by
      intro u hu
      obtain ⟨i, hi, rfl⟩ := List.mem_map.1 hu
      exact (hw i hi).1)
    hT hY
    (by
      intro c hc m hm q hq
      rw [List.length_map] at hm
      rw [jointPts_at hc hm] at hq
      rw [map_getD_at w hm]
      exact (hw _ (List.getElem_mem hm)).2 c hc q hq)
    x na nb no hx
    (by
      intro m hm
      simp only [List.mem_cons, List.not_mem_nil, or_false] at hm
      rcases hm with rfl | rfl | rfl
      exacts [⟨a1, a3⟩, ⟨b1, b3⟩, ⟨o1, o3⟩])
    (by rw [a2, b2, o2]; exact hax)
    (by
      intro c hc
      obtain ⟨i, hi, hs⟩ := hone c hc
      obtain ⟨m, m1, -, m3⟩ := good c hc i hi hs
      exact ⟨m, m1, m3⟩) e he
  refine ⟨min r 1, lt_min hr one_pos, fun Img W junk s rep k cams F A' A B f hp hk0 h hk hset hintr hcl hg0 hY0 hdata hA' hcam' hA hB hcam htgt hz hfin hle => ?_⟩
  obtain ⟨cams', F', fix, Y', js, items, pc, rc, pw, rw', hset', h2, h3, hsel, hfirst, hr', hl, -, hrc, hstep, hr'', hl', hopt, h4, h5⟩ :=
    C186_multi_step W hp junk s rep h k hk
  obtain ⟨rfl, rfl⟩ := setup_unique hp hset hset'
  obtain rfl := reportsCameras_distinct hcam' hrc (fun t ht => (hA' t ht).1) (cameraOnly_ends hr' hk0 (by rw [hfirst.cameraGuess]; simpa using hg0) (by
    rw [hfirst.targetGuess]
    intro g hg
    obtain ⟨e, he, rfl⟩ := List.mem_map.1 hg
    obtain ⟨j, -, hj⟩ := Forall₂.mem_right hsel.2.2 he
    exact (hY0 _ h3).2 j e hj)).1
  obtain ⟨r1, r2, r3⟩ := wristOnly_ends hr'' hk0 (hstep.targetGuess ▸ (hY0 _ h3).1) (by rw [hstep.cameraGuess]; exact fun t ht => (hA' t ht).1)
  obtain rfl := C145_distinct _ _ hB r1 (htgt.symm.trans h4)
  obtain rfl := reportsCameras_distinct hcam h5 hA r2
  obtain ⟨l0, l1, l2, l3⟩ := joint_lists hseen hdata hsel hstep.length hstep.images
  rw [hcl] at l2
  rw [hopt.final] at hfin
  obtain ⟨C, hC, rfl⟩ := Option.map_eq_some_iff.1 hfin
  have feat : ∀ f ∈ byCamera pw.observations T.length (fun _ => (seen.map w).length), ∃ hm : f.img < seen.length, ∃ e q cs,
      JointItem F cams seen[f.img] e ∧ e.1 = w seen[f.img] ∧ cams[f.cam]? = some q ∧ intr.getD f.cam ⟨0, 0, 0, 0⟩ = q.intr ∧
      e.2[f.cam]? = some cs ∧ f.corr ∈ cs := by
    intro f hf
    obtain ⟨m1, m2, m3⟩ := mem_byCamera hf
    rw [List.length_map] at m2
    obtain ⟨e, q, cs, g1, -, g3, g4, g5, g6⟩ := l3 f.cam f.img f.corr (by omega) m2 m3
    refine ⟨m2, e, q, cs, g1, g3, g4, ?_, g5, g6⟩
    rw [← hintr]
    exact getD_of_some (by rw [List.getElem?_map, g4]; rfl)
  refine hst s pw rw' hr'' (by rw [hstep.intr, hintr]) (by rw [hstep.poses, l1]) (by rw [hstep.cameraGuess, hl, hcl])
    (by rw [hstep.cameraGuess]; exact hA') l2 r2 r1 _ rfl ?_ ?_ (.inl ⟨C, hC, cost_of_printed hle⟩)
  · intro f hf
    obtain ⟨hm, e, q, cs, g1, g2, g3, g4, g5, g6⟩ := feat f hf
    have := hdata.noise _ _ g1 f.cam q cs g3 g5 _ g6
    simp only [truePixel, g4, map_getD_at w hm]
    exact ⟨this.1.trans (min_le_left _ _), this.2.trans (min_le_left _ _)⟩
  · intro f hf
    obtain ⟨hm, e, q, cs, g1, g2, g3, g4, g5, g6⟩ := feat f hf
    have hl : f.cam < rw'.baseToCamera.length := by rw [hl']; exact (List.getElem?_eq_some_iff.1 g3).1
    have hP : rw'.baseToCamera[f.cam]? = some rw'.baseToCamera[f.cam] := List.getElem?_eq_getElem hl
    rw [getD_of_some hP, map_getD_at w hm, ← g2]
    exact hz _ _ g1 f.cam _ cs hP g5 _ g6

/-- The first step of the tool with two steps. For every wanted accuracy there is a bound on the noise and the error printed after the
first step that guarantees it for the poses printed then, relative to each other, of cameras linked by chains of images in which they see
the target well - provided that the targets found are in front of the cameras. -/
theorem C211_first_step (intr : List Intr) (T : List Iso) (Y : Iso) (hT : ∀ t ∈ T, RigidMotion t)
    (hY : RigidMotion Y) (seen : List Nat) (hseen : seen.Pairwise (· < ·)) (hne : seen ≠ []) (w : Nat → Iso) (pts : Nat → Nat → List V3)
    (hw : ∀ i ∈ seen, RigidMotion (w i) ∧ ∀ c < T.length, ∀ q ∈ pts c i, 0 < ((seenOnWrist (T.getD c 1) Y (w i)).apply q).z)
    (e : ℝ) (he : 0 < e) :
    ∃ r : ℝ, 0 < r ∧ ∀ (Img : Type) (W : ToolWorld Img) (junk : Nat → Nat → Nat) (s : Ceres Pose6) (rep : MultiStepReport Img) (k : Nat)
      (cams : List (CameraParams Img)) (F : Finder Img) (A : List Iso) (f : ℝ), ProperParams W.param → s.WF → KeepsPlain s →
      multiStepMain W junk s = .ok (some rep) →
      (∀ (c : Nat) d, DataParam W (W.param ("camera_" ++ toString c ++ "/data_path")) d → d.images.length = k) →
      CamerasSetup W "base_to_camera_guess" cams k F → cams.map (fun q => q.intr) = intr → cams.length = T.length →
      (∀ q ∈ cams, Representable q.pose) →
      (∀ Y, PoseParam (W.param "wrist_to_target_guess") Y → ∀ i e, JointItem F cams i e → Representable (e.1 * Y)) →
      NoisyJoint F cams k seen w pts T Y r → (∀ t ∈ A, RigidMotion t) → ReportsCameras rep.cameras A →
      (∀ items p res, (∃ fix Y js, PoseParam (W.param "wrist_to_target_guess") Y ∧ SelectedAt k (JointItem F cams) js items ∧
        CameraStep cams fix Y items p) → cameraOnly s p = .ok res →
        ∀ (c m : Nat) P G e cs, A[c]? = some P → res.baseToTarget[m]? = some G → items[m]? = some e → e.2[c]? = some cs →
        ∀ f ∈ cs, 0 < ((P.inv * G).apply f.inTarget).z) →
      rep.camerasOpt.final = some f → f ≤ r →
      ∀ c < T.length, ∀ c' < T.length, Linked (fun c i => c < T.length ∧ i ∈ seen ∧
        SeenWell (intr.getD c ⟨0, 0, 0, 0⟩) (seenOnWrist (T.getD c 1) Y (w i)) (pts c i)) c c' →
      Spec.Close e ((A.getD c 1).inv * A.getD c' 1) ((T.getD c 1).inv * T.getD c' 1) := by
  have hget : ∀ m, (hm : m < seen.length) → (seen.map fun i => w i * Y).getD m 1 = w seen[m] * Y := fun m hm =>
    map_getD_at (fun i => w i * Y) hm
  obtain ⟨r, hr, hst⟩ := C211_camera_only intr (jointPts T.length seen pts) T (seen.map fun i => w i * Y) hT
    (by
      intro t ht
      obtain ⟨i, hi, rfl⟩ := List.mem_map.1 ht
      exact (rigid_iff _).1 (((rigid_iff _).2 (hw i hi).1).mul ((rigid_iff _).2 hY)))
    (by simpa using hne)
    (by
      intro c hc m hm q hq
      rw [List.length_map] at hm
      rw [jointPts_at hc hm] at hq
      rw [hget m hm]
      exact (hw _ (List.getElem_mem hm)).2 c hc q hq) e he
  refine ⟨min r 1, lt_min hr one_pos, fun Img W junk s rep k cams F A f hp hs hk0 h hk hset hintr hcl hg0 hY0 hdata hA hcam hz hfin hle c hc c' hc' hlink => ?_⟩
  obtain ⟨cams', F', fix, Y', js, items, pc, rc, pw, rw', hset', h2, h3, hsel, hstep, hr', hl, hopt, hrc, -⟩ :=
    C186_multi_step W hp junk s rep h k hk
  obtain ⟨rfl, rfl⟩ := setup_unique hp hset hset'
  have htg : ∀ g ∈ pc.baseToTargetGuess, Representable g := by
    rw [hstep.targetGuess]
    intro g hg
    obtain ⟨e, he, rfl⟩ := List.mem_map.1 hg
    obtain ⟨j, -, hj⟩ := Forall₂.mem_right hsel.2.2 he
    exact hY0 _ h3 j e hj
  have hcg : ∀ g ∈ pc.baseToCameraGuess, Representable g := by rw [hstep.cameraGuess]; simpa using hg0
  obtain ⟨r1, r2, r3, -⟩ := cameraOnly_ends hr' hk0 hcg htg
  obtain rfl := reportsCameras_distinct hcam hrc hA r1
  obtain ⟨l0, l1, l2, l3⟩ := joint_lists hseen hdata hsel hstep.length hstep.images
  rw [hcl] at l2
  rw [hopt.final] at hfin
  obtain ⟨C, hC, rfl⟩ := Option.map_eq_some_iff.1 hfin
  have feat : ∀ f ∈ byImage pc.observations T.length (seen.map fun i => w i * Y).length, ∃ hm : f.img < seen.length, ∃ e q cs,
      JointItem F cams seen[f.img] e ∧ items[f.img]? = some e ∧ e.1 = w seen[f.img] ∧ cams[f.cam]? = some q ∧
      intr.getD f.cam ⟨0, 0, 0, 0⟩ = q.intr ∧ e.2[f.cam]? = some cs ∧ f.corr ∈ cs := by
    intro f hf
    obtain ⟨m1, m2, m3⟩ := mem_byImage hf
    rw [List.length_map] at m2
    obtain ⟨e, q, cs, g1, g2, g3, g4, g5, g6⟩ := l3 f.cam f.img f.corr (by omega) m2 m3
    refine ⟨m2, e, q, cs, g1, g2, g3, g4, ?_, g5, g6⟩
    rw [← hintr]
    exact getD_of_some (by rw [List.getElem?_map, g4]; rfl)
  refine hst s pc rc hs hr' (by rw [hstep.intr, hintr]) (by rw [hstep.cameraGuess, List.length_map, hcl])
    (by rw [hstep.targetGuess, List.length_map, List.length_map, l0]) l2 (fun _ g hg => hcg g (List.mem_of_getElem? hg)) r1 r2 _ rfl ?_ ?_
    (.inl ⟨C, hC, cost_of_printed hle⟩) c hc c' hc' ?_
  · intro f hf
    obtain ⟨hm, e, q, cs, g1, g2, g3, g4, g5, g6, g7⟩ := feat f hf
    have := hdata.noise _ _ g1 f.cam q cs g4 g6 _ g7
    simp only [truePixel, g5, hget _ hm]
    exact ⟨this.1.trans (min_le_left _ _), this.2.trans (min_le_left _ _)⟩
  · intro f hf
    obtain ⟨hm, e, q, cs, g1, g2, g3, g4, g5, g6, g7⟩ := feat f hf
    have hl1 : f.cam < rc.baseToCamera.length := by rw [hl]; exact (List.getElem?_eq_some_iff.1 g4).1
    have hP : rc.baseToCamera[f.cam]? = some rc.baseToCamera[f.cam] := List.getElem?_eq_getElem hl1
    have hl2 : f.img < rc.baseToTarget.length := by rw [r3, hstep.targetGuess, List.length_map, l0]; exact hm
    have hG : rc.baseToTarget[f.img]? = some rc.baseToTarget[f.img] := List.getElem?_eq_getElem hl2
    rw [getD_of_some hP, getD_of_some hG]
    exact hz items pc rc ⟨fix, Y', js, h3, hsel, hstep⟩ hr' f.cam f.img _ _ e cs hP hG g2 g6 _ g7
  · refine Relation.ReflTransGen.mono ?_ _ _ hlink
    rintro x y ⟨i, ⟨x1, x2, x3⟩, y1, -, y3⟩
    obtain ⟨m, hm, rfl⟩ := joint_index x2
    refine ⟨m, ⟨x1, by simpa using hm, ?_⟩, y1, by simpa using hm, ?_⟩
    · rw [hget m hm, jointPts_at x1 hm]; exact x3
    · rw [hget m hm, jointPts_at y1 hm]; exact y3

/-- The PnP tool for several cameras. Fixed are the cameras, their poses, the pose of the target and the points. If one camera sees the
target well, then for every wanted accuracy there is a bound on the noise and the error printed that guarantees it for the pose found from
every image that shows all cameras these points. -/
theorem C211_pnp_tool (intr : List Intr) (C : List Iso) (T : Iso) (hC : ∀ c ∈ C, Representable c) (hT : RigidMotion T)
    (pts : Nat → List V3) (hz : ∀ c < C.length, ∀ q ∈ pts c, 0 < (((C.getD c 1).inv * T).apply q).z) (x : Nat) (hx : x < C.length)
    (hsee : SeenWell (intr.getD x ⟨0, 0, 0, 0⟩) ((C.getD x 1).inv * T) (pts x)) (e : ℝ) (he : 0 < e) :
    ∃ r : ℝ, 0 < r ∧ ∀ (Img : Type) (W : ToolWorld Img) (junk : Nat → Nat → Nat) (s : Ceres Pose6) (rep : List (Iso × View Img)) (k : Nat)
      (cams : List (CameraParams Img)) (F : Finder Img), ProperParams W.param → multiPnpMain W junk s = .ok (some rep) →
      (∀ (c : Nat) d, DataParam W (W.param ("camera_" ++ toString c ++ "/data_path")) d → d.images.length = k) →
      CamerasSetup W "base_to_camera" cams k F → cams.map (fun q => q.intr) = intr → cams.map (fun q => q.pose) = C →
      ∀ n u, JointItem F cams n u →
      (∀ (c : Nat) q cs, cams[c]? = some q → u.2[c]? = some cs → targetPoints cs = pts c ∧
        PixelNoise r cs (fun k => k.inImage) fun k => pinhole q.intr ((q.pose.inv * T).apply k.inTarget)) →
      ∃ (m : Nat) (o : Iso × View Img) (q : CameraParams Img), rep[m]? = some o ∧ o.1 = u.1 ∧ cams[0]? = some q ∧
        q.data.images[n]? = some o.2.image ∧ o.2.estimated = q.pose.inv * o.2.baseToTarget ∧
        (RigidMotion o.2.baseToTarget →
          (∀ (c : Nat) P cs, C[c]? = some P → u.2[c]? = some cs → ∀ k ∈ cs, 0 < ((P.inv * o.2.baseToTarget).apply k.inTarget).z) →
          ∀ f, o.2.opt.final = some f → f ≤ r → Spec.Close e o.2.baseToTarget T) := by
  obtain ⟨r, hr, hst⟩ := C211_pnp intr (fun c => if c < C.length then pts c else []) C T hC hT
    (by intro c hc q hq; rw [if_pos hc] at hq; exact hz c hc q hq) x hx (by rw [if_pos hx]; exact hsee) e he
  refine ⟨min r 1, lt_min hr one_pos, fun Img W junk s rep k cams F hp h hk hset hintr hpose n u hu hdata => ?_⟩
  obtain ⟨first, rest, F', js, items, hset', hsel, himg, hview⟩ := C186_multi_pnp W hp junk s rep h k hk
  obtain ⟨rfl, rfl⟩ := setup_unique hp hset hset'
  obtain ⟨m, hm, rfl⟩ := List.getElem_of_mem ((hsel.2.1 n).2 ⟨joint_lt hset.images hu, u, hu⟩)
  have hmi : m < items.length := hsel.2.2.length_eq ▸ hm
  have hmr : m < rep.length := himg.length_eq ▸ hm
  obtain rfl : items[m] = u := jointItem_unique (hsel.2.2.get hm hmi) hu
  obtain ⟨g1, g2⟩ := hview.get hmi hmr
  simp only [List.get_eq_getElem] at g1 g2
  obtain ⟨res, g3, g4, g5, -, g6⟩ := g2.pnp
  refine ⟨m, rep[m], first, List.getElem?_eq_getElem hmr, g1, rfl, himg.get hm hmr, by rw [g5, g4], fun hrig hfront f hf hle => ?_⟩
  have hcl : (first :: rest).length = C.length := by rw [← hpose, List.length_map]
  have hul : items[m].2.length = C.length := by rw [← hu.2.length_eq, hcl]
  rw [g6.final] at hf
  obtain ⟨c0, hc0, rfl⟩ := Option.map_eq_some_iff.1 hf
  rw [g4] at hrig hfront ⊢
  have feat : ∀ f ∈ oneImage items[m].2 C.length, ∃ q cs, (first :: rest)[f.cam]? = some q ∧ items[m].2[f.cam]? = some cs ∧ f.corr ∈ cs ∧
      intr.getD f.cam ⟨0, 0, 0, 0⟩ = q.intr ∧ C[f.cam]? = some q.pose := by
    intro f hf
    obtain ⟨c, hc, hf⟩ := List.mem_flatMap.1 hf
    obtain ⟨k', hk', rfl⟩ := List.mem_map.1 hf
    rw [List.mem_range] at hc
    obtain ⟨q, hq⟩ : ∃ q, (first :: rest)[c]? = some q := ⟨_, List.getElem?_eq_getElem (hcl ▸ hc)⟩
    have hcs : items[m].2[c]? = some (items[m].2[c]'(hul ▸ hc)) := List.getElem?_eq_getElem (hul ▸ hc)
    refine ⟨q, _, hq, hcs, ?_, ?_, ?_⟩
    · rwa [getD_of_some hcs] at hk'
    · rw [← hintr]; exact getD_of_some (by rw [List.getElem?_map, hq]; rfl)
    · rw [← hpose, List.getElem?_map, hq]; rfl
  refine hst s _ res g3 hintr hpose ?_ hrig _ rfl ?_ ?_ (.inl ⟨c0, hc0, cost_of_printed hle⟩)
  · intro c
    by_cases hc : c < C.length
    · have hcs : items[m].2[c]? = some (items[m].2[c]'(hul ▸ hc)) := List.getElem?_eq_getElem (hul ▸ hc)
      rw [if_pos hc]
      simp only
      rw [getD_of_some hcs]
      exact (hdata c _ _ (List.getElem?_eq_getElem (hcl ▸ hc)) hcs).1
    · rw [if_neg hc]
      simp only
      rw [List.getD_eq_getElem?_getD, List.getElem?_eq_none (by omega)]
      rfl
  · intro f hf
    obtain ⟨q, cs, k1, k2, k3, k4, k5⟩ := feat f hf
    have := (hdata _ q cs k1 k2).2 _ k3
    simp only [truePixel, k4, getD_of_some k5]
    exact ⟨this.1.trans (min_le_left _ _), this.2.trans (min_le_left _ _)⟩
  · intro f hf
    obtain ⟨q, cs, k1, k2, k3, k4, k5⟩ := feat f hf
    rw [getD_of_some k5]
    exact hfront _ _ cs k5 k2 _ k3

/-- What the examples below need of the two cameras and the three wrist poses. -/
theorem dual_facts : (∀ c : Nat, c < 2 → [stCam 0, stCam 1].getD c 1 = stCam c) ∧
    (∀ n ∈ [0, 1, 2], dualWrists[n]? = some (dualWrists.getD n 1)) ∧
    (∀ c : Nat, c < 2 → ∀ n ∈ [0, 1, 2], SeenWell (([⟨1, 1, 0, 0⟩, ⟨1, 1, 0, 0⟩] : List Intr).getD c ⟨0, 0, 0, 0⟩)
      (seenOnWrist ([stCam 0, stCam 1].getD c 1) (shiftBy 10 10 10) (dualWrists.getD n 1)) squarePoints) ∧
    ∀ c : Nat, c < 2 → ∀ n ∈ [0, 1, 2], ∀ q ∈ squarePoints,
      0 < ((seenOnWrist ([stCam 0, stCam 1].getD c 1) (shiftBy 10 10 10) (dualWrists.getD n 1)).apply q).z := by
  have hTget : ∀ c : Nat, c < 2 → [stCam 0, stCam 1].getD c 1 = stCam c := fun c hc => stCams_get hc
  have hIget : ∀ c : Nat, c < 2 → ([⟨1, 1, 0, 0⟩, ⟨1, 1, 0, 0⟩] : List Intr).getD c ⟨0, 0, 0, 0⟩ = ⟨1, 1, 0, 0⟩ := fun c hc => stIntr_get hc
  have hwr : ∀ n ∈ [0, 1, 2], dualWrists[n]? = some (dualWrists.getD n 1) := by
    intro n hn
    have : n < 3 := by simp only [List.mem_cons, List.not_mem_nil, or_false] at hn; omega
    rw [List.getElem?_eq_getElem this, List.getD_eq_getElem?_getD, List.getElem?_eq_getElem this]; rfl
  refine ⟨hTget, hwr, fun c hc n hn => ?_, fun c hc n hn q hq => ?_⟩
  · have h := GoodView.seenWell (dual_good (c := c) (List.mem_of_getElem? (hwr n hn)))
    rw [hTget c hc, hIget c hc, ← dual_points (c := c) (w := dualWrists.getD n 1)]
    exact h
  · rw [hTget c hc]
    exact (stView (Nat.cast_nonneg c) (List.mem_of_getElem? (hwr n hn))).2.2 q hq

theorem dual_noisy {r : ℝ} (hr : 0 ≤ r) : NoisyJoint (exampleFinder dualView) dualCams 3 [0, 1, 2] (fun n => dualWrists.getD n 1)
    (fun _ _ => squarePoints) [stCam 0, stCam 1] (shiftBy 10 10 10) r := by
  obtain ⟨hT, hwr, -, -⟩ := dual_facts
  refine ⟨fun n => ⟨fun hn => ⟨(by simp only [List.mem_cons, List.not_mem_nil, or_false] at hn; omega), _, dual_item (hwr n hn)⟩, fun h => ?_⟩,
    fun n u hu => (getD_of_some (dual_joint hu).1).symm, fun n u hu c cs hcs => ?_, fun n u hu c q cs hq hcs k hk => ?_⟩
  · have := h.1
    simp only [List.mem_cons, List.not_mem_nil, or_false]; omega
  · obtain ⟨-, rfl⟩ := (dual_joint hu).2 c cs hcs
    exact dual_points
  · obtain ⟨g1, g2⟩ := dual_joint hu
    obtain ⟨hc, rfl⟩ := g2 c cs hcs
    have hpix := (dual_true (c := c) (List.mem_of_getElem? g1) k hk).2
    rw [(dual_camera hq).2.1, hT c hc, getD_of_some g1]
    simp only [hpix, sub_self, abs_zero]
    exact ⟨hr, hr⟩

/-- `C211_wrist_only_any`: two cameras and a wrist that makes two quarter turns. -/
example (e : ℝ) (he : 0 < e) : ∃ (p : WoProblem) (res : WoResult), wristOnly (idCeres Pose6) p = .ok res ∧
    p.baseToCameraGuess.length = 2 ∧ Spec.Close e res.wristToTarget (shiftBy 10 10 10) ∧ Spec.Close e (res.baseToCamera.getD 1 1) (stCam 1) := by
  obtain ⟨W, hWe⟩ : ∃ W : List Iso, W = [1, quarterX, quarterZ] := ⟨_, rfl⟩
  have hW : ∀ w ∈ W, w ∈ [1, quarterX, quarterZ] := by rw [hWe]; exact fun _ h => h
  have hlen : W.length = 3 := by rw [hWe]; rfl
  obtain ⟨p, hp⟩ : ∃ p : WoProblem, p = ⟨[⟨1, 1, 0, 0⟩, ⟨1, 1, 0, 0⟩], W, stObs W, shiftBy 10 10 10, [stCam 0, stCam 1]⟩ := ⟨_, rfl⟩
  obtain ⟨res, h⟩ : ∃ res, wristOnly (idCeres Pose6) p = .ok res := by rw [hp, hWe]; exact ⟨_, rfl⟩
  obtain ⟨r1, r2⟩ := C34_wrist_only (idCeres Pose6) p res (fun _ _ => rfl) (by rw [hp]; exact shiftBy_rep _ _ _) h
  replace r1 : res.wristToTarget = shiftBy 10 10 10 := by rw [r1, hp]
  replace r2 : res.baseToCamera = [stCam 0, stCam 1] := by rw [r2, hp]
  have hwell : ∀ c i : Nat, c < 2 → i < 3 → i < W.length ∧ SeenWell ([⟨1, 1, 0, 0⟩, ⟨1, 1, 0, 0⟩].getD c ⟨0, 0, 0, 0⟩)
      (([stCam 0, stCam 1].getD c 1).inv * (W.getD i 1 * shiftBy 10 10 10)) (stPts W c i) := by
    intro c i hc hi
    rw [stIntr_get hc, stCams_get hc]
    exact ⟨by omega, GoodView.seenWell (stGood hW hc (by omega))⟩
  obtain ⟨r, hr, key⟩ := C211_wrist_only_any [⟨1, 1, 0, 0⟩, ⟨1, 1, 0, 0⟩] W (stPts W) [stCam 0, stCam 1] (shiftBy 10 10 10)
    (fun w hw => stWrist_rep (hW w hw)) (fun c hc => (stCams_rep c hc).1) (shiftBy_rep _ _ _).1
    (by
      intro c hc i hi
      rw [stCams_get hc]
      exact stPts_depth hW hc hi)
    0 1 2 0 (by simp) (by
      intro i hi
      refine hwell 0 i (by norm_num) ?_
      simp only [List.mem_cons, List.not_mem_nil, or_false] at hi
      omega) (by rw [hWe]; exact stAxes)
    (fun c hc => ⟨0, hwell c 0 hc (by norm_num)⟩) e he
  obtain ⟨k1, k2⟩ := key (idCeres Pose6) p res h (by rw [hp]) (by rw [hp]) (by rw [hp]) (by rw [hp]; exact stCams_rep)
    (by rw [hp]; exact fun _ _ => rfl) (by rw [r2]; exact fun c hc => (stCams_rep c hc).1)
    (by rw [r1]; exact (shiftBy_rep _ _ _).1) (byCamera (stObs W) 2 fun _ => W.length) (by rw [hp]; rfl)
    (by
      intro f hf
      obtain ⟨h1, -, -, h4⟩ := stObs_feature hf
      simp only [truePixel]
      rw [h4, stIntr_get h1, stCams_get h1]
      simp [hr.le])
    (by
      intro f hf
      have h1 := (stObs_feature hf).1
      rw [r1, r2, stCams_get h1]
      simpa using stDepth hW le_rfl hf)
    (.inr (by rw [r1, r2]))
  exact ⟨p, res, h, by rw [hp]; rfl, k1, by simpa using k2 1 (by simp)⟩

/-- `C211_second_step`: two cameras that see the target in three images each, whatever accuracy is asked for. -/
example (e : ℝ) (he : 0 < e) : ∃ rep A B, multiStepMain dualWorld (fun _ _ => 7) (idCeres Pose6) = .ok (some rep) ∧
    ReportsCameras rep.corrected A ∧ rep.wristToTarget = printTransform B ∧ rep.wristOpt.final = some 0 ∧
    Spec.Close e B (shiftBy 10 10 10) ∧ ∀ c < 2, Spec.Close e (A.getD c 1) ([stCam 0, stCam 1].getD c 1) := by
  obtain ⟨hTget, hwr, hwell, hdep⟩ := dual_facts
  obtain ⟨ρ, hρ, key⟩ := C211_second_step [⟨1, 1, 0, 0⟩, ⟨1, 1, 0, 0⟩] [stCam 0, stCam 1] (shiftBy 10 10 10) (fun t ht => (stCams_rep t ht).1)
    (shiftBy_rep _ _ _).1 [0, 1, 2] (by simp) (fun n => dualWrists.getD n 1) (fun _ _ => squarePoints)
    (fun n hn => ⟨stWrist_rep (List.mem_of_getElem? (hwr n hn)), fun c hc => hdep c hc n hn⟩) 0 1 2 0 (by simp)
    (fun i hi => ⟨(by simp only [List.mem_cons, List.not_mem_nil, or_false] at hi ⊢; omega),
      hwell 0 (by norm_num) i (by simp only [List.mem_cons, List.not_mem_nil, or_false] at hi ⊢; omega)⟩) dual_axes
    (fun c hc => ⟨0, by simp, hwell c hc 0 (by simp)⟩) e he
  obtain ⟨rep, hrep, h1, h2, h3, -, h5, h6, h7, -⟩ := dual_step_run
  obtain ⟨k1, k2⟩ := key Nat dualWorld (fun _ _ => 7) (idCeres Pose6) rep 3 dualCams (exampleFinder dualView) _ _ _ 0 dualWorld_proper keepsPlain_idCeres
    hrep dualWorld_images dualWorld_setup rfl rfl (fun q hq => dual_pose hq) h6 (dual_noisy hρ.le) stCams_rep h1
    (fun t ht => (stCams_rep t ht).1) (shiftBy_rep _ _ _).1 h2 h3 h7 h5 hρ.le
  exact ⟨rep, _, _, hrep, h2, h3, h5, k1, k2⟩

/-- `C211_first_step`: the same run; the two cameras are linked by every image. -/
example (e : ℝ) (he : 0 < e) : ∃ rep A, multiStepMain dualWorld (fun _ _ => 7) (idCeres Pose6) = .ok (some rep) ∧
    ReportsCameras rep.cameras A ∧ rep.camerasOpt.final = some 0 ∧
    Spec.Close e ((A.getD 0 1).inv * A.getD 1 1) ((stCam 0).inv * stCam 1) := by
  obtain ⟨hTget, hwr, hwell, hdep⟩ := dual_facts
  obtain ⟨ρ, hρ, key⟩ := C211_first_step [⟨1, 1, 0, 0⟩, ⟨1, 1, 0, 0⟩] [stCam 0, stCam 1] (shiftBy 10 10 10) (fun t ht => (stCams_rep t ht).1)
    (shiftBy_rep _ _ _).1 [0, 1, 2] (by simp) (by simp) (fun n => dualWrists.getD n 1) (fun _ _ => squarePoints)
    (fun n hn => ⟨(stWrist_rep (List.mem_of_getElem? (hwr n hn))).1, fun c hc => hdep c hc n hn⟩) e he
  obtain ⟨rep, hrep, h1, -, -, h4, -, h6, -, h8⟩ := dual_step_run
  exact ⟨rep, _, hrep, h1, h4, key Nat dualWorld (fun _ _ => 7) (idCeres Pose6) rep 3 dualCams (exampleFinder dualView) _ 0 dualWorld_proper
    (idCeres_wf _) keepsPlain_idCeres hrep dualWorld_images dualWorld_setup rfl rfl (fun q hq => dual_pose hq) (fun Y hY => (h6 Y hY).2)
    (dual_noisy hρ.le) (fun t ht => (stCams_rep t ht).1) h1 h8 h4 hρ.le 0 (by simp) 1 (by simp)
    (.single ⟨0, ⟨by simp, by simp, hwell 0 (by norm_num) 0 (by simp)⟩, by simp, by simp, hwell 1 (by norm_num) 0 (by simp)⟩)⟩

/-- A solver that returns a fixed pose. -/
noncomputable def fixedCeres (T : Iso) : Ceres Pose6 := { idCeres Pose6 with solve := fun _ _ _ => poseEigenToCal T }

/-- `C211_pnp_tool`: the first image of both cameras and a solver that finds the target. -/
example (e : ℝ) (he : 0 < e) : ∃ rep, ∃ o : Iso × View Nat, multiPnpMain dualWorld (fun _ _ => 7) (fixedCeres (shiftBy 10 10 10)) = .ok (some rep) ∧
    o ∈ rep ∧ o.2.opt.final = some 0 ∧ Spec.Close e o.2.baseToTarget (shiftBy 10 10 10) := by
  obtain ⟨hTget, hwr, hwell, hdep⟩ := dual_facts
  have hw0 : dualWrists.getD 0 1 = 1 := rfl
  have h0 : dualWrists[0]? = some 1 := rfl
  have hd0 : ∀ c : Nat, c < 2 → ∀ q ∈ squarePoints, 0 < ((([stCam 0, stCam 1].getD c 1).inv * shiftBy 10 10 10).apply q).z := by
    intro c hc q hq
    have := hdep c hc 0 (by simp) q hq
    rwa [hw0, seenOnWrist, Iso.one_mul] at this
  obtain ⟨ρ, hρ, key⟩ := C211_pnp_tool [⟨1, 1, 0, 0⟩, ⟨1, 1, 0, 0⟩] [stCam 0, stCam 1] (shiftBy 10 10 10) stCams_rep
    (shiftBy_rep _ _ _).1 (fun _ => squarePoints) hd0 0 (by simp)
    (by
      have := hwell 0 (by norm_num) 0 (by simp)
      rwa [hw0, seenOnWrist, Iso.one_mul] at this) e he
  obtain ⟨s, hs⟩ : ∃ s, s = fixedCeres (shiftBy 10 10 10) := ⟨_, rfl⟩
  obtain ⟨rep, hrep⟩ : ∃ rep, multiPnpMain dualWorld (fun _ _ => 7) s = .ok (some rep) := by
    have hset := dualWorld_pnp_setup
    obtain ⟨rep, hrep⟩ := multiPnp_tail (orderlyFinder_of dualWorld_orderly hset.finder) (fun _ _ => 7) s (by simp [dualCams])
      hset.images (setup_poses hset.camera)
    refine ⟨rep, ?_⟩
    unfold multiPnpMain
    rw [toolExit_ok, (cameraCount_ok_iff _ _).2 hset.count, Res.ok_bind,
      (loadCameras_ok_iff _ dualWorld_proper _ (C106_partial dualWorld.codec dualWorld.fs · |>.2) _ _ _).2 ⟨rfl, hset.camera⟩, Res.ok_bind,
      (loadFinder_ok_iff _ _).2 hset.finder, Res.ok_bind]
    exact hrep
  have hu := dual_item h0
  obtain ⟨m, o, q, g1, g2, g3, g4, g5, g6⟩ := key Nat dualWorld (fun _ _ => 7) s rep 3 dualCams (exampleFinder dualView) dualWorld_proper hrep
    dualWorld_images dualWorld_pnp_setup rfl (by simp [dualCams]) 0 _ hu
    (by
      intro c q cs hq hcs
      obtain ⟨hc, rfl⟩ := (dual_joint hu).2 c cs hcs
      refine ⟨dual_points, fun k hk => ?_⟩
      have hpix := (dual_true (c := c) (List.mem_of_getElem? h0) k hk).2
      rw [seenOnWrist, Iso.one_mul] at hpix
      rw [(dual_camera hq).2.1, (dual_camera hq).2.2.1]
      simp only [hpix, sub_self, abs_zero]
      exact ⟨hρ.le, hρ.le⟩)
  obtain ⟨first, rest, F', js, items, hset', hsel, himg, hview⟩ := C186_multi_pnp dualWorld dualWorld_proper _ s rep hrep 3 dualWorld_images
  obtain ⟨hcams, hF⟩ := setup_unique dualWorld_proper dualWorld_pnp_setup hset'
  rw [← hF, ← hcams] at hsel
  rw [← hcams] at hview
  have hmr : m < rep.length := (List.getElem?_eq_some_iff.1 g1).1
  have hmi : m < items.length := hview.length_eq ▸ hmr
  have hmj : m < js.length := hsel.2.2.length_eq ▸ hmi
  obtain ⟨v1, v2⟩ := hview.get hmi hmr
  have hji := hsel.2.2.get hmj hmi
  simp only [List.get_eq_getElem] at v1 v2 hji
  obtain ⟨u, hu'⟩ : ∃ u, u = items[m] := ⟨_, rfl⟩
  rw [← hu'] at v1 v2 hji
  have ho : rep[m] = o := (List.getElem?_eq_some_iff.1 g1).2
  rw [ho] at v1 v2
  obtain ⟨res, r1, r2, -, -, r4⟩ := v2.pnp
  have hres : res.baseToTarget = shiftBy 10 10 10 := by
    unfold mcPnp at r1
    rw [Res.bind_ok_iff] at r1
    obtain ⟨pb, -, r1⟩ := r1
    cases r1
    simp only [hs, fixedCeres]
    exact (shiftBy_rep _ _ _).roundtrip
  have hwu : u.1 = 1 := by rw [← v1, g2]
  have hposes : (dualCams.map fun q => q.pose) = [stCam 0, stCam 1] := rfl
  have hul : u.2.length = 2 := hji.2.length_eq.symm
  have feat : ∀ f ∈ oneImage u.2 2, f.cam < 2 ∧ f.corr ∈ stImage f.cam 1 := by
    intro f hf
    obtain ⟨c, hc, hf⟩ := List.mem_flatMap.1 hf
    obtain ⟨k, hk, rfl⟩ := List.mem_map.1 hf
    rw [List.mem_range] at hc
    have hcs : u.2[c]? = some (u.2[c]'(hul ▸ hc)) := List.getElem?_eq_getElem (hul ▸ hc)
    rw [getD_of_some hcs, ((dual_joint hji).2 c _ hcs).2, hwu] at hk
    exact ⟨hc, hk⟩
  have hzero : res.finalCost = some 0 := by
    have := C125_final s _ res r1 (by rw [hposes]; exact stCams_rep) (by
      rw [hres, hposes]
      intro f hf
      obtain ⟨hc, hk⟩ := feat f hf
      obtain ⟨q, hq, hf'⟩ := List.mem_map.1 hk
      refine (hd0 f.cam hc f.corr.inTarget ?_).ne'
      rw [← hf']; exact hq)
    rw [this, hres, hposes, meanCost_eq_zero_iff]
    refine ⟨fun h => ?_, fun x hx => ?_⟩
    · have hcs : u.2[0]? = some (u.2[0]'(hul ▸ Nat.zero_lt_two)) := List.getElem?_eq_getElem _
      have h1 := ((dual_joint hji).2 0 _ hcs).2
      have h2 : (⟨0, 0, ⟨pinhole ⟨1, 1, 0, 0⟩ (((stCam (0 : Nat)).inv * (u.1 * shiftBy 10 10 10)).apply ⟨0, 0, 0⟩), ⟨0, 0, 0⟩⟩⟩ : Feature) ∈
          oneImage u.2 2 := List.mem_flatMap.2 ⟨0, by simp, List.mem_map.2 ⟨_, by
            rw [getD_of_some hcs, h1]; exact List.mem_map.2 ⟨⟨0, 0, 0⟩, by simp [squarePoints], rfl⟩, rfl⟩⟩
      have h3 := List.flatMap_eq_nil_iff.1 h _ h2
      simp [staticError, diff2] at h3
    · obtain ⟨f, hf, hx⟩ := List.mem_flatMap.1 hx
      obtain ⟨hc, hk⟩ := feat f hf
      have hpix := (dual_true (c := f.cam) (List.mem_of_getElem? h0) _ hk).2
      rw [seenOnWrist, Iso.one_mul] at hpix
      have hi : (dualCams.map fun q => q.intr).getD f.cam ⟨0, 0, 0, 0⟩ = ⟨1, 1, 0, 0⟩ := stIntr_get hc
      simp only [hi, hTget _ hc] at hx
      exact diff2_zero.2 hpix.symm x hx
  refine ⟨rep, o, hs ▸ hrep, List.mem_of_getElem? g1, by rw [r4.final, hzero]; simp, g6 (by rw [r2, hres]; exact (shiftBy_rep _ _ _).1) ?_ 0
    (by rw [r4.final, hzero]; simp) hρ.le⟩
  intro c P cs hP hcs k hk
  obtain ⟨hc, rfl⟩ := (dual_joint hu).2 c cs hcs
  obtain ⟨q, hq, rfl⟩ := List.mem_map.1 hk
  have := hd0 c hc q hq
  rw [getD_of_some hP] at this
  rw [r2, hres]
  exact this

end RCT
