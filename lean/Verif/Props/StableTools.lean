import Verif.Props.StableHandEyeTool
import Verif.Props.MultiEndToEnd
import Verif.Props.SingleEnds

/-!
# C206 and C211 for the tools
-/

namespace RCT

open Spec

/-- If the printed error is at most `min r 1`, the cost is at most `r`. -/
theorem cost_of_printed {F r : ℝ} (h : Real.sqrt F ≤ min r 1) : F ≤ r := by
  have hle1 := min_le_left r 1
  have hle2 := min_le_right r 1
  have hs0 := Real.sqrt_nonneg F
  by_cases hneg : F ≤ 0
  · linarith
  · have hpos : 0 ≤ F := le_of_lt (not_le.1 hneg)
    have hsq := Real.mul_self_sqrt hpos
    nlinarith [h.trans hle1, h.trans hle2]

/-- The PnP tool. Fixed are the camera, the true pose and the points of the target; the tool may read any image in which the finder finds
these points within the tolerance of the true pixels. -/
theorem C206_tool (i : Intr) (hfx : i.fx ≠ 0) (hfy : i.fy ≠ 0) (T : Iso) (hT : RigidMotion T) (pts : List V3) (hq : QuadrangleIn pts)
    (hz : ∀ k ∈ pts, 0 < (T.apply k).z) (hcam : T.inv.t.z ≠ 0) (e : ℝ) (he : 0 < e) :
    ∃ r : ℝ, 0 < r ∧ ∀ (Img : Type) (W : ToolWorld Img) (read : String → Img) (cv : CvSolvePnP) (s3 : Ceres V3) (T0 : Iso)
      (res : PnPResult) (cs : List Corr2) (f : ℝ), ProperParams W.param → solvePnpTool W read cv s3 = .ok (some (T0, res)) →
      PnpScene W read i cs → targetPoints cs = pts →
      PixelNoise r cs (fun k => k.inImage) (fun k => pinhole i (T.apply k.inTarget)) → ClearlyInFront res.cameraToTarget cs →
      res.finalCost.map Real.sqrt = some f → f ≤ r → Spec.Close e res.cameraToTarget T := by
  obtain ⟨a, ha, b, hb, c, hc, d, hd, hquad⟩ := hq
  obtain ⟨r, hr, hst⟩ := C206_pnp i hfx hfy T hT pts a b c d hquad (by
    intro k hk
    simp only [List.mem_cons, List.not_mem_nil, or_false] at hk
    rcases hk with rfl | rfl | rfl | rfl <;> assumption) hz hcam e he
  refine ⟨min r 1, lt_min hr one_pos, fun Img W read cv s3 T0 res cs f hp h hscene hpts hn hfront hf hle => ?_⟩
  obtain ⟨path, intr', F, fs, cs', h1, h2, h3, h4, h5, h6, h7, h8, h9⟩ := (C190_pnp W hp read cv s3 T0 res).1 h
  obtain ⟨path', F', fs', g1, g2, g3, g4, g5⟩ := hscene
  rw [h1] at g1; cases g1
  obtain rfl : intr' = i := Res.ok.inj (((intrParam_ok_iff hp _ _).2 h2).symm.trans ((intrParam_ok_iff hp _ _).2 g2))
  obtain rfl : F' = F := Res.ok.inj (((loadFinder_ok_iff W F').2 g3).symm.trans ((loadFinder_ok_iff W F).2 h3))
  rw [h4] at g4; cases g4
  rw [h7] at g5
  obtain rfl : cs' = cs := Res.ok.inj g5
  obtain ⟨C, hC, rfl⟩ := Option.map_eq_some_iff.1 hf
  exact hst s3 _ res C h9 rfl hpts (fun k hk => ⟨(hn k hk).1.trans (min_le_left _ _), (hn k hk).2.trans (min_le_left _ _)⟩) hfront hC
    (cost_of_printed hle)

/-- The tool for several static cameras. Fixed are the cameras, their true poses, that of the target on the wrist, and for every camera the
numbers of the images in which it finds the target, with wrist poses and points. One camera sees the target well in three images that differ
by turns about different axes, every other one in one image. -/
theorem C211_tool (intr : List Intr) (T : List Iso) (Y : Iso) (hT : ∀ t ∈ T, RigidMotion t)
    (hY : RigidMotion Y) (seen : Nat → List Nat) (hseen : ∀ c, (seen c).Pairwise (· < ·)) (w : Nat → Nat → Iso) (pts : Nat → Nat → List V3)
    (hw : ∀ c < T.length, ∀ i ∈ seen c, Representable (w c i) ∧ ∀ q ∈ pts c i, 0 < ((seenOnWrist (T.getD c 1) Y (w c i)).apply q).z)
    (x a b o : Nat) (hx : x < T.length) (hthree : ∀ i ∈ [a, b, o], i ∈ seen x ∧
      SeenWell (intr.getD x ⟨0, 0, 0, 0⟩) (seenOnWrist (T.getD x 1) Y (w x i)) (pts x i))
    (hax : AxesDiffer (wristMotion (w x a) (w x o)).R (wristMotion (w x b) (w x o)).R)
    (hone : ∀ c < T.length, ∃ i ∈ seen c, SeenWell (intr.getD c ⟨0, 0, 0, 0⟩) (seenOnWrist (T.getD c 1) Y (w c i)) (pts c i))
    (e : ℝ) (he : 0 < e) :
    ∃ r : ℝ, 0 < r ∧ ∀ (Img : Type) (W : ToolWorld Img) (junk : Nat → Nat → Nat) (s : Ceres Pose6) (rep : MultiStaticReport Img) (k : Nat)
      (cams : List (CameraParams Img)) (F : Finder Img) (A : List Iso) (B : Iso) (f : ℝ), ProperParams W.param → KeepsPlain s →
      multiStaticMain W junk s = .ok (some rep) →
      (∀ (c : Nat) d, DataParam W (W.param ("camera_" ++ toString c ++ "/data_path")) d → d.images.length = k) →
      CamerasSetup W "base_to_camera_guess" cams k F → cams.map (fun q => q.intr) = intr → cams.length = T.length →
      (∀ q ∈ cams, Representable q.pose) → (∀ Y, PoseParam (W.param "wrist_to_target_guess") Y → Representable Y) →
      (∀ (c : Nat) q, cams[c]? = some q → (∀ n, n ∈ seen c ↔ n < k ∧ ∃ v, SeenItem F q.data n v) ∧
        ∀ n v, SeenItem F q.data n v → v.1 = w c n ∧ targetPoints v.2 = pts c n ∧
          PixelNoise r v.2 (fun k => k.inImage) fun k => pinhole q.intr ((seenOnWrist (T.getD c 1) Y (w c n)).apply k.inTarget)) →
      (∀ t ∈ A, RigidMotion t) → RigidMotion B → ReportsCameras rep.cameras A → rep.wristToTarget = printTransform B →
      InFront F cams A B → rep.opt.final = some f → f ≤ r →
      Spec.Close e B Y ∧ ∀ c < T.length, Spec.Close e (A.getD c 1) (T.getD c 1) := by
  obtain ⟨wr, hwr⟩ : ∃ wr : List (List Iso), wr = (List.range T.length).map fun c => (seen c).map (w c) := ⟨_, rfl⟩
  have wget : ∀ c < T.length, wr.getD c [] = (seen c).map (w c) := by
    intro c hc
    rw [hwr]
    exact getD_of_some (by rw [List.getElem?_map, List.getElem?_range hc]; rfl)
  have wat : ∀ c < T.length, ∀ m, (hm : m < (seen c).length) → (wr.getD c []).getD m 1 = w c (seen c)[m] := by
    intro c hc m hm
    rw [wget c hc]
    exact getD_of_some (by rw [List.getElem?_map, List.getElem?_eq_getElem hm]; rfl)
  obtain ⟨ps, hps⟩ : ∃ ps : Nat → Nat → List V3, ps = fun c m => if h : c < T.length ∧ m < (seen c).length then pts c ((seen c)[m]'h.2) else [] :=
    ⟨_, rfl⟩
  have pat : ∀ c < T.length, ∀ m, (hm : m < (seen c).length) → ps c m = pts c (seen c)[m] := by
    intro c hc m hm
    rw [hps]
    simp only
    rw [dif_pos ⟨hc, hm⟩]
  have hlen : ∀ c < T.length, (wr.getD c []).length = (seen c).length := fun c hc => by rw [wget c hc, List.length_map]
  have hidx : ∀ c, ∀ i ∈ seen c, ∃ m, ∃ hm : m < (seen c).length, (seen c)[m] = i := fun c i hi => List.getElem_of_mem hi
  have good : ∀ c < T.length, ∀ i ∈ seen c, SeenWell (intr.getD c ⟨0, 0, 0, 0⟩) (seenOnWrist (T.getD c 1) Y (w c i)) (pts c i) →
      ∃ m < (wr.getD c []).length, (wr.getD c []).getD m 1 = w c i ∧
        SeenWell (intr.getD c ⟨0, 0, 0, 0⟩) ((T.getD c 1).inv * ((wr.getD c []).getD m 1 * Y)) (ps c m) := by
    intro c hc i hi hs
    obtain ⟨m, hm, rfl⟩ := hidx c i hi
    refine ⟨m, by rw [hlen c hc]; exact hm, wat c hc m hm, ?_⟩
    rw [wat c hc m hm, pat c hc m hm]
    exact hs
  obtain ⟨na, a1, a2, a3⟩ := good x hx a (hthree a (by simp)).1 (hthree a (by simp)).2
  obtain ⟨nb, b1, b2, b3⟩ := good x hx b (hthree b (by simp)).1 (hthree b (by simp)).2
  obtain ⟨no, o1, o2, o3⟩ := good x hx o (hthree o (by simp)).1 (hthree o (by simp)).2
  obtain ⟨r, hr, hst⟩ := C211_multi intr wr ps T Y
    (by
      intro wp hwp u hu
      rw [hwr] at hwp
      obtain ⟨c, hc, rfl⟩ := List.mem_map.1 hwp
      obtain ⟨i, hi, rfl⟩ := List.mem_map.1 hu
      exact (hw c (List.mem_range.1 hc) i hi).1)
    hT hY
    (by
      intro c hc m hm q hq
      rw [hlen c hc] at hm
      rw [pat c hc m hm] at hq
      rw [wat c hc m hm]
      exact (hw c hc _ (List.getElem_mem hm)).2 q hq)
    x na nb no hx
    (by
      intro m hm
      simp only [List.mem_cons, List.not_mem_nil, or_false] at hm
      rcases hm with rfl | rfl | rfl
      exacts [⟨a1, a3⟩, ⟨b1, b3⟩, ⟨o1, o3⟩])
    (by rw [a2, b2, o2]; exact hax)
    (by
      intro c hc
      obtain ⟨i, hi, hs⟩ := hone c hc
      obtain ⟨m, m1, -, m3⟩ := good c hc i hi hs
      exact ⟨m, m1, m3⟩) e he
  refine ⟨min r 1, lt_min hr one_pos, fun Img W junk s rep k cams F A B f hp hk0 h hk hset hintr hcl hg0 hY0 hdata hA hB hcam htgt hz hfin hle => ?_⟩
  obtain ⟨cams', F', Y', p, res, hset', hpY, hprob, hres, hrl, hopt, h1, h2⟩ := C186_multi_static W hp junk s rep h k hk
  obtain ⟨rfl, rfl⟩ := setup_unique hp hset hset'
  obtain ⟨r1, r2, r3⟩ := multiStatic_ends hres hk0 (by rw [hprob.cameraGuess]; simpa using hg0) (hprob.targetGuess ▸ hY0 _ hpY)
  obtain rfl := C145_distinct _ _ hB r1 (htgt.symm.trans h1)
  obtain rfl := reportsCameras_distinct hcam h2 hA r2
  -- the lists of one camera
  have key : ∀ c < T.length, ∃ q, ∃ items : List (Iso × List Corr2), cams[c]? = some q ∧ intr.getD c ⟨0, 0, 0, 0⟩ = q.intr ∧
      List.Forall₂ (SeenItem F q.data) (seen c) items ∧ p.wristPoses[c]? = some (items.map Prod.fst) ∧
      p.observations[c]? = some (items.map Prod.snd) := by
    intro c hc
    have hq : cams[c]? = some (cams[c]'(by omega)) := List.getElem?_eq_getElem (by omega)
    obtain ⟨js, items, g1, g2, g3⟩ := hprob.images c _ hq
    obtain rfl : js = seen c := ascending_eq g1.1 (hseen c) fun n => (g1.2.1 n).trans ((hdata c _ hq).1 n).symm
    refine ⟨_, items, hq, ?_, g1.2.2, g2, g3⟩
    rw [← hintr]
    exact getD_of_some (by rw [List.getElem?_map, hq]; rfl)
  have hwrp : p.wristPoses = wr := by
    refine List.ext_getElem? fun c => ?_
    by_cases hc : c < T.length
    · obtain ⟨q, items, g1, -, g3, g4, -⟩ := key c hc
      rw [g4, hwr, List.getElem?_map, List.getElem?_range hc]
      refine congrArg some ?_
      refine List.ext_getElem (by simp [g3.length_eq]) fun m m1 m2 => ?_
      simp only [List.length_map] at m1 m2
      have := (hdata c q g1).2 _ _ (g3.get m2 m1)
      simpa using this.1
    · rw [List.getElem?_eq_none (by rw [hprob.length.1]; omega), List.getElem?_eq_none (by rw [hwr]; simp; omega)]
  have hshow : Shows p.observations ps := by
    intro c m
    by_cases hc : c < T.length
    · obtain ⟨q, items, g1, -, g3, -, g5⟩ := key c hc
      rw [getD_of_some g5]
      by_cases hm : m < (seen c).length
      · have hm' : m < items.length := g3.length_eq ▸ hm
        rw [pat c hc m hm, getD_of_some (l := items.map Prod.snd) (a := items[m].2) (by rw [List.getElem?_map, List.getElem?_eq_getElem hm']; rfl)]
        have := (hdata c q g1).2 _ _ (g3.get hm hm')
        simpa [targetPoints] using this.2.1
      · have hm' : ¬ m < items.length := g3.length_eq ▸ hm
        rw [hps]
        simp only
        rw [dif_neg (by tauto), List.getD_eq_getElem?_getD, List.getElem?_eq_none (by simpa using hm')]
        rfl
    · rw [hps]
      simp only
      rw [dif_neg (by tauto), List.getD_eq_getElem?_getD (l := p.observations), List.getElem?_eq_none (by rw [hprob.length.2]; omega)]
      rfl
  have feat : ∀ f ∈ byCamera p.observations T.length (fun c => (wr.getD c []).length),
      ∃ q, ∃ m, ∃ hm : m < (seen f.cam).length, ∃ v, cams[f.cam]? = some q ∧ f.cam < T.length ∧ intr.getD f.cam ⟨0, 0, 0, 0⟩ = q.intr ∧
        SeenItem F q.data (seen f.cam)[m] v ∧ (wr.getD f.cam []).getD f.img 1 = w f.cam (seen f.cam)[m] ∧ f.corr ∈ v.2 := by
    intro f hf
    obtain ⟨m1, m2, m3⟩ := mem_byCamera hf
    obtain ⟨q, items, g1, g2, g3, -, g5⟩ := key f.cam m1
    rw [hlen _ m1] at m2
    have hm' : f.img < items.length := g3.length_eq ▸ m2
    refine ⟨q, f.img, m2, items[f.img], g1, m1, g2, g3.get m2 hm', wat _ m1 _ m2, ?_⟩
    rw [getD_of_some g5] at m3
    rwa [getD_of_some (l := items.map Prod.snd) (a := items[f.img].2) (by rw [List.getElem?_map, List.getElem?_eq_getElem hm']; rfl)] at m3
  rw [hopt.final] at hfin
  obtain ⟨C, hC, rfl⟩ := Option.map_eq_some_iff.1 hfin
  refine hst s p res hres (by rw [hprob.intr, hintr]) hwrp (by rw [hprob.cameraGuess, List.length_map, hcl]) hshow r2 r1 _ rfl ?_ ?_
    (.inl ⟨C, hC, cost_of_printed hle⟩)
  · intro f hf
    obtain ⟨q, m, hm, v, g1, g2, g3, g4, g5, g6⟩ := feat f hf
    obtain ⟨-, -, hn⟩ := (hdata _ q g1).2 _ _ g4
    have := hn _ g6
    simp only [truePixel, g3, g5]
    exact ⟨this.1.trans (min_le_left _ _), this.2.trans (min_le_left _ _)⟩
  · intro f hf
    obtain ⟨q, m, hm, v, g1, g2, g3, g4, g5, g6⟩ := feat f hf
    have hl : f.cam < res.baseToCamera.length := by rw [hrl]; omega
    have hP : res.baseToCamera[f.cam]? = some res.baseToCamera[f.cam] := List.getElem?_eq_getElem hl
    rw [getD_of_some hP, g5]
    have := hz f.cam q _ _ _ g1 hP g4 _ g6
    rw [((hdata _ q g1).2 _ _ g4).1] at this
    exact this

/-- `C206_tool`: a run of the tool on a perfect image, whatever accuracy is asked for. -/
example (e : ℝ) (he : 0 < e) : ∃ (W : ToolWorld Nat) (cv : CvSolvePnP) (T0 T : Iso) (r : PnPResult) (cs : List Corr2), ProperParams W.param ∧
    solvePnpTool W (fun _ => 7) cv (idCeres V3) = .ok (some (T0, r)) ∧ PnpScene W (fun _ => 7) ⟨1, 1, 0, 0⟩ cs ∧ RigidMotion T ∧
    SeesQuadrangle cs ∧ r.finalCost.map Real.sqrt = some 0 ∧ Spec.Close e r.cameraToTarget T := by
  obtain ⟨G, hG⟩ : ∃ G : Iso, G = ⟨⟨1, 0, 0, 0, -1, 0, 0, 0, -1⟩, ⟨0, 0, 1 / 10⟩⟩ := ⟨_, rfl⟩
  have hGr : RigidMotion G := by
    rw [← rigid_iff, hG]
    apply M3.IsRot.of_cols <;> simp [M3.det]
  have hfront : ClearlyInFront G (squareImage ⟨1, 1, 0, 0⟩ G) := by
    intro k hk
    obtain ⟨q, hq, rfl⟩ := List.mem_map.1 hk
    simp only [squarePoints, List.mem_cons, List.not_mem_nil, or_false] at hq
    rw [hG]
    rcases hq with rfl | rfl | rfl | rfl <;> norm_num [Iso.apply, M3.mulVec]
  obtain ⟨view, hview⟩ : ∃ view, view = fun _ : Nat => squareImage ⟨1, 1, 0, 0⟩ G := ⟨_, rfl⟩
  have hv7 : view 7 = squareImage ⟨1, 1, 0, 0⟩ G := by rw [hview]
  obtain ⟨W, hW⟩ : ∃ W, W = exampleWorld ⟨fun _ => false, id⟩ ⟨fun _ => True, fun _ => none⟩ "a" 0 view := ⟨_, rfl⟩
  have hp : ProperParams W.param := by rw [hW]; exact exampleWorld_proper _ _ _ _ _
  obtain ⟨r, hr, hc, h0, hT⟩ := pnp2_id_exact ⟨1, 1, 0, 0⟩ G hGr (view 7) (by rw [hv7]; simp [squareImage, squarePoints])
    (by rw [hv7]; exact squareImage_pixels) (by rw [hv7]; exact hfront)
  have hi : IntrinsicsParam (W.param "intrinsics") ⟨1, 1, 0, 0⟩ := by rw [hW]; exact exampleWorld_intrinsics
  have hF : FinderParam W (exampleFinder view) := by rw [hW]; exact exampleWorld_finder _ _ _ _ _
  have ha : W.param "image_path" = some (.string "a") := by rw [hW]; rfl
  obtain ⟨cv, hcv⟩ : ∃ cv : CvSolvePnP, cv = fun _ _ _ => (⟨1, 0, 0⟩, ⟨0, 0, 5⟩) := ⟨_, rfl⟩
  obtain ⟨T0, hrun⟩ : ∃ T0, solvePnpTool W (fun _ => 7) cv (idCeres V3) = .ok (some (T0, r)) := ⟨_, (C190_pnp W hp _ _ _ _ r).2
    ⟨"a", ⟨1, 1, 0, 0⟩, exampleFinder view, [(7, [])], view 7, ha, hi, hF, rfl, by simp, rfl, rfl, rfl, by rw [← hG]; exact hr⟩⟩
  have hscene : PnpScene W (fun _ => 7) ⟨1, 1, 0, 0⟩ (view 7) := ⟨"a", _, [(7, [])], ha, hi, hF, rfl, rfl⟩
  have hsq : SeesQuadrangle (view 7) := by rw [hv7]; exact squareImage_sees _ _
  have hcost : r.finalCost.map Real.sqrt = some 0 := by rw [h0]; simp
  obtain ⟨ρ, hρ, key⟩ := C206_tool ⟨1, 1, 0, 0⟩ (by norm_num) (by norm_num) G hGr (targetPoints (view 7))
    (by
      obtain ⟨a, ha, b, hb, c, hc, d, hd, hq⟩ := hsq
      exact ⟨_, List.mem_map.2 ⟨a, ha, rfl⟩, _, List.mem_map.2 ⟨b, hb, rfl⟩, _, List.mem_map.2 ⟨c, hc, rfl⟩, _, List.mem_map.2 ⟨d, hd, rfl⟩, hq⟩)
    (by
      intro k hk
      obtain ⟨q, hq, rfl⟩ := List.mem_map.1 hk
      rw [hv7] at hq
      exact lt_trans (by norm_num) (hfront q hq))
    (by rw [hG]; norm_num [Iso.inv, M3.tr, M3.mulVec]) e he
  refine ⟨W, cv, _, G, r, view 7, hp, hrun, hscene, hGr, hsq, hcost, key Nat W (fun _ => 7) cv (idCeres V3) _ r (view 7) 0 hp hrun hscene rfl ?_ ?_ hcost hρ.le⟩
  · intro k hk
    have h2 : k.inImage = pinhole ⟨1, 1, 0, 0⟩ (G.apply k.inTarget) := squareImage_pixels k (hv7 ▸ hk)
    simp [← h2, hρ.le]
  · rw [hT, hv7]; exact hfront

theorem dual_points {c : Nat} {w : Iso} : targetPoints (stImage c w) = squarePoints := by
  simp [targetPoints, stImage, squareImage, Function.comp_def]

theorem dual_seen_item {c : Nat} {q : CameraParams Nat} (hq : dualCams[c]? = some q) {n : Nat} {v : Iso × List Corr2}
    (h : SeenItem (exampleFinder dualView) q.data n v) : dualWrists[n]? = some v.1 ∧ v.2 = stImage c v.1 := by
  obtain ⟨m, h1, h2, h3⟩ := h
  obtain ⟨-, -, -, h6, -, h8⟩ := dual_camera hq
  obtain ⟨h9, rfl⟩ := h8 n m h1
  rw [h6] at h3
  exact ⟨h3, by rw [(dual_seen _ _).1 h2, dual_view h9 h3]⟩

/-- `C211_tool`: two cameras that see the target in three images each, whatever accuracy is asked for. -/
example (e : ℝ) (he : 0 < e) : ∃ rep A B, multiStaticMain dualWorld (fun _ _ => 7) (idCeres Pose6) = .ok (some rep) ∧
    ReportsCameras rep.cameras A ∧ rep.wristToTarget = printTransform B ∧ rep.opt.final = some 0 ∧
    Spec.Close e B (shiftBy 10 10 10) ∧ ∀ c < 2, Spec.Close e (A.getD c 1) ([stCam 0, stCam 1].getD c 1) := by
  have hTget : ∀ c : Nat, c < 2 → [stCam 0, stCam 1].getD c 1 = stCam c := fun c hc => stCams_get hc
  have hIget : ∀ c : Nat, c < 2 → ([⟨1, 1, 0, 0⟩, ⟨1, 1, 0, 0⟩] : List Intr).getD c ⟨0, 0, 0, 0⟩ = ⟨1, 1, 0, 0⟩ := fun c hc => stIntr_get hc
  have hwr : ∀ n ∈ [0, 1, 2], dualWrists[n]? = some (dualWrists.getD n 1) := by
    intro n hn
    have : n < 3 := by simp only [List.mem_cons, List.not_mem_nil, or_false] at hn; omega
    rw [List.getElem?_eq_getElem this, List.getD_eq_getElem?_getD, List.getElem?_eq_getElem this]; rfl
  have hwell : ∀ c : Nat, c < 2 → ∀ n ∈ [0, 1, 2], SeenWell (([⟨1, 1, 0, 0⟩, ⟨1, 1, 0, 0⟩] : List Intr).getD c ⟨0, 0, 0, 0⟩)
      (seenOnWrist ([stCam 0, stCam 1].getD c 1) (shiftBy 10 10 10) (dualWrists.getD n 1)) squarePoints := by
    intro c hc n hn
    have h := GoodView.seenWell (dual_good (c := c) (List.mem_of_getElem? (hwr n hn)))
    rw [hTget c hc, hIget c hc, ← dual_points (c := c) (w := dualWrists.getD n 1)]
    exact h
  have hdep : ∀ c : Nat, c < 2 → ∀ n ∈ [0, 1, 2], ∀ q ∈ squarePoints,
      0 < ((seenOnWrist ([stCam 0, stCam 1].getD c 1) (shiftBy 10 10 10) (dualWrists.getD n 1)).apply q).z := by
    intro c hc n hn q hq
    rw [hTget c hc]
    exact (stView (Nat.cast_nonneg c) (List.mem_of_getElem? (hwr n hn))).2.2 q hq
  obtain ⟨ρ, hρ, key⟩ := C211_tool [⟨1, 1, 0, 0⟩, ⟨1, 1, 0, 0⟩] [stCam 0, stCam 1] (shiftBy 10 10 10) (fun t ht => (stCams_rep t ht).1)
    (shiftBy_rep _ _ _).1 (fun _ => [0, 1, 2]) (by simp) (fun _ n => dualWrists.getD n 1) (fun _ _ => squarePoints)
    (fun c hc n hn => ⟨stWrist_rep (List.mem_of_getElem? (hwr n hn)), hdep c hc n hn⟩) 0 1 2 0 (by simp)
    (fun i hi => ⟨(by simp only [List.mem_cons, List.not_mem_nil, or_false] at hi ⊢; omega),
      hwell 0 (by norm_num) i (by simp only [List.mem_cons, List.not_mem_nil, or_false] at hi ⊢; omega)⟩) dual_axes
    (fun c hc => ⟨0, by simp, hwell c hc 0 (by simp)⟩) e he
  obtain ⟨rep, hrep, h1, h2, h3⟩ := dual_static_run
  have hfront : InFront (exampleFinder dualView) dualCams [stCam 0, stCam 1] (shiftBy 10 10 10) := fun c q P i e g1 g2 g3 k hk' =>
    (dual_true_sets c q P i e g1 g2 g3 k hk').1
  obtain ⟨k1, k2⟩ := key Nat dualWorld (fun _ _ => 7) (idCeres Pose6) rep 3 dualCams (exampleFinder dualView) _ _ 0 dualWorld_proper keepsPlain_idCeres
    hrep dualWorld_images dualWorld_setup rfl rfl (fun q hq => dual_pose hq)
    (fun Y h => by rw [poseParam_unique dualWorld_proper h dualWorld_target]; exact shiftBy_rep _ _ _)
    (by
      intro c q hq
      have hc := (dual_camera hq).1
      refine ⟨fun n => ⟨fun hn => ⟨(by simp only [List.mem_cons, List.not_mem_nil, or_false] at hn; omega), ?_⟩, fun h => ?_⟩, fun n v hv => ?_⟩
      · obtain ⟨cs, hcs, -⟩ := dual_usable hq (hwr n hn)
        exact ⟨_, hcs⟩
      · have := h.1
        simp only [List.mem_cons, List.not_mem_nil, or_false]; omega
      · obtain ⟨g1, g2⟩ := dual_seen_item hq hv
        have gw : dualWrists.getD n 1 = v.1 := getD_of_some g1
        rw [gw, g2]
        refine ⟨rfl, dual_points, fun k hk => ?_⟩
        have hpix := (dual_true (c := c) (List.mem_of_getElem? g1) k hk).2
        rw [(dual_camera hq).2.1, hTget c hc]
        simp only [hpix, sub_self, abs_zero]
        exact ⟨hρ.le, hρ.le⟩)
    (fun t ht => (stCams_rep t ht).1) (shiftBy_rep _ _ _).1 h1 h2 hfront h3 hρ.le
  exact ⟨rep, _, _, hrep, h1, h2, h3, k1, k2⟩

end RCT
