import Verif.Props.SingleMains
import Verif.Props.MultiEndToEnd

/-!
# C192, C193 What the printed results of intrinsic calibration, PnP and validation say about the true camera
-/

namespace RCT

open Spec

variable {Img : Type}

/-! ## C192 Printed cameras and poses -/

/-- A camera without lens distortion takes a data set. In each of its images in which the target is found, the features are where the
camera sees them; some images show a quadrangle, and their planes do not have too few directions. If the intrinsic calibration tool
prints an error of zero and no distortion, the camera it prints is the true one up to the signs of the focal lengths, provided that
the poses fitted to the images are rigid motions that put no feature at depth zero. -/
theorem C192_intrinsic (W : ToolWorld Img) (hp : ProperParams W.param) (cv : CvCalibrate Img) (s3 : Ceres V3) (s : Ceres Mem)
    (rep : IntrinsicReport) (h : intrinsicMain W cv s3 s = .ok (some rep)) (cam : Intr) (hx : cam.fx ≠ 0) (hy : cam.fy ≠ 0)
    (d : DataSet Img) (hd : DataParam W (W.param "data_path") d) (F : Finder Img) (hF : FinderParam W F)
    (T : Nat → Iso) (himg : ∀ i cs, IntrinsicItem (plainEnv F) d.images i cs → RigidMotion (T i) ∧
      ∀ k ∈ cs, ((T i).apply k.inTarget).z ≠ 0 ∧ k.inImage = pinhole cam ((T i).apply k.inTarget))
    (good : List Nat) (hgood : ∀ i ∈ good, ∃ cs, IntrinsicItem (plainEnv F) d.images i cs ∧ SeesQuadrangle cs ∧ (T i).inv.t.z ≠ 0)
    (hfew : ¬ FewDirections (good.map fun i => Spec.planeNormal (T i)))
    (hdist : rep.distortions = [0, 0, 0, 0, 0]) (hcost : rep.opt.final = some 0) :
    ∃ js obs intr poses, SelectedAt d.images.length (IntrinsicItem (plainEnv F) d.images) js obs ∧
      intrPoses s3 { observations := obs, guess := intr } = .ok poses ∧ ∀ T' : Nat → Iso,
      (∀ i, T' i = poseCalToEigen (s.solve (intrBuild { observations := obs, guess := intr } poses)
        (intrInit { observations := obs, guess := intr } poses) (poseBlk i)).pose) →
      (∀ i, i < obs.length → RigidMotion (T' i)) →
      (∀ i, i < obs.length → ∀ k ∈ obs.getD i [], ((T' i).apply k.inTarget).z ≠ 0) →
      SameCamera rep.intrinsics cam := by
  obtain ⟨d', F', intr, js, obs, r, front, K, dist, hset, hsel, hr, hrep, -⟩ := C190_intrinsic W hp cv s3 s rep h
  obtain rfl : d' = d := by
    obtain ⟨p1, a1, a2⟩ := hset.data
    obtain ⟨p2, b1, b2⟩ := hd
    rw [a1] at b1; cases b1
    rw [a2] at b2; cases b2; rfl
  obtain rfl : F' = F := Res.ok.inj (((loadFinder_ok_iff W F').2 hset.finder).symm.trans ((loadFinder_ok_iff W F).2 hF))
  have hlen := hsel.2.2.length_eq
  have hat : ∀ n, n < obs.length → IntrinsicItem (plainEnv F') d'.images (js.getD n 0) (obs.getD n []) := by
    intro n hn
    have := hsel.2.2.get (by omega : n < js.length) hn
    simpa [List.getD_eq_getElem?_getD, List.getElem?_eq_getElem hn, List.getElem?_eq_getElem (by omega : n < js.length)] using this
  have hpos : ∀ i ∈ good, i ∈ js := by
    intro i hi
    obtain ⟨cs, hcs, -⟩ := hgood i hi
    obtain ⟨m, fs, him, -⟩ := id hcs
    exact (hsel.2.1 i).2 ⟨(List.getElem?_eq_some_iff.1 him).1, cs, hcs⟩
  have hidx : ∀ i ∈ good, js.idxOf i < obs.length ∧ js.getD (js.idxOf i) 0 = i := by
    intro i hi
    have hlt := List.idxOf_lt_length_iff.2 (hpos i hi)
    refine ⟨by omega, ?_⟩
    rw [List.getD_eq_getElem?_getD, List.getElem?_eq_getElem hlt]
    simp
  obtain ⟨poses, hposes, hfin⟩ := C181_unique s3 s _ r hr cam hx hy (fun n => T (js.getD n 0)) (fun n hn => (himg _ _ (hat n hn)).1)
    (fun n hn k hk => (himg _ _ (hat n hn)).2 k hk) (good.map fun i => js.idxOf i) (by
      intro n hn
      obtain ⟨i, hi, rfl⟩ := List.mem_map.1 hn
      obtain ⟨h1, h2⟩ := hidx i hi
      obtain ⟨cs, hcs, hq, hz⟩ := hgood i hi
      refine ⟨h1, ?_, by rw [h2]; exact hz⟩
      have := hat _ h1
      rw [h2] at this
      obtain ⟨m, fs, a1, a2, a3, a4⟩ := hcs
      obtain ⟨m', fs', b1, b2, b3, b4⟩ := this
      rw [a1] at b1; cases b1
      rw [a2] at b2; cases b2
      rw [a4] at b4
      rw [← Res.ok.inj b4]
      exact hq) (by
      rw [List.map_map]
      convert hfew using 2
      refine List.map_congr_left fun i hi => ?_
      simp only [Function.comp, (hidx i hi).2]) (by rw [← hrep.distortions]; exact hdist) (by
      rw [hrep.final] at hcost
      obtain ⟨poses, -, -, h2, -⟩ := intrinsic_ok hr
      rw [h2] at hcost ⊢
      exact (sqrt_cost_zero _ _).1 hcost)
  exact ⟨js, obs, intr, poses, hsel, hposes, fun T' h1 h2 h3 => by rw [hrep.intrinsics]; exact hfin T' h1 h2 h3⟩

/-- The image is a perfect image of a target at `T` in front of the camera, of which four features are no three on one line; the camera
is not in the plane of the target. The pose of the optimisation, if it has the features in front of the camera, is printed with error
zero exactly if it is `T`; and the pose of OpenCV explains all features, in front of the camera, exactly if it is `T`. -/
theorem C192_pnp (W : ToolWorld Img) (hp : ProperParams W.param) (read : String → Img) (cv : CvSolvePnP) (s3 : Ceres V3) (T0 : Iso)
    (r : PnPResult) (h : solvePnpTool W read cv s3 = .ok (some (T0, r))) (intr : Intr) (cs : List Corr2)
    (hscene : PnpScene W read intr cs) (hx : intr.fx ≠ 0) (hy : intr.fy ≠ 0) (T : Iso) (hT : RigidMotion T)
    (hpix : ∀ k ∈ cs, k.inImage = pinhole intr (T.apply k.inTarget)) (hz : ClearlyInFront T cs) (hcam : T.inv.t.z ≠ 0)
    (hsees : SeesQuadrangle cs) :
    (ClearlyInFront r.cameraToTarget cs → (r.finalCost.map Real.sqrt = some 0 ↔ r.cameraToTarget = T)) ∧
    (TrueDetection intr T0 cs ↔ T0 = T) := by
  obtain ⟨path, intr', F, fs, cs', h1, h2, h3, h4, h5, h6, h7, h8, h9⟩ := (C190_pnp W hp read cv s3 T0 r).1 h
  obtain ⟨path', F', fs', g1, g2, g3, g4, g5⟩ := hscene
  rw [h1] at g1; cases g1
  obtain rfl : intr' = intr := Res.ok.inj (((intrParam_ok_iff hp _ _).2 h2).symm.trans ((intrParam_ok_iff hp _ _).2 g2))
  obtain rfl : F' = F := Res.ok.inj (((loadFinder_ok_iff W F').2 g3).symm.trans ((loadFinder_ok_iff W F).2 h3))
  rw [h4] at g4; cases g4
  rw [h7] at g5
  obtain rfl : cs' = cs := Res.ok.inj g5
  obtain ⟨a, ha, b, hb, c, hc, e, he, hq⟩ := hsees
  have hpos : ∀ x : ℝ, x > 1 / 10 ^ 10 → 0 < x := fun x hx => lt_trans (by norm_num) hx
  constructor
  · intro hfront
    have hs : r.finalCost.map Real.sqrt = some 0 ↔ r.finalCost = some 0 := by
      unfold pnp2 pnpFinish at h9
      simp only [Res.bind_ok_iff] at h9
      obtain ⟨cov, -, h9⟩ := h9
      cases h9
      exact sqrt_cost_zero _ _
    rw [hs]
    exact C150_partial s3 _ r h9 T hT hx hy hpix hz hfront hcam a b c e ha hb hc he hq
  · constructor
    · intro ht
      have hT0 : RigidMotion T0 := by
        rw [h8]
        exact (C163_pose cv intr' cs' _ _ rfl).1
      have key : ∀ k ∈ cs', T0.apply k.inTarget = V3.smul ((T0.apply k.inTarget).z / (T.apply k.inTarget).z) (T.apply k.inTarget) :=
        fun k hk => pinhole_same hx hy (ht k hk).1.ne' (hpos _ (hz k hk)).ne' ((ht k hk).2.symm.trans (hpix k hk))
      exact planar_unique ((rigid_iff _).2 hT0) ((rigid_iff _).2 hT) hq hcam (div_pos (ht a ha).1 (hpos _ (hz a ha)))
        (key a ha) (key b hb) (key c hc) (key e he)
    · rintro rfl k hk
      exact ⟨hpos _ (hz k hk), hpix k hk⟩

/-! ## C193 The verdict of the validation

Full statement: on perfect images the validation calls the intrinsic parameters valid exactly if they are those of the camera.
Proved: the parameters of the camera are called valid if the solver ends at the minimum (`C193_partial`). Wrong parameters may be
called valid, too (`C193_negation`). -/

theorem meanStdev_of_zero {l : List ℝ} (hne : l ≠ []) (h0 : ∀ x ∈ l, x = 0) {m sd : ℝ} (h : MeanStdev l m sd) : m = 0 ∧ sd = 0 := by
  obtain ⟨h1, h2, h3⟩ := h
  have hlen : (l.length : ℝ) ≠ 0 := by
    have := List.length_pos_of_ne_nil hne
    positivity
  have hs : l.sum = 0 := List.sum_eq_zero h0
  have hm : m = 0 := by
    rw [hs] at h1
    exact (mul_eq_zero.1 h1).resolve_right hlen
  subst hm
  have : (l.map fun x => (x - 0) ^ 2).sum = 0 := by
    apply List.sum_eq_zero
    intro y hy
    obtain ⟨x, hx, rfl⟩ := List.mem_map.1 hy
    rw [h0 x hx]; norm_num
  rw [this] at h3
  exact ⟨rfl, pow_eq_zero_iff two_ne_zero |>.1 ((mul_eq_zero.1 h3).resolve_right hlen)⟩

/-- All images in which the target is found are perfect images of it, taken with the intrinsic parameters that are validated. If every
fit the solver returns has error zero and all features in front of the camera, the verdict is "valid". Missing: that wrong
parameters are not called valid. -/
theorem C193_partial (W : ToolWorld Img) (hp : ProperParams W.param) (s3 : Ceres V3) (v : Bool)
    (h : validationMain W s3 = .ok (some v)) (d : DataSet Img) (F : Finder Img) (intr : Intr) (X Y : Iso)
    (hset : ValidationSetup W d F intr X Y) (hrig : ∀ T ∈ d.poses, RigidMotion T) (hlen : d.images.length < 2 ^ 64)
    (husable : ∃ i o, ValidationItem (plainEnv F) d i o) (hx : intr.fx ≠ 0) (hy : intr.fy ≠ 0)
    (T : Nat → Iso) (himg : ∀ i o, ValidationItem (plainEnv F) d i o → PerfectHalves intr (T i) o.corrs)
    (hsolve : ∀ i o cs, ValidationItem (plainEnv F) d i o → IsHalf cs o.corrs → ∀ G r,
      (o.toCameraMount * X) * G = Y → pnp2 s3 { intr := intr, correspondences := cs, guess := G } = .ok r →
      r.finalCost = some 0 ∧ ClearlyInFront r.cameraToTarget cs) :
    v = true := by
  obtain ⟨d', F', intr', X', Y', hset', hrun⟩ := C190_validation W hp s3 v h
  obtain rfl : d' = d := by
    obtain ⟨p1, a1, a2⟩ := hset'.data
    obtain ⟨p2, b1, b2⟩ := hset.data
    rw [a1] at b1; cases b1
    rw [a2] at b2; cases b2; rfl
  obtain rfl : F' = F := Res.ok.inj (((loadFinder_ok_iff W F').2 hset'.finder).symm.trans ((loadFinder_ok_iff W F).2 hset.finder))
  obtain rfl : intr' = intr :=
    Res.ok.inj (((intrParam_ok_iff hp _ _).2 hset'.intrinsics).symm.trans ((intrParam_ok_iff hp _ _).2 hset.intrinsics))
  obtain rfl : X' = X := poseParam_unique hp hset'.camera hset.camera
  obtain rfl : Y' = Y := poseParam_unique hp hset'.target hset.target
  obtain ⟨js, obs, evals, hsel, hev, pm, ps, am, as, hP, hA, hv⟩ := hrun hrig hlen husable
  have hne : evals ≠ [] := by
    rintro rfl
    cases hev
    obtain ⟨i, o, hi⟩ := husable
    obtain ⟨m, fs, him, -⟩ := id hi
    have := (hsel.2.1 i).2 ⟨(List.getElem?_eq_some_iff.1 him).1, o, hi⟩
    cases hsel.2.2
    cases this
  have hzero : ∀ e ∈ evals, e.positionalError = 0 ∧ e.angularError = 0 := by
    intro e he
    obtain ⟨o, ho, G, hG, hdiff⟩ := Forall₂.mem_right hev he
    obtain ⟨i, -, hi⟩ := Forall₂.mem_right hsel.2.2 ho
    have hper := himg i o hi
    obtain ⟨a, b, T1, T2, hab, ha, hf1, hf2, hagree⟩ := C57_agree s3 o.corrs intr' G 1 e hdiff
    rw [hagree]
    have hfit : ∀ cs T', (cs = a ∨ cs = b) → AcceptedFit s3 intr' G 1 cs T' → T' = T i := by
      rintro cs T' hcs ⟨r, hr, -, -, rfl⟩
      have hhalf : IsHalf cs o.corrs := ⟨a, b, hab, ha, hcs⟩
      have hsub : ∀ k ∈ cs, k ∈ o.corrs := by
        intro k hk
        rw [← hab, List.mem_append]
        rcases hcs with rfl | rfl
        · exact .inl hk
        · exact .inr hk
      obtain ⟨h0, hfr⟩ := hsolve i o cs hi hhalf G r hG hr
      obtain ⟨k1, m1, k2, m2, k3, m3, k4, m4, hq⟩ := hper.halves cs hhalf
      exact (C150_partial s3 _ r hr (T i) hper.rigid hx hy (fun k hk => hper.pixels k (hsub k hk))
        (fun k hk => hper.front k (hsub k hk)) hfr hper.plane k1 k2 k3 k4 m1 m2 m3 m4 hq).1 h0
    rw [hfit a T1 (.inl rfl) hf1, hfit b T2 (.inr rfl) hf2]
  obtain ⟨rfl, rfl⟩ := meanStdev_of_zero (by simpa using hne) (fun x hx => by
    obtain ⟨e, he, rfl⟩ := List.mem_map.1 hx; exact (hzero e he).1) hP
  obtain ⟨rfl, rfl⟩ := meanStdev_of_zero (by simpa using hne) (fun x hx => by
    obtain ⟨e, he, rfl⟩ := List.mem_map.1 hx; exact (hzero e he).2) hA
  rw [hv]
  refine ⟨by norm_num, ?_⟩
  have := Real.pi_pos
  have : 0 ≤ 0.05 * Real.pi / 180 := by positivity
  linarith

/-! ### Examples -/

/-- A solver that keeps its guess fits a perfect image with error zero if the guess is the true pose. -/
theorem pnp2_id_exact (intr : Intr) (T : Iso) (hT : RigidMotion T) (cs : List Corr2) (hne : cs ≠ [])
    (hpix : ∀ k ∈ cs, k.inImage = pinhole intr (T.apply k.inTarget)) (hz : ClearlyInFront T cs) :
    ∃ r, pnp2 (idCeres V3) { intr := intr, correspondences := cs, guess := T } = .ok r ∧ r.converged = true ∧
      r.finalCost = some 0 ∧ r.cameraToTarget = T := by
  obtain ⟨p, hp⟩ : ∃ p : PnPProblem Corr2, p = { intr := intr, correspondences := cs, guess := T } := ⟨_, rfl⟩
  obtain ⟨r, hr⟩ := pnp2_id_returns p (by rw [hp]; exact hne)
  have hT' := C34_pnp (idCeres V3) p r (fun _ _ => rfl) (by rw [hp]; exact hT) hr
  rw [hp] at hT' hr
  have hT' : r.cameraToTarget = T := hT'
  refine ⟨r, hr, ?_, ?_, hT'⟩
  · have h := hr
    unfold pnp2 pnpFinish at h
    simp only [Res.bind_ok_iff] at h
    obtain ⟨cov, -, h⟩ := h
    cases h
    rfl
  · rw [C124_final _ _ r hr (by rw [hT']; exact hz), meanCost_eq_zero_iff, pixelErrors, flatMap_zero, hT']
    refine ⟨?_, fun k hk => diff2_zero.2 (hpix k hk).symm⟩
    obtain ⟨x, l, rfl⟩ := List.exists_cons_of_ne_nil hne
    simp [diff2]

/-- Two squares of perfect features. -/
noncomputable def twoSquares (intr : Intr) (T : Iso) : List Corr2 := squareImage intr T ++ squareImage intr T

theorem twoSquares_half {intr : Intr} {T : Iso} {cs : List Corr2} (h : IsHalf cs (twoSquares intr T)) : cs = squareImage intr T := by
  obtain ⟨a, b, hab, ha, hcs⟩ := h
  have h4 : (squareImage intr T).length = 4 := by simp [squareImage, squarePoints]
  have ha : a.length = (squareImage intr T).length := by
    rw [ha, h4]; simp [twoSquares, h4]
  obtain ⟨rfl, rfl⟩ := List.append_inj hab ha
  rcases hcs with rfl | rfl <;> rfl

theorem mem_twoSquares {intr : Intr} {T : Iso} {k : Corr2} : k ∈ twoSquares intr T ↔ k ∈ squareImage intr T := by
  simp [twoSquares]

theorem squareImage_pixels {intr : Intr} {T : Iso} : ∀ k ∈ squareImage intr T, k.inImage = pinhole intr (T.apply k.inTarget) := by
  intro k hk
  obtain ⟨q, -, rfl⟩ := List.mem_map.1 hk
  rfl

theorem squareImage_front {intr : Intr} {x y z : ℝ} (hz : z > 1 / 10 ^ 10) : ClearlyInFront (shiftBy x y z) (squareImage intr (shiftBy x y z)) := by
  intro k hk
  obtain ⟨q, hq, rfl⟩ := List.mem_map.1 hk
  simp only [squarePoints, List.mem_cons, List.not_mem_nil, or_false] at hq
  rw [shiftBy_apply]
  rcases hq with rfl | rfl | rfl | rfl <;> simpa using hz

theorem perfectHalves_twoSquares (intr : Intr) {x y z : ℝ} (hz : z > 1 / 10 ^ 10) :
    PerfectHalves intr (shiftBy x y z) (twoSquares intr (shiftBy x y z)) where
  rigid := (shiftBy_rep _ _ _).1
  pixels k hk := squareImage_pixels k (mem_twoSquares.1 hk)
  front k hk := squareImage_front hz k (mem_twoSquares.1 hk)
  plane := by
    have : 0 < z := lt_trans (by norm_num) hz
    simp [shiftBy, Iso.inv, M3.mulVec, this.ne']
  halves h hh := by rw [twoSquares_half hh]; exact squareImage_sees _ _

/-- The validation of images of two squares where they are expected: they are called valid. -/
theorem twoSquares_valid {C : Codec Nat} {fs : FS Nat} {path : String} {threshold : ℝ} {view : Nat → List Corr2}
    (hd : parseFromFile C fs path = .ok (some ⟨[0, 1, 2], [1, 1, 1]⟩))
    (hview : ∀ n, view n = twoSquares ⟨1, 1, 0, 0⟩ (shiftBy 10 10 10)) :
    ValidationSetup (exampleWorld C fs path threshold view) ⟨[0, 1, 2], [1, 1, 1]⟩ (exampleFinder view) ⟨1, 1, 0, 0⟩ 1 (shiftBy 10 10 10) ∧
    (∀ i o, ValidationItem (plainEnv (exampleFinder view)) ⟨[0, 1, 2], [1, 1, 1]⟩ i o →
      o = ⟨twoSquares ⟨1, 1, 0, 0⟩ (shiftBy 10 10 10), 1, 1⟩) ∧
    ValidationItem (plainEnv (exampleFinder view)) ⟨[0, 1, 2], [1, 1, 1]⟩ 0 ⟨twoSquares ⟨1, 1, 0, 0⟩ (shiftBy 10 10 10), 1, 1⟩ ∧
    validationMain (exampleWorld C fs path threshold view) (idCeres V3) = .ok (some true) := by
  have hset' := exampleWorld_setup C fs path threshold view (.inl ⟨rfl, rfl⟩) hd
  have hset : ValidationSetup (exampleWorld C fs path threshold view) ⟨[0, 1, 2], [1, 1, 1]⟩ (exampleFinder view) ⟨1, 1, 0, 0⟩ 1
      (shiftBy 10 10 10) := ⟨hset'.data, hset'.finder, hset'.intrinsics, hset'.camera, hset'.target⟩
  have hitem : ∀ i o, ValidationItem (plainEnv (exampleFinder view)) ⟨[0, 1, 2], [1, 1, 1]⟩ i o →
      o = ⟨twoSquares ⟨1, 1, 0, 0⟩ (shiftBy 10 10 10), 1, 1⟩ := by
    rintro i ⟨cs, A, B⟩ ⟨m, fs, h1, h2, -, -, h3, h4, rfl⟩
    cases h2
    have h3 : Res.ok (view m) = Res.ok cs := h3
    cases h3
    have h4 : ([1, 1, 1] : List Iso)[i]? = some A := h4
    have hA : A = 1 := by
      have := List.mem_of_getElem? h4
      simpa using this
    rw [hview, hA]
  have hitem0 : ValidationItem (plainEnv (exampleFinder view)) ⟨[0, 1, 2], [1, 1, 1]⟩ 0
      ⟨twoSquares ⟨1, 1, 0, 0⟩ (shiftBy 10 10 10), 1, 1⟩ :=
    ⟨0, [(0, [])], rfl, rfl, by simp, rfl, by show Res.ok (view 0) = _; rw [hview], rfl, rfl⟩
  have hz : (10 : ℝ) > 1 / 10 ^ 10 := by norm_num
  obtain ⟨r, hr, hc, h0, hT⟩ := pnp2_id_exact ⟨1, 1, 0, 0⟩ (shiftBy 10 10 10) (shiftBy_rep _ _ _).1
    (squareImage ⟨1, 1, 0, 0⟩ (shiftBy 10 10 10)) (by simp [squareImage, squarePoints]) squareImage_pixels (squareImage_front hz)
  have hdiff : ∃ e, virtualTargetDiff (idCeres V3) (twoSquares ⟨1, 1, 0, 0⟩ (shiftBy 10 10 10)) ⟨1, 1, 0, 0⟩ (shiftBy 10 10 10) 1 = .ok e := by
    obtain ⟨a, b, hab, ha, hiff⟩ := C57_halves (idCeres V3) (twoSquares ⟨1, 1, 0, 0⟩ (shiftBy 10 10 10)) ⟨1, 1, 0, 0⟩ (shiftBy 10 10 10) 1
    have hfit : AcceptedFit (idCeres V3) ⟨1, 1, 0, 0⟩ (shiftBy 10 10 10) 1 (squareImage ⟨1, 1, 0, 0⟩ (shiftBy 10 10 10)) (shiftBy 10 10 10) :=
      ⟨r, hr, hc, ⟨0, h0, by norm_num⟩, hT⟩
    obtain rfl := twoSquares_half ⟨a, b, hab, ha, .inl rfl⟩
    obtain rfl := twoSquares_half ⟨_, b, hab, ha, .inr rfl⟩
    exact ⟨⟨_, _, _⟩, (hiff _).2 ⟨_, _, hfit, hfit, rfl, rfl, rfl⟩⟩
  obtain ⟨e, he⟩ := hdiff
  have hcol : validationCollect (plainEnv (exampleFinder view)) ⟨[0, 1, 2], [1, 1, 1]⟩ =
      .ok [⟨view 0, 1, 1⟩, ⟨view 1, 1, 1⟩, ⟨view 2, 1, 1⟩] := rfl
  have hrun : ∃ v, validationMain (exampleWorld C fs path threshold view) (idCeres V3) = .ok (some v) := by
    simp only [validationMain_ok_iff _ (exampleWorld_proper _ _ _ _ _)]
    suffices h : ∃ v, validationTool (plainEnv (exampleFinder view)) (idCeres V3) ⟨1, 1, 0, 0⟩ 1 (shiftBy 10 10 10)
        ⟨[0, 1, 2], [1, 1, 1]⟩ = .ok v by
      obtain ⟨v, hv⟩ := h
      exact ⟨v, _, _, _, _, _, hset, hv⟩
    unfold validationTool
    rw [hcol, Res.ok_bind]
    simp only [hview]
    generalize hq : twoSquares ⟨1, 1, 0, 0⟩ (shiftBy 10 10 10) = q at he ⊢
    have hsz : sizeCheck [⟨q, 1, 1⟩, ⟨q, 1, 1⟩, ⟨q, 1, 1⟩] = .ok () := by
      have : szSub 3 1 = 2 := rfl
      simp [sizeCheck, this, List.range_succ, Res.foldList, Res.idxList]
    unfold intrinsicAccuracy
    rw [hsz, Res.ok_bind]
    simp only [Res.mapList, Iso.one_mul, Iso.mul_one, Iso.inv_one, he, Res.ok_bind]
    exact ⟨_, rfl⟩
  obtain ⟨v, hv⟩ := hrun
  have hone : ∀ T ∈ ([1, 1, 1] : List Iso), RigidMotion T := by
    intro T hT
    have : T = 1 := by simpa using hT
    rw [this]
    exact Representable.one.1
  have := C193_partial _ (exampleWorld_proper _ _ _ _ _) (idCeres V3) v hv _ _ _ _ _ hset hone (by norm_num) ⟨0, _, hitem0⟩ (by norm_num)
    (by norm_num) (fun _ => shiftBy 10 10 10) (fun i o ho => by rw [hitem i o ho]; exact perfectHalves_twoSquares _ hz) (by
      intro i o cs ho hh G r' hG hr'
      rw [hitem i o ho] at hh hG
      rw [Iso.one_mul, Iso.one_mul] at hG
      rw [twoSquares_half hh, hG, hr] at hr'
      cases hr'
      rw [hT, twoSquares_half hh]
      exact ⟨h0, squareImage_front hz⟩)
  rw [this] at hv
  exact ⟨hset, hitem, hitem0, hv⟩

/-- A validation that meets the hypotheses of `C190_validation`, `C191_validation_partial` and `C193_partial`. -/
example : ∃ (W : ToolWorld Nat) (d : DataSet Nat) (F : Finder Nat) (intr : Intr) (X Y : Iso) (T : Nat → Iso), ProperParams W.param ∧
    validationMain W (idCeres V3) = .ok (some true) ∧ ValidationSetup W d F intr X Y ∧ (∀ T ∈ d.poses, RigidMotion T) ∧
    d.images.length < 2 ^ 64 ∧ (∃ i o, ValidationItem (plainEnv F) d i o) ∧ intr.fx ≠ 0 ∧ intr.fy ≠ 0 ∧
    (∀ i o, ValidationItem (plainEnv F) d i o → PerfectHalves intr (T i) o.corrs) ∧
    (∀ i o cs, ValidationItem (plainEnv F) d i o → IsHalf cs o.corrs → ∀ G r, (o.toCameraMount * X) * G = Y →
      pnp2 (idCeres V3) { intr := intr, correspondences := cs, guess := G } = .ok r → r.finalCost = some 0 ∧ ClearlyInFront r.cameraToTarget cs) ∧
    OrderlyWorld W ∧ ¬ FinderCrash W ∧ OrderlyCeres (idCeres V3) ∧ (∀ F, FinderParam W F → MakesAtLeast 2 F) := by
  obtain ⟨P, C, D, fs, path, es, col, saved, stored, msg, a1, a2, a3, a4, a5, a6, a7, a8, hcap, hmsg⟩ :=
    example_session (fun _ => 1) fun _ => .one
  have hz : (10 : ℝ) > 1 / 10 ^ 10 := by norm_num
  obtain ⟨h1, h2, h3, h4⟩ := twoSquares_valid (threshold := 0) (view := fun _ => twoSquares ⟨1, 1, 0, 0⟩ (shiftBy 10 10 10)) a8 fun _ => rfl
  have hor := exampleWorld_orderly C (saveToDirectory P D fs path stored).1 (indexFile path) 0
    (fun _ => twoSquares ⟨1, 1, 0, 0⟩ (shiftBy 10 10 10)) (fun m => by norm_num [twoSquares, squareImage, squarePoints])
  obtain ⟨r, hr, hc, h0, hT⟩ := pnp2_id_exact ⟨1, 1, 0, 0⟩ (shiftBy 10 10 10) (shiftBy_rep _ _ _).1
    (squareImage ⟨1, 1, 0, 0⟩ (shiftBy 10 10 10)) (by simp [squareImage, squarePoints]) squareImage_pixels (squareImage_front hz)
  refine ⟨_, _, _, _, _, _, fun _ => shiftBy 10 10 10, exampleWorld_proper _ _ _ _ _, h4, h1, ?_, by norm_num, ⟨0, _, h3⟩, by norm_num,
    by norm_num, fun i o ho => by rw [h2 i o ho]; exact perfectHalves_twoSquares _ hz, ?_, hor, ?_, orderly_idCeres _, ?_⟩
  · intro T hT
    have : T = 1 := by simpa using hT
    rw [this]
    exact Representable.one.1
  · intro i o cs ho hh G r' hG hr'
    rw [h2 i o ho] at hh hG
    rw [Iso.one_mul, Iso.one_mul] at hG
    rw [twoSquares_half hh, hG, hr] at hr'
    cases hr'
    rw [hT, twoSquares_half hh]
    exact ⟨h0, squareImage_front hz⟩
  · intro hcr
    have := (loadFinder_ok_iff _ _).2 h1.finder
    rw [(loadFinder_outcome _ hor).2 hcr] at this
    cases this
  · intro F hF
    obtain rfl : F = exampleFinder fun _ => twoSquares ⟨1, 1, 0, 0⟩ (shiftBy 10 10 10) :=
      Res.ok.inj (((loadFinder_ok_iff _ F).2 hF).symm.trans ((loadFinder_ok_iff _ _).2 h1.finder))
    intro m fs cs hfs _ hcs
    cases hfs
    cases hcs
    norm_num [twoSquares, squareImage, squarePoints]

/-- Wrong parameters are called valid: the images are perfect images of a target parallel to the image, taken with focal length `f`,
and the validation of focal length 1 ends with the verdict "valid". -/
theorem C193_negation (f : ℝ) (hf : 1 ≤ f) : ∃ (W : ToolWorld Nat) (d : DataSet Nat) (F : Finder Nat) (X Y : Iso) (T : Nat → Iso),
    ProperParams W.param ∧ ValidationSetup W d F ⟨1, 1, 0, 0⟩ X Y ∧ (∀ T ∈ d.poses, RigidMotion T) ∧
    (∃ i o, ValidationItem (plainEnv F) d i o) ∧
    (∀ i o, ValidationItem (plainEnv F) d i o → PerfectHalves ⟨f, f, 0, 0⟩ (T i) o.corrs) ∧
    validationMain W (idCeres V3) = .ok (some true) := by
  obtain ⟨P, C, D, fs, path, es, col, saved, stored, msg, a1, a2, a3, a4, a5, a6, a7, a8, hcap, hmsg⟩ :=
    example_session (fun _ => 1) fun _ => .one
  have hz : (10 * f : ℝ) > 1 / 10 ^ 10 := by
    have : (10 : ℝ) > 1 / 10 ^ 10 := by norm_num
    linarith
  have heq : twoSquares ⟨f, f, 0, 0⟩ (shiftBy 10 10 (10 * f)) = twoSquares ⟨1, 1, 0, 0⟩ (shiftBy 10 10 10) := by
    have : squareImage ⟨f, f, 0, 0⟩ (shiftBy 10 10 (10 * f)) = squareImage ⟨1, 1, 0, 0⟩ (shiftBy 10 10 10) := by
      refine List.map_congr_left fun q hq => ?_
      have hq : q.z = 0 := by
        simp only [squarePoints, List.mem_cons, List.not_mem_nil, or_false] at hq
        rcases hq with rfl | rfl | rfl | rfl <;> rfl
      have hf0 : f ≠ 0 := by linarith
      simp only [shiftBy_apply, pinhole, hq, zero_add, Corr2.mk.injEq, V2.mk.injEq, and_true]
      constructor <;> field_simp
    unfold twoSquares
    rw [this]
  obtain ⟨h1, h2, h3, h4⟩ := twoSquares_valid (threshold := 0) (view := fun _ => twoSquares ⟨1, 1, 0, 0⟩ (shiftBy 10 10 10)) a8 fun _ => rfl
  refine ⟨_, _, _, _, _, fun _ => shiftBy 10 10 (10 * f), exampleWorld_proper _ _ _ _ _, h1, ?_, ⟨0, _, h3⟩, ?_, h4⟩
  · intro T hT
    have : T = 1 := by simpa using hT
    rw [this]
    exact Representable.one.1
  · intro i o ho
    rw [h2 i o ho, ← heq]
    exact perfectHalves_twoSquares _ hz

/-- A run of the intrinsic calibration tool on three perfect images of three directions that meets the hypotheses of
`C192_intrinsic`. -/
example : ∃ (W : ToolWorld Nat) (s : Ceres Mem) (rep : IntrinsicReport) (d : DataSet Nat) (F : Finder Nat), ProperParams W.param ∧
    intrinsicMain W keepCalibrate (idCeres V3) s = .ok (some rep) ∧ DataParam W (W.param "data_path") d ∧ FinderParam W F ∧
    (∀ i cs, IntrinsicItem (plainEnv F) d.images i cs → RigidMotion (tilted i) ∧
      ∀ k ∈ cs, ((tilted i).apply k.inTarget).z ≠ 0 ∧ k.inImage = pinhole ⟨2, 3, 4, 5⟩ ((tilted i).apply k.inTarget)) ∧
    (∀ i ∈ [0, 1, 2], ∃ cs, IntrinsicItem (plainEnv F) d.images i cs ∧ SeesQuadrangle cs ∧ (tilted i).inv.t.z ≠ 0) ∧
    ¬ FewDirections ([0, 1, 2].map fun i => Spec.planeNormal (tilted i)) ∧
    rep.distortions = [0, 0, 0, 0, 0] ∧ rep.opt.final = some 0 ∧ rep.intrinsics = ⟨2, 3, 4, 5⟩ := by
  obtain ⟨P, C, D, fs, path, es, col, saved, stored, msg, a1, a2, a3, a4, a5, a6, a7, a8, hcap, hmsg⟩ :=
    example_session (fun _ => 1) fun _ => .one
  obtain ⟨hset, hcol, hitem, hitem'⟩ := exampleWorld_intrinsic (T := fun _ => 1) (threshold := 0)
    (view := fun n : Nat => squareImage ⟨2, 3, 4, 5⟩ (tilted n)) a8
  obtain ⟨r, hr⟩ := intrinsic_returns tiltedImages (by simp [tiltedImages]) (by simp [tiltedImages, squareImage, squarePoints]) ⟨1, 1, 0, 0⟩
  obtain ⟨s, res, poses, -, h1, h2, h3, h4, h5, h6⟩ := intrinsic_reached (idCeres_wf Mem) hr (fun i _ => tilted_rigid i) tilted_perfect
  have hp := exampleWorld_proper C (saveToDirectory P D fs path stored).1 (indexFile path) 0
    (fun n : Nat => squareImage ⟨2, 3, 4, 5⟩ (tilted n))
  have n1 : (Spec.planeNormal (tilted 0)).cross (Spec.planeNormal (tilted 1)) ≠ 0 := by
    intro h; have := congrArg V3.x h; simp [Spec.planeNormal, tilted, V3.cross] at this
  have n2 : (Spec.planeNormal (tilted 0)).cross (Spec.planeNormal (tilted 2)) ≠ 0 := by
    intro h; have := congrArg V3.x h; simp [Spec.planeNormal, tilted, V3.cross, M3.one_def] at this
  have n3 : (Spec.planeNormal (tilted 1)).cross (Spec.planeNormal (tilted 2)) ≠ 0 := by
    intro h; have := congrArg V3.y h; simp [Spec.planeNormal, tilted, V3.cross, M3.one_def] at this
  refine ⟨_, s, _, _, _, hp, (intrinsicMain_ok_iff _ hp _ _ _ _).2 ⟨_, _, _, _, ⟨⟨1, 1, 0, 0⟩, [0, 0, 0, 0, 0]⟩, res, hset, hcol, rfl, h1, rfl⟩,
    hset.data, hset.finder, ?_, ?_, ?_, h4, ?_, h5⟩
  · intro i cs hi
    obtain ⟨hlt, rfl⟩ := hitem i cs hi
    refine ⟨tilted_rigid i, ?_⟩
    have := tilted_perfect i (by simpa [tiltedImages] using hlt)
    have hi : i = 0 ∨ i = 1 ∨ i = 2 := by omega
    rcases hi with rfl | rfl | rfl <;> exact this
  · intro i hi
    simp only [List.mem_cons, List.not_mem_nil, or_false] at hi
    rcases hi with rfl | rfl | rfl
    · exact ⟨_, hitem' 0 (by norm_num), squareImage_sees _ _, by simp [tilted, Iso.inv, M3.tr, M3.mulVec]⟩
    · exact ⟨_, hitem' 1 (by norm_num), squareImage_sees _ _, by simp [tilted, Iso.inv, M3.tr, M3.mulVec]⟩
    · exact ⟨_, hitem' 2 (by norm_num), squareImage_sees _ _, by simp [tilted, Iso.inv, M3.tr, M3.mulVec, M3.one_def]⟩
  · exact not_few_of_three (a := Spec.planeNormal (tilted 0)) (b := Spec.planeNormal (tilted 1)) (c := Spec.planeNormal (tilted 2))
      (by simp) (by simp) (by simp) n1 n2 n3
  · show res.finalCost.map Real.sqrt = some 0
    rw [h3]
    simp

/-- A run of the PnP tool on a perfect image that meets the hypotheses of `C192_pnp`: the target is where the tool starts. -/
example : ∃ (W : ToolWorld Nat) (cv : CvSolvePnP) (T0 T : Iso) (r : PnPResult) (cs : List Corr2), ProperParams W.param ∧
    solvePnpTool W (fun _ => 7) cv (idCeres V3) = .ok (some (T0, r)) ∧ PnpScene W (fun _ => 7) ⟨1, 1, 0, 0⟩ cs ∧ RigidMotion T ∧
    (∀ k ∈ cs, k.inImage = pinhole ⟨1, 1, 0, 0⟩ (T.apply k.inTarget)) ∧ ClearlyInFront T cs ∧ T.inv.t.z ≠ 0 ∧ SeesQuadrangle cs ∧
    ClearlyInFront r.cameraToTarget cs ∧ r.cameraToTarget = T ∧ T0 ≠ T := by
  obtain ⟨G, hG⟩ : ∃ G : Iso, G = ⟨⟨1, 0, 0, 0, -1, 0, 0, 0, -1⟩, ⟨0, 0, 1 / 10⟩⟩ := ⟨_, rfl⟩
  have hGr : RigidMotion G := by
    rw [← rigid_iff, hG]
    apply M3.IsRot.of_cols <;> simp [M3.det]
  have hfront : ClearlyInFront G (squareImage ⟨1, 1, 0, 0⟩ G) := by
    intro k hk
    obtain ⟨q, hq, rfl⟩ := List.mem_map.1 hk
    simp only [squarePoints, List.mem_cons, List.not_mem_nil, or_false] at hq
    rw [hG]
    rcases hq with rfl | rfl | rfl | rfl <;> norm_num [Iso.apply, M3.mulVec]
  obtain ⟨view, hview⟩ : ∃ view, view = fun _ : Nat => squareImage ⟨1, 1, 0, 0⟩ G := ⟨_, rfl⟩
  have hv7 : view 7 = squareImage ⟨1, 1, 0, 0⟩ G := by rw [hview]
  obtain ⟨W, hW⟩ : ∃ W, W = exampleWorld ⟨fun _ => false, id⟩ ⟨fun _ => True, fun _ => none⟩ "a" 0 view := ⟨_, rfl⟩
  have hp : ProperParams W.param := by rw [hW]; exact exampleWorld_proper _ _ _ _ _
  obtain ⟨r, hr, hc, h0, hT⟩ := pnp2_id_exact ⟨1, 1, 0, 0⟩ G hGr (view 7) (by rw [hv7]; simp [squareImage, squarePoints])
    (by rw [hv7]; exact squareImage_pixels) (by rw [hv7]; exact hfront)
  have hi : IntrinsicsParam (W.param "intrinsics") ⟨1, 1, 0, 0⟩ := by rw [hW]; exact exampleWorld_intrinsics
  have hF : FinderParam W (exampleFinder view) := by rw [hW]; exact exampleWorld_finder _ _ _ _ _
  have ha : W.param "image_path" = some (.string "a") := by rw [hW]; rfl
  refine ⟨W, fun _ _ _ => (⟨1, 0, 0⟩, ⟨0, 0, 5⟩), _, G, r, view 7, hp, (C190_pnp W hp _ _ _ _ r).2 ⟨"a", ⟨1, 1, 0, 0⟩, exampleFinder view,
    [(7, [])], view 7, ha, hi, hF, rfl, by simp, rfl, rfl, rfl, by rw [← hG]; exact hr⟩, ⟨"a", _, [(7, [])], ha, hi, hF, rfl, rfl⟩, hGr, ?_, ?_, ?_, ?_, ?_, hT, ?_⟩
  · rw [hv7]; exact squareImage_pixels
  · rw [hv7]; exact hfront
  · rw [hG]; norm_num [Iso.inv, M3.tr, M3.mulVec]
  · rw [hv7]; exact squareImage_sees _ _
  · rw [hT, hv7]; exact hfront
  · intro h
    have := congrArg (fun T : Iso => T.t.z) h
    rw [hG] at this
    norm_num [solveCvPnP] at this

end RCT
