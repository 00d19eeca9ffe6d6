import Verif.Spec.Programs
import Verif.Lemmas.Collect
import Verif.Props.Tools
import Verif.Props.CircleFinder
import Verif.Props.Starts
import Verif.Props.PoseGenerators

/-!
# C161-C163 Example programs
-/

namespace RCT

open Spec

variable {Img : Type}

/-! ## C161 16 bit images keep their contrast

Full statement: two pixels of a 16 bit image that differ by at least one step of the 8 bit scale (257) still differ in the
image given to the target finder. It is false for all values from 255 on (`C161_negation`). -/

/-- Brighter pixels do not become darker, and all channels are equal. -/
theorem C161_monotone (v w : Nat) (h : v ≤ w) :
    (mono16Pixel v).b ≤ (mono16Pixel w).b ∧ (mono16Pixel v).g = (mono16Pixel v).b ∧ (mono16Pixel v).r = (mono16Pixel v).b ∧
    (mono16Pixel v).b ≤ 255 := by
  refine ⟨?_, rfl, rfl, ?_⟩ <;> simp only [mono16Pixel] <;> omega

/-- Exactly which differences are kept. Missing: two different values of at least 255. -/
theorem C161_partial (v w : Nat) : mono16Pixel v = mono16Pixel w ↔ v = w ∨ (255 ≤ v ∧ 255 ≤ w) := by
  simp only [mono16Pixel, Bgr8.mk.injEq]
  omega

theorem mono16_get (img : List (List Nat)) (i j : Nat) :
    ((mono16Image img)[i]?.bind fun row => row[j]?) = (img[i]?.bind fun row => row[j]?).map mono16Pixel := by
  simp only [mono16Image, List.getElem?_map]
  cases img[i]? <;> simp

/-- Images of 8 bit values are kept as they are. -/
theorem C161_small (img : List (List Nat)) (i j v : Nat) (hv : (img[i]?.bind fun row => row[j]?) = some v)
    (h : v ≤ 255) : ((mono16Image img)[i]?.bind fun row => row[j]?) = some ⟨v, v, v⟩ := by
  rw [mono16_get, hv, Option.map_some, mono16Pixel]
  simp only [Nat.min_eq_left h]

/-- An image in which all values are at least 255 (of 65535) becomes uniformly white, whatever it shows. -/
theorem C161_negation (img : List (List Nat)) (h : ∀ row ∈ img, ∀ v ∈ row, 255 ≤ v) :
    mono16Image img = img.map fun row => List.replicate row.length ⟨255, 255, 255⟩ := by
  unfold mono16Image
  refine List.map_congr_left fun row hr => ?_
  rw [List.eq_replicate_iff]
  refine ⟨by simp, fun b hb => ?_⟩
  obtain ⟨v, hv, rfl⟩ := List.mem_map.1 hb
  have := h row hr v hv
  simp only [mono16Pixel, Nat.min_eq_right this]

/-- A dark grey and a bright white pixel, which the conversion cannot tell apart. -/
example : (∀ row ∈ [[300, 65535]], ∀ v ∈ row, 255 ≤ v) ∧ mono16Image [[300, 65535]] = [[⟨255, 255, 255⟩, ⟨255, 255, 255⟩]] :=
  ⟨by simp, by rfl⟩

/-! ## C162 The wrist example uses exactly the images in which the target is found -/

theorem exampleStep_ok {find : Img → Res TargetFeatures} {create : TargetFeatures → Res (List Corr2)} {d : DataSet Img}
    {s s' : List (Obs Corr2)} {i : Nat} (h : exampleStep find create d s i = .ok s') :
    (s' = s ∧ ¬ ∃ o, ExampleItem find create d i o) ∨ ∃ o, ExampleItem find create d i o ∧ s' = s ++ [o] := by
  unfold exampleStep at h
  rw [Res.bind_ok_iff] at h
  obtain ⟨m, hm, h⟩ := h
  rw [collectIdx_ok_iff] at hm
  cases hf : find m with
  | ok fs =>
    rw [hf] at h
    simp only [Res.bind_ok_iff] at h
    obtain ⟨cs, hc, T, hT, h⟩ := h
    rw [collectIdx_ok_iff] at hT
    cases h
    exact .inr ⟨wristObs T cs, ⟨m, fs, hm, hf, hc, hT, rfl⟩, rfl⟩
  | throw e =>
    rw [hf] at h
    cases h
    refine .inl ⟨rfl, ?_⟩
    rintro ⟨o, m', fs, hm', hf', -⟩
    rw [hm] at hm'
    cases hm'
    rw [hf] at hf'
    cases hf'
  | abort => rw [hf] at h; cases h
  | ub => rw [hf] at h; cases h

/-- Whenever the loop ends, the observations come, in order, from exactly the images in which the target is found; each has
the correspondences and the wrist pose of its own image. -/
theorem C162_collects (find : Img → Res TargetFeatures) (create : TargetFeatures → Res (List Corr2)) (d : DataSet Img)
    (obs : List (Obs Corr2)) (h : exampleCollect find create d = .ok obs) :
    ∃ js, SelectedAt d.images.length (ExampleItem find create d) js obs := by
  obtain ⟨js, as, hs, rfl⟩ := fold_collect (P := ExampleItem find create d) (add := fun s o => s ++ [o])
    (fun s i s' _ => exampleStep_ok) h
  refine ⟨js, ?_⟩
  have : ∀ s : List (Obs Corr2), as.foldl (fun s o => s ++ [o]) s = s ++ as := by
    clear hs h
    induction as with
    | nil => intro s; simp
    | cons a as ih => intro s; rw [List.foldl_cons, ih]; simp
  rw [this, List.nil_append]
  exact hs

theorem exampleTarget_points : exampleTarget.createPoints.length = 100 := by
  have h := (C66_partial exampleTarget (by norm_num [exampleTarget])).1
  rw [h]; rfl

theorem circleFeatures_throw {find : Nat → Nat → Bool × List V2} {detections : List (List KeyPoint)} {t : CircleTarget} {e : Exc}
    (h : extractModifiedCircleGrid find detections t.rows t.cols = .throw e) : circleFeatures find detections t = .throw e := by
  unfold circleFeatures; rw [h]; rfl

/-- Finder and target of the example fit together: whatever OpenCV reports, either the target is not found, or all
correspondences can be made. -/
theorem example_finder (grid : Nat → Nat → Bool × List V2) (hg : FindWF grid) (detections : List (List KeyPoint)) :
    circleFeatures grid detections exampleTarget = .throw .runtimeError ∨
    ∃ fs cs, circleFeatures grid detections exampleTarget = .ok fs ∧ exampleTarget.createCorrespondences fs = .ok cs ∧
      cs.length = 100 := by
  rcases C96_partial grid hg detections exampleTarget.rows exampleTarget.cols (by norm_num [exampleTarget])
    (by norm_num [exampleTarget]) (by norm_num [exampleTarget]) with ⟨out, h⟩ | h
  · right
    have hne : (findGrid grid exampleTarget.rows exampleTarget.cols).1 ≠ [] := by
      intro e
      unfold extractModifiedCircleGrid at h
      simp only [e] at h
      simp at h
    have hl : out.length = 100 := by
      rw [(C67_finder grid hg detections _ _ out h).1.length_eq, findGrid_length hg hne]
      rfl
    obtain ⟨cs, hb, hcl, -⟩ := circle_pairs h (by rw [hl, exampleTarget_points])
    rw [Res.bind_ok_iff] at hb
    obtain ⟨fs, hf, hc⟩ := hb
    exact ⟨fs, cs, hf, hc, hcl.trans hl⟩
  · exact .inl (circleFeatures_throw h)

/-- The loop of the example ends normally for every data set with a pose for every image, whatever OpenCV finds. -/
theorem C162_returns (grid : Img → Nat → Nat → Bool × List V2) (hg : ∀ m, FindWF (grid m))
    (detections : Img → List (List KeyPoint)) (d : DataSet Img) (hlen : d.images.length ≤ d.poses.length) :
    ∃ obs, exampleCollect (fun m => circleFeatures (grid m) (detections m) exampleTarget)
      exampleTarget.createCorrespondences d = .ok obs ∧ ∀ o ∈ obs, o.corrs.length = 100 := by
  unfold exampleCollect
  have key : ∀ k, k ≤ d.images.length → ∃ obs, Res.foldList (exampleStep (fun m => circleFeatures (grid m) (detections m)
      exampleTarget) exampleTarget.createCorrespondences d) [] (List.range k) = .ok obs ∧ ∀ o ∈ obs, o.corrs.length = 100 := by
    intro k
    induction k with
    | zero => intro _; exact ⟨[], rfl, by simp⟩
    | succ k ih =>
      intro hk
      obtain ⟨obs, h, hall⟩ := ih (by omega)
      rw [List.range_succ, Res.foldList_append, h, Res.ok_bind, Res.foldList_cons]
      have hi : k < d.images.length := by omega
      have hstep : ∃ obs', exampleStep (fun m => circleFeatures (grid m) (detections m) exampleTarget)
          exampleTarget.createCorrespondences d obs k = .ok obs' ∧ ∀ o ∈ obs', o.corrs.length = 100 := by
        unfold exampleStep
        rw [collectIdx_lt hi, Res.ok_bind]
        rcases example_finder (grid d.images[k]) (hg _) (detections d.images[k]) with h | ⟨fs, cs, h, hc, hcl⟩
        · simp only [h]; exact ⟨obs, rfl, hall⟩
        · simp only [h, hc, Res.ok_bind]
          rw [collectIdx_lt (by omega : k < d.poses.length), Res.ok_bind]
          refine ⟨_, rfl, ?_⟩
          intro o ho
          rcases List.mem_append.1 ho with ho | ho
          · exact hall o ho
          · rw [List.mem_singleton.1 ho]; exact hcl
      obtain ⟨obs', h', hall'⟩ := hstep
      rw [h', Res.ok_bind]
      exact ⟨obs', rfl, hall'⟩
  exact key _ le_rfl

/-- The guesses of the example are rigid motions. -/
theorem C162_guesses (obs : List (Obs Corr2)) :
    RigidMotion (exampleProblem obs).cameraGuess ∧ RigidMotion (exampleProblem obs).targetGuess := by
  have h : exampleRot.IsRot := by
    constructor
    · rw [M3.mul_def, M3.one_def]; ext <;> simp [exampleRot, M3.tr]
    · simp [exampleRot, M3.det]
  exact ⟨(rigid_iff _).1 h, (rigid_iff _).1 h⟩

/-- The whole program: it exits with 1 exactly if the data set cannot be parsed; otherwise its result is the calibration of
exactly the images in which the target is found. -/
theorem C162_main (C : Codec Img) (fs : FS Img) (path : String) (grid : Img → Nat → Nat → Bool × List V2)
    (detections : Img → List (List KeyPoint)) (s : Ceres Pose6) (o : Option HandEyeResult)
    (h : exampleMain C fs path grid detections s = .ok o) :
    (o = none ∧ parseFromFile C fs path = .ok none) ∨
    ∃ d obs js r, o = some r ∧ parseFromFile C fs path = .ok (some d) ∧
      SelectedAt d.images.length (ExampleItem (fun m => circleFeatures (grid m) (detections m) exampleTarget)
        exampleTarget.createCorrespondences d) js obs ∧
      handEye2 s (exampleProblem obs) = .ok r := by
  unfold exampleMain at h
  rw [Res.bind_ok_iff] at h
  obtain ⟨od, hd, h⟩ := h
  cases od with
  | none => cases h; exact .inl ⟨rfl, hd⟩
  | some d =>
    simp only [Res.bind_ok_iff] at h
    obtain ⟨obs, ho, r, hr, h⟩ := h
    cases h
    obtain ⟨js, hjs⟩ := C162_collects _ _ _ _ ho
    exact .inr ⟨d, obs, js, r, rfl, hd, hjs, hr⟩

/-- In every observation of the example the target points are the grid of 10 by 10 dots, 25.4 mm apart, row by row from the
top, that `data/test_set_10x10/target.yaml` describes. -/
theorem C162_target (find : Img → Res TargetFeatures) (d : DataSet Img) (obs : List (Obs Corr2))
    (h : exampleCollect find exampleTarget.createCorrespondences d = .ok obs) :
    ∀ o ∈ obs, o.corrs.length = 100 ∧ ∀ r c : Nat, r < 10 → c < 10 →
      (o.corrs[10 * r + c]?).map (·.inTarget) = some ⟨c * (254 / 10000), (9 - r) * (254 / 10000), 0⟩ := by
  intro o ho
  obtain ⟨js, -, -, hs⟩ := C162_collects find exampleTarget.createCorrespondences d obs h
  obtain ⟨j, -, m, fs, -, -, hcs, -⟩ := Forall₂.mem_right hs ho
  obtain ⟨hl, hc⟩ := (circleCorrespondences_ok_iff _ _ _).1 hcs
  rw [exampleTarget_points] at hl
  refine ⟨hl, fun r c hr hc' => ?_⟩
  have h1 : o.corrs[10 * r + c]? = some o.corrs[10 * r + c] := by simp
  obtain ⟨h2, -⟩ := hc _ _ h1
  have h3 := (C66_partial exampleTarget (by norm_num [exampleTarget])).2.1 r c hr hc'
  have e : r * exampleTarget.cols + c = 10 * r + c := by rw [show exampleTarget.cols = 10 from rfl, Nat.mul_comm]
  rw [e, h2] at h3
  rw [h1, Option.map_some, h3]
  norm_num [exampleTarget]

theorem SelectedAt.unique {A : Type} {n : Nat} {P : Nat → A → Prop} (hP : ∀ i a b, P i a → P i b → a = b) {js js' : List Nat}
    {as as' : List A} (h : SelectedAt n P js as) (h' : SelectedAt n P js' as') : js = js' ∧ as = as' := by
  have hj : js = js' := by
    refine List.Perm.eq_of_pairwise' (r := (· ≤ ·)) (h.1.imp le_of_lt) (h'.1.imp le_of_lt) ?_
    rw [List.perm_ext_iff_of_nodup (h.1.imp ne_of_lt) (h'.1.imp ne_of_lt)]
    intro j
    rw [h.2.1, h'.2.1]
  subst hj
  refine ⟨rfl, ?_⟩
  obtain ⟨-, -, h⟩ := h
  obtain ⟨-, -, h'⟩ := h'
  induction h generalizing as' with
  | nil => cases h'; rfl
  | cons ha _ ih => cases h' with
    | cons hb h' => rw [hP _ _ _ ha hb, ih h']

/-- The example and the configurable tool collect the same observations if the homography check of the tool accepts every
image and the finder never returns an empty set of features. -/
theorem C162_same_as_tool (E : ToolEnv Img) (hcheck : ∀ i cs, E.check i cs = .ok ()) (hne : ∀ m, E.find m ≠ .ok [])
    (d : DataSet Img) (obs : List (Obs Corr2)) (h : exampleCollect E.find E.create d = .ok obs) (s : Found Img)
    (hs : wristCollect E d = .ok s) : s.observations = obs := by
  obtain ⟨js, hj⟩ := C162_collects _ _ _ _ h
  obtain ⟨js', items, hj', ho, -⟩ := C84_wrist E d s hs
  rw [ho]
  refine (SelectedAt.unique (P := ExampleItem E.find E.create d) ?_ (js := js') (js' := js) ?_ hj).2
  · rintro i ⟨cs, A, B⟩ ⟨cs', A', B'⟩ ⟨m, fs, h1, h2, h3, h4, h5⟩ ⟨m', fs', h1', h2', h3', h4', h5'⟩
    simp only at *
    rw [h1] at h1'; cases h1'
    rw [h2] at h2'; cases h2'
    rw [h3] at h3'; cases h3'
    rw [h4] at h4'; cases h4'
    rw [h5, h5']
  · refine ⟨hj'.1, fun j => ?_, ?_⟩
    · rw [hj'.2.1]
      refine and_congr_right fun _ => ⟨?_, ?_⟩
      · rintro ⟨⟨o, m⟩, h1, ⟨fs, h2, -, h3, -⟩, h4, h5⟩
        exact ⟨o, m, fs, h1, h2, h3, h4, h5⟩
      · rintro ⟨o, m, fs, h1, h2, h3, h4, h5⟩
        exact ⟨(o, m), h1, ⟨fs, h2, fun e => hne m (by rw [h2, e]), h3, hcheck _ _⟩, h4, h5⟩
    · rw [List.forall₂_map_right_iff]
      refine hj'.2.2.imp ?_
      rintro j ⟨o, m⟩ ⟨h1, ⟨fs, h2, -, h3, -⟩, h4, h5⟩
      exact ⟨m, fs, h1, h2, h3, h4, h5⟩

/-- Two images, the target is found in the second one only. -/
example : ∃ (find : Nat → Res TargetFeatures) (create : TargetFeatures → Res (List Corr2)) (d : DataSet Nat) (o : Obs Corr2),
    exampleCollect find create d = .ok [o] ∧ o.toCameraMount = ⟨1, ⟨1, 2, 3⟩⟩ ∧ d.images.length ≤ d.poses.length :=
  ⟨fun m => if m = 0 then .throw .runtimeError else .ok [(0, [⟨1, 2⟩])], fun _ => .ok [], ⟨[0, 1], [1, ⟨1, ⟨1, 2, 3⟩⟩]⟩,
    wristObs ⟨1, ⟨1, 2, 3⟩⟩ [], rfl, rfl, by simp⟩

/-! ## C163 PnP with OpenCV and with the solver -/

theorem V3.smul_norm_normalized (a : V3) : V3.smul a.norm a.normalized = a := by
  by_cases h : a = 0
  · subst h
    have : (0 : V3).norm = 0 := by simp [V3.norm, V3.normSq, V3.dot]
    rw [this]; ext <;> simp
  · have hp : 0 < a.normSq := V3.dot_self_pos_of_ne h
    have hn : a.norm ≠ 0 := (Real.sqrt_pos.2 hp).ne'
    rw [V3.normalized, if_pos hp]
    ext <;> simp <;> field_simp

theorem V3.normalized_unit {a : V3} (h : a ≠ 0) : a.normalized.normSq = 1 := by
  have hp : 0 < a.normSq := V3.dot_self_pos_of_ne h
  have hn : a.norm ≠ 0 := (Real.sqrt_pos.2 hp).ne'
  have hs : a.norm * a.norm = a.normSq := Real.mul_self_sqrt hp.le
  rw [V3.normalized, if_pos hp]
  have : (V3.smul (1 / a.norm) a).normSq = a.normSq / (a.norm * a.norm) := by
    simp only [V3.normSq, V3.dot, V3.smul_x, V3.smul_y, V3.smul_z]
    field_simp
  rw [this, hs, div_self hp.ne']

/-- The pose built from the answer of OpenCV is a rigid motion, its rotation is the one that belongs to the rotation vector
(also for the zero vector) and its position is the translation vector. -/
theorem C163_pose (cv : CvSolvePnP) (intr : Intr) (cs : List Corr2) (rvec tvec : V3)
    (h : cv (cs.map fun c => c.inTarget) (cs.map fun c => c.inImage) (cvCameraMatrix intr) = (rvec, tvec)) :
    RigidMotion (solveCvPnP cv intr cs) ∧ IsRotVec rvec (solveCvPnP cv intr cs).R ∧ (solveCvPnP cv intr cs).t = tvec := by
  unfold solveCvPnP
  rw [h]
  simp only
  by_cases h0 : rvec = 0
  · subst h0
    have hn : (0 : V3).norm = 0 := by simp [V3.norm, V3.normSq, V3.dot]
    rw [hn, AngleAxis.toMat_zero_angle]
    refine ⟨(rigid_iff _).1 M3.IsRot.one, ⟨⟨1, 0, 0⟩, 0, ?_, by ext <;> simp⟩, trivial⟩
    have := turnsBy_toMat (u := ⟨1, 0, 0⟩) (by simp [V3.normSq, V3.dot]) 0
    rwa [AngleAxis.toMat_zero_angle] at this
  · have hu := V3.normalized_unit h0
    exact ⟨(rigid_iff _).1 (AngleAxis.toMat_isRot hu), ⟨_, _, turnsBy_toMat hu _, (V3.smul_norm_normalized rvec).symm⟩, trivial⟩

/-- The camera matrix describes the same camera as the pinhole model. -/
theorem C163_matrix (intr : Intr) (p : V3) (u : V2) :
    HomogeneousPixel ((cvCameraMatrix intr).mulVec p) u ↔ p.z ≠ 0 ∧ u = pinhole intr p := by
  have e : (cvCameraMatrix intr).mulVec p = ⟨intr.fx * p.x + intr.cx * p.z, intr.fy * p.y + intr.cy * p.z, p.z⟩ := by
    ext <;> simp [cvCameraMatrix, M3.mulVec]
  rw [e, V2.ext_iff]
  refine and_congr_right fun hz => ?_
  have hz : p.z ≠ 0 := hz
  have e1 : (intr.fx * p.x + intr.cx * p.z) / p.z = (pinhole intr p).x := by simp only [pinhole]; field_simp
  have e2 : (intr.fy * p.y + intr.cy * p.z) / p.z = (pinhole intr p).y := by simp only [pinhole]; field_simp
  rw [← e1, ← e2]

/-- If OpenCV explains the points exactly, the pose of the program does: it projects every target point of a correspondence
to the image point of the same correspondence. -/
theorem C163_exact (cv : CvSolvePnP) (intr : Intr) (cs : List Corr2) (rvec tvec : V3)
    (h : cv (cs.map fun c => c.inTarget) (cs.map fun c => c.inImage) (cvCameraMatrix intr) = (rvec, tvec))
    (hex : CvExact rvec tvec (cvCameraMatrix intr) (cs.map fun c => c.inTarget) (cs.map fun c => c.inImage)) :
    ∀ c ∈ cs, ((solveCvPnP cv intr cs).apply c.inTarget).z ≠ 0 ∧
      c.inImage = pinhole intr ((solveCvPnP cv intr cs).apply c.inTarget) := by
  obtain ⟨-, hr, ht⟩ := C163_pose cv intr cs rvec tvec h
  have := hex _ hr
  rw [List.forall₂_map_left_iff, List.forall₂_map_right_iff, List.forall₂_same] at this
  intro c hc
  have := (C163_matrix _ _ _).1 (this c hc)
  rw [← ht] at this
  exact this

/-- The guess for the solver is a rigid motion that puts all points of the target plane in front of the camera, mirrored at
neither axis but turned by 180 degrees about the x axis. -/
theorem C163_guess (x y : ℝ) :
    RigidMotion solvePnpGuess ∧ rotAngle solvePnpGuess.R = Real.pi ∧ solvePnpGuess.apply ⟨x, y, 0⟩ = ⟨x, -y, 1 / 10⟩ := by
  have hu : (⟨1, 0, 0⟩ : V3).normSq = 1 := by simp [V3.normSq, V3.dot]
  have e : solvePnpGuess = ⟨(⟨Real.pi, ⟨1, 0, 0⟩⟩ : AngleAxis).toMat, ⟨0, 0, 1 / 10⟩⟩ := by
    unfold solvePnpGuess
    rw [Iso.one_mul, Iso.mul_def]
    simp only [M3.one_mul]
    congr 1
    ext <;> simp [M3.mulVec]
  refine ⟨?_, ?_, ?_⟩
  · rw [e]; exact (rigid_iff _).1 (AngleAxis.toMat_isRot hu)
  · rw [e]; exact rotAngle_angleAxis hu Real.pi_pos.le le_rfl
  · rw [e]
    ext <;> simp [Iso.apply, AngleAxis.toMat, M3.mulVec]

/-- The solver can start from the guess: all derivatives of all residuals are finite there. -/
theorem C163_starts (intr : Intr) (cs : List Corr2) (da dt : V3) :
    ∀ c ∈ cs, AllFinite (pnpCost2J intr c.inTarget c.inImage (.at (pnpInit (solvePnpProblem intr cs).guess pnpRot) da)
      (.at (pnpInit (solvePnpProblem intr cs).guess pnpTrans) dt)) := by
  intro c _
  refine (C157_partial _ _ _ _ ?_).1 _ _ _
  obtain ⟨hr, ha, -⟩ := C163_guess 0 0
  intro h0
  have hrot : solvePnpGuess.R.IsRot := (rigid_iff _).2 hr
  obtain ⟨h1, h2, h3⟩ := hrot.toAngleAxis
  have hang := toAngleAxis_angle hrot
  rw [ha] at hang
  have : (pnpInit (solvePnpProblem intr cs).guess pnpRot) =
      V3.smul solvePnpGuess.R.toAngleAxis.angle solvePnpGuess.R.toAngleAxis.axis := rfl
  rw [this] at h0
  have hn := V3.norm_smul_unit h1 solvePnpGuess.R.toAngleAxis.angle
  rw [h0, hang, abs_of_pos Real.pi_pos] at hn
  have hz : (0 : V3).norm = 0 := by simp [V3.norm, V3.normSq, V3.dot]
  rw [hz] at hn
  exact Real.pi_pos.ne hn

/-- The whole program after loading: it reports two poses exactly if features are found, drawn and paired and the solver
returns; both poses are for the same correspondences. -/
theorem C163_main (E : ToolEnv Img) (cv : CvSolvePnP) (s : Ceres V3) (intr : Intr) (m : Img) (T : Iso) (r : PnPResult) :
    solvePnpMain E cv s intr m = .ok (some (T, r)) ↔
      ∃ fs cs, E.find m = .ok fs ∧ fs ≠ [] ∧ E.draw m fs = .ok () ∧ E.create fs = .ok cs ∧ T = solveCvPnP cv intr cs ∧
        pnp2 s (solvePnpProblem intr cs) = .ok r := by
  unfold solvePnpMain
  rw [show ∀ (x : Res (Option (Iso × PnPResult))), x.tryCatch (fun _ => true) none = .ok (some (T, r)) ↔
    x = .ok (some (T, r)) from fun x => by cases x <;> simp [Res.tryCatch]]
  rw [Res.bind_ok_iff]
  constructor
  · rintro ⟨fs, hf, h⟩
    split at h
    · cases h
    · rename_i hne
      simp only [Res.bind_ok_iff] at h
      obtain ⟨⟨⟩, hd, cs, hc, cs', hc', r', hr, h⟩ := h
      rw [hc] at hc'
      cases hc'
      cases h
      exact ⟨fs, cs, hf, by simpa using hne, hd, hc, rfl, hr⟩
  · rintro ⟨fs, cs, hf, hne, hd, hc, rfl, hr⟩
    refine ⟨fs, hf, ?_⟩
    rw [if_neg (by simpa using hne), hd, Res.ok_bind, hc, Res.ok_bind]
    simp only [Res.ok_bind]
    rw [hr]
    rfl

/-- An image without the target and every exception end the program with the exit code -1; no exception leaves it. -/
theorem C163_failure (E : ToolEnv Img) (cv : CvSolvePnP) (s : Ceres V3) (intr : Intr) (m : Img) :
    (E.find m = .ok [] ∨ (∃ e, E.find m = .throw e) → solvePnpMain E cv s intr m = .ok none) ∧
    ∀ e, solvePnpMain E cv s intr m ≠ .throw e := by
  constructor
  · rintro (h | ⟨e, h⟩) <;> unfold solvePnpMain <;> rw [h] <;> rfl
  · intro e
    unfold solvePnpMain
    intro h
    revert h
    generalize ((E.find m).bind _ : Res (Option (Iso × PnPResult))) = x
    cases x <;> simp [Res.tryCatch]

/-- OpenCV turns by 90 degrees about the optical axis and finds the point one metre ahead at the principal point. -/
example : ∃ (cv : CvSolvePnP) (intr : Intr) (cs : List Corr2) (rvec tvec : V3), cs ≠ [] ∧ rvec ≠ 0 ∧
    cv (cs.map fun c => c.inTarget) (cs.map fun c => c.inImage) (cvCameraMatrix intr) = (rvec, tvec) ∧
    CvExact rvec tvec (cvCameraMatrix intr) (cs.map fun c => c.inTarget) (cs.map fun c => c.inImage) := by
  refine ⟨fun _ _ _ => (⟨0, 0, Real.pi / 2⟩, ⟨0, 0, 1⟩), ⟨1, 1, 3, 4⟩, [⟨⟨3, 4⟩, 0⟩], _, _, by simp, ?_, rfl, ?_⟩
  · intro h; exact (half_pos Real.pi_pos).ne' (congrArg V3.z h)
  · intro R _
    refine .cons ?_ .nil
    rw [C163_matrix]
    constructor
    · simp [M3.mulVec]
    · ext <;> simp [pinhole, M3.mulVec]

/-- The program ends with both poses for a solver that returns its guess. -/
example : ∃ (E : ToolEnv Nat) (cv : CvSolvePnP) (T : Iso) (r : PnPResult),
    solvePnpMain E cv (idCeres V3) ⟨1, 1, 0, 0⟩ 7 = .ok (some (T, r)) := by
  obtain ⟨r, hr⟩ := pnp2_id_returns (solvePnpProblem ⟨1, 1, 0, 0⟩ [⟨⟨0, 0⟩, ⟨1, 0, 0⟩⟩]) (by simp [solvePnpProblem])
  exact ⟨⟨fun _ => .ok [(0, [⟨0, 0⟩])], fun _ => .ok [⟨⟨0, 0⟩, ⟨1, 0, 0⟩⟩], fun _ _ => .ok (), fun _ _ => .ok ()⟩,
    fun _ _ _ => (0, 0), _, r, (C163_main _ _ _ _ _ _ _).2 ⟨_, _, rfl, by simp, rfl, rfl, rfl, hr⟩⟩

end RCT
