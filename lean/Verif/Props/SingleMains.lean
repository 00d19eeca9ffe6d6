import Verif.Spec.SingleMains
import Verif.Props.Mains
import Verif.Props.MultiTools
import Verif.Props.ToolData
import Verif.Props.Programs
import Verif.Props.IdentifyIntrinsic

/-!
# C190-C192 The tools for intrinsic calibration, validation, noise and PnP as programs
-/

namespace RCT

open Spec

variable {Img : Type}

/-! ## C190 What these tools compute from their parameters -/

theorem intrinsicMain_ok_iff (W : ToolWorld Img) (hp : ProperParams W.param) (cv : CvCalibrate Img) (s3 : Ceres V3) (s : Ceres Mem)
    (rep : IntrinsicReport) : intrinsicMain W cv s3 s = .ok (some rep) ↔ ∃ d F intr found c r, IntrinsicSetup W d F intr ∧
      intrinsicCollect (plainEnv F) d = .ok found ∧ cvCalibration cv found.1 found.2 intr = .ok c ∧
      intrinsic s3 s { observations := found.1, guess := intr } = .ok r ∧
      rep = ⟨c.1, c.2, printOpt r.converged r.initialCost r.finalCost, r.intrinsics, r.distortions,
        r.covariance.correlation_coeffs.filter fun x => decide (|x.value| > 1 / 2)⟩ := by
  unfold intrinsicMain
  rw [toolExit_ok]
  simp only [Res.bind_ok_iff, getString_ok_iff, (C106_partial W.codec W.fs _).2, loadFinder_ok_iff, intrParam_ok_iff hp, Res.ok.injEq]
  constructor
  · rintro ⟨path, h1, d, h2, F, h3, i, h4, found, h5, c, h6, r, h7, h8⟩
    exact ⟨d, F, i, found, c, r, ⟨⟨path, h1, h2⟩, h3, h4⟩, h5, h6, h7, h8.symm⟩
  · rintro ⟨d, F, i, found, c, r, ⟨⟨path, h1, h2⟩, h3, h4⟩, h5, h6, h7, h8⟩
    exact ⟨path, h1, d, h2, F, h3, i, h4, found, h5, c, h6, r, h7, h8.symm⟩

/-- Whenever the intrinsic calibration tool ends with success, what it prints is the result of the calibration with the guess of the
parameter `intrinsics` and the correspondences of exactly the images of the data set in which the target is found; and the other
camera it prints is what OpenCV computes from the same correspondences, the same guess and the size of the first image. -/
theorem C190_intrinsic (W : ToolWorld Img) (hp : ProperParams W.param) (cv : CvCalibrate Img) (s3 : Ceres V3) (s : Ceres Mem)
    (rep : IntrinsicReport) (h : intrinsicMain W cv s3 s = .ok (some rep)) :
    ∃ d F intr js obs r front K dist, IntrinsicSetup W d F intr ∧
      SelectedAt d.images.length (IntrinsicItem (plainEnv F) d.images) js obs ∧
      intrinsic s3 s { observations := obs, guess := intr } = .ok r ∧ ReportsIntrinsic rep r ∧ d.images.head? = some front ∧
      cv (obs.map fun o => o.map Corr2.inTarget) (obs.map fun o => o.map Corr2.inImage) front
        ⟨intr.fx, 0, intr.cx, 0, intr.fy, intr.cy, 0, 0, 1⟩ = .ok (K, dist) ∧
      rep.cvIntrinsics = ⟨K.m00, K.m11, K.m02, K.m12⟩ ∧ rep.cvDistortions = dist.take 5 := by
  obtain ⟨d, F, intr, found, c, r, hset, h1, h2, h3, rfl⟩ := (intrinsicMain_ok_iff W hp cv s3 s rep).1 h
  obtain ⟨⟨js, hs⟩, hfront⟩ := C110_partial _ _ _ h1
  unfold cvCalibration at h2
  rw [Res.bind_ok_iff] at h2
  obtain ⟨⟨K, dist⟩, h2, h4⟩ := h2
  cases h4
  refine ⟨d, F, intr, js, found.1, r, found.2, K, dist, hset, hs, h3, ⟨rfl, rfl, rfl, rfl, rfl, ?_⟩, hfront, ?_, rfl, rfl⟩
  · intro c
    simp only [List.mem_filter, decide_eq_true_eq, gt_iff_lt]
  · exact h2

theorem validationMain_ok_iff (W : ToolWorld Img) (hp : ProperParams W.param) (s3 : Ceres V3) (b : Bool) :
    validationMain W s3 = .ok (some b) ↔ ∃ d F intr X Y, ValidationSetup W d F intr X Y ∧
      validationTool (plainEnv F) s3 intr X Y d = .ok b := by
  unfold validationMain
  rw [toolExit_ok]
  simp only [Res.bind_ok_iff, getString_ok_iff, (C106_partial W.codec W.fs _).2, loadFinder_ok_iff, intrParam_ok_iff hp,
    poseParam_ok_iff hp]
  constructor
  · rintro ⟨path, h1, d, h2, F, h3, i, h4, Y, h5, X, h6, h7⟩
    exact ⟨d, F, i, X, Y, ⟨⟨path, h1, h2⟩, h3, h4, h6, h5⟩, h7⟩
  · rintro ⟨d, F, i, X, Y, ⟨⟨path, h1, h2⟩, h3, h4, h6, h5⟩, h7⟩
    exact ⟨path, h1, d, h2, F, h3, i, h4, Y, h5, X, h6, h7⟩

/-- Whenever the validation tool ends with success on a data set with at least one usable image, its verdict is about exactly the
images in which the target is found and can be drawn: for each of them the two halves of the correspondences are fitted with the
intrinsic parameters of the parameter, starting from the pose that follows from the wrist pose recorded with the image and the two
pose parameters; the calibration is called valid exactly if mean plus two standard deviations of the differences stay within one
millimetre and 0.05 degrees. -/
theorem C190_validation (W : ToolWorld Img) (hp : ProperParams W.param) (s3 : Ceres V3) (b : Bool)
    (h : validationMain W s3 = .ok (some b)) :
    ∃ d F intr X Y, ValidationSetup W d F intr X Y ∧
      ((∀ T ∈ d.poses, RigidMotion T) → d.images.length < 2 ^ 64 → (∃ i o, ValidationItem (plainEnv F) d i o) →
      ∃ js obs evals, SelectedAt d.images.length (ValidationItem (plainEnv F) d) js obs ∧
      List.Forall₂ (fun o e => ∃ G, (o.toCameraMount * X) * G = Y ∧ virtualTargetDiff s3 o.corrs intr G 1 = .ok e) obs evals ∧
      ∃ pm ps am as, MeanStdev (evals.map (·.positionalError)) pm ps ∧ MeanStdev (evals.map (·.angularError)) am as ∧
        (b = true ↔ pm + 2 * ps ≤ 0.001 ∧ am + 2 * as ≤ 0.05 * Real.pi / 180)) := by
  obtain ⟨d, F, intr, X, Y, hset, h⟩ := (validationMain_ok_iff W hp s3 b).1 h
  refine ⟨d, F, intr, X, Y, hset, fun hrig hlen hus => ?_⟩
  have hX : RigidMotion X := C82_parameters _ _ ((poseParam_ok_iff hp _ _).2 hset.camera)
  obtain ⟨js, obs, evals, h1, h2, h3⟩ := C104_partial _ s3 intr X Y d hX hrig hlen b hus h
  refine ⟨js, obs, evals, h1, ?_, h3⟩
  refine Forall₂.imp_mem h2 ?_
  rintro o ho e ⟨G, hG, he⟩
  refine ⟨G, ?_, he⟩
  obtain ⟨j, -, m, fs, -, -, -, -, -, -, h1⟩ := Forall₂.mem_right h1.2.2 ho
  apply Iso.ext_apply
  intro p
  have := hG p
  rw [h1, Iso.apply_one, Iso.apply_one] at this
  rw [← this, Iso.apply_mul, Iso.apply_mul]

theorem noiseNames_ok_iff (root : Yaml) (names : List String) : noiseNames root = .ok names ↔ ListsImages root names := by
  have hentry : ∀ i n, ((root.idx i).bind fun e => ((e.getD .null).keyN "image").bind Yaml.asString) = .ok n ↔
      ∃ l sc, EntryAt root i (.map l) ∧ l.lookup "image" = some (.scalar sc) ∧ sc.text = n := by
    intro i n
    have hkey : ∀ e : Yaml, ((e.keyN "image").bind Yaml.asString) = .ok n ↔
        ∃ l sc, e = .map l ∧ l.lookup "image" = some (.scalar sc) ∧ sc.text = n := by
      intro e
      cases e with
      | map l =>
        simp only [Yaml.keyN, Res.ok_bind]
        cases hl : l.lookup "image" with
        | none => simp [Yaml.asString, hl]
        | some v => cases v <;> simp [Yaml.asString, hl]
      | _ => simp [Yaml.keyN, Yaml.asString]
    simp only [Res.bind_ok_iff, hkey]
    unfold EntryAt
    have hg : ∀ (o : Option Yaml) l, o.getD .null = .map l ↔ o = some (.map l) := by
      intro o l; cases o <;> simp
    cases root with
    | seq l => simp [Yaml.idx, hg]
    | map l => simp [Yaml.idx, hg]
    | _ => simp [Yaml.idx]
  unfold noiseNames ListsImages
  rw [Res.mapList_ok_iff, List.forall₂_iff_get]
  simp only [List.length_range, List.get_eq_getElem, List.getElem_range, hentry]
  constructor
  · rintro ⟨h1, h2⟩
    refine ⟨h1.symm, fun i n hn => ?_⟩
    obtain ⟨hi, rfl⟩ := List.getElem?_eq_some_iff.1 hn
    exact h2 i (by omega) hi
  · rintro ⟨h1, h2⟩
    exact ⟨h1.symm, fun i hi hi' => h2 i _ (List.getElem?_eq_getElem hi')⟩

theorem loadYaml_ok_iff (fs : FS Img) (path : String) (y : Yaml) : loadYaml fs path = .ok y ↔ fs.files path = some (.yaml y) := by
  unfold loadYaml
  split <;> simp_all

theorem noiseMain_ok_iff (W : ToolWorld Img) (hp : ProperParams W.param) (read : String → Img) (svd : SvdU0) (s3 : Ceres V3)
    (r : NoiseStat) : noiseMain W read svd s3 = .ok (some r) ↔ ∃ files F intr guess obs, NoiseSetup W files F intr guess ∧
      noiseCollect (plainEnv F) read files = .ok obs ∧
      qualifyNoise2 s3 svd (obs.map fun cs => { intr := intr, correspondences := cs, guess := guess }) = .ok r := by
  unfold noiseMain
  rw [toolExit_ok]
  simp only [Res.bind_ok_iff, getString_ok_iff, loadFinder_ok_iff, intrParam_ok_iff hp, poseParam_ok_iff hp, loadYaml_ok_iff,
    noiseNames_ok_iff]
  constructor
  · rintro ⟨dir, h1, list, h2, F, h3, i, h4, g, h5, root, h6, names, h7, obs, h8, h9⟩
    exact ⟨_, F, i, g, obs, ⟨h3, h4, h5, dir, list, root, names, h1, h2, h6, h7, rfl⟩, h8, h9⟩
  · rintro ⟨_, F, i, g, obs, ⟨h3, h4, h5, dir, list, root, names, h1, h2, h6, h7, rfl⟩, h8, h9⟩
    exact ⟨dir, h1, list, h2, F, h3, i, h4, g, h5, root, h6, names, h7, obs, h8, h9⟩

/-- **Full statement for the noise tool:** the printed statistics are those of the poses fitted to the listed images in which the
target is found. Proved if all listed files hold the same image. Missing: different images (`C190_noise_negation`). -/
theorem C190_noise_partial (W : ToolWorld Img) (hp : ProperParams W.param) (read : String → Img) (svd : SvdU0) (s3 : Ceres V3)
    (r : NoiseStat) (h : noiseMain W read svd s3 = .ok (some r)) :
    ∃ files F intr guess, NoiseSetup W files F intr guess ∧ ∀ m, (∀ name ∈ files, read name = m) →
      ∃ js obs, SelectedAt files.length (NoiseItem (plainEnv F) read files) js obs ∧
        qualifyNoise2 s3 svd (obs.map fun cs => { intr := intr, correspondences := cs, guess := guess }) = .ok r := by
  obtain ⟨files, F, i, g, obs, hset, h1, h2⟩ := (noiseMain_ok_iff W hp read svd s3 r).1 h
  refine ⟨files, F, i, g, hset, fun m hm => ?_⟩
  obtain ⟨js, hs⟩ := C86_partial _ read files obs h1 m hm
  exact ⟨js, obs, hs, h2⟩

theorem accMean_replicate (n : Nat) (x : ℝ) : accMean (List.replicate (n + 1) x) = some x := by
  obtain ⟨m, d, hm, -, h1, -⟩ := (componentReport (List.replicate (n + 1) x)).2 (by simp)
  rw [hm]
  simp only [List.length_replicate, List.sum_replicate, nsmul_eq_mul] at h1
  have : ((n + 1 : ℕ) : ℝ) ≠ 0 := by positivity
  rw [mul_comm m] at h1
  rw [mul_left_cancel₀ this h1]

theorem accVar_replicate (n : Nat) (x : ℝ) : (accVar (List.replicate (n + 1) x)).map Real.sqrt = some 0 := by
  obtain ⟨m, d, hm, hd, h1, -, h3⟩ := (componentReport (List.replicate (n + 1) x)).2 (by simp)
  rw [accMean_replicate] at hm
  cases hm
  rw [hd]
  simp only [List.length_replicate, List.map_replicate, sub_self, List.sum_replicate] at h3
  have : ((n + 1 : ℕ) : ℝ) ≠ 0 := by positivity
  rw [nsmul_eq_mul, zero_pow two_ne_zero, mul_zero] at h3
  have hd0 : d = 0 := by
    rcases mul_eq_zero.1 h3 with h | h
    · exact pow_eq_zero_iff (two_ne_zero) |>.1 h
    · exact absurd h this
  rw [hd0]

theorem convergedPoses_replicate {π : Type} {run : π → Res PnPResult} {p : π} {n : Nat} {ts : List Iso}
    (h : ConvergedPoses run (List.replicate n p) ts) : ts = [] ∨ ∃ r, run p = .ok r ∧ r.converged = true ∧
      ts = List.replicate n r.cameraToTarget := by
  obtain ⟨rs, hrs, rfl⟩ := h
  cases n with
  | zero => cases hrs; exact .inl rfl
  | succ n =>
    obtain ⟨r, hr⟩ : ∃ r, run p = .ok r := by
      rw [List.replicate_succ] at hrs
      cases hrs with
      | cons h _ => exact ⟨_, h⟩
    have hall : rs = List.replicate (n + 1) r := by
      rw [List.eq_replicate_iff]
      refine ⟨by simpa using hrs.length_eq.symm, fun b hb => ?_⟩
      obtain ⟨q, hq, hqb⟩ := Forall₂.mem_right hrs hb
      rw [(List.mem_replicate.1 hq).2, hr] at hqb
      exact (Res.ok.inj hqb).symm
    rw [hall]
    by_cases hc : r.converged = true
    · exact .inr ⟨r, hr, hc, by simp [hc]⟩
    · exact .inl (by simp [hc])

/-- The tool reads only the first listed image. Whatever the other images show, it prints the position fitted to the first one as mean
and zero as standard deviation, for any number of images; or no mean but still zero as standard deviation, if nothing is fitted. -/
theorem C190_noise_negation (W : ToolWorld Img) (hp : ProperParams W.param) (read : String → Img) (svd : SvdU0) (s3 : Ceres V3)
    (r : NoiseStat) (h : noiseMain W read svd s3 = .ok (some r)) :
    (r.meanX = none ∧ r.stdevX = some 0 ∧ r.meanY = none ∧ r.stdevY = some 0 ∧ r.meanZ = none ∧ r.stdevZ = some 0) ∨
    ∃ files F intr guess cs res, NoiseSetup W files F intr guess ∧ NoiseItem (plainEnv F) read files 0 cs ∧
      pnp2 s3 { intr := intr, correspondences := cs, guess := guess } = .ok res ∧
      r.meanX = some res.cameraToTarget.t.x ∧ r.meanY = some res.cameraToTarget.t.y ∧ r.meanZ = some res.cameraToTarget.t.z ∧
      r.stdevX = some 0 ∧ r.stdevY = some 0 ∧ r.stdevZ = some 0 := by
  obtain ⟨files, F, i, g, obs, hset, h1, h2⟩ := (noiseMain_ok_iff W hp read svd s3 r).1 h
  obtain ⟨ts, hts, rfl⟩ := qualifyNoise_ok.1 h2
  have hnone : ts = [] → accMean (ts.map (·.t.x)) = none ∧ (accVar (ts.map (·.t.x))).map Real.sqrt = some 0 ∧
      accMean (ts.map (·.t.y)) = none ∧ (accVar (ts.map (·.t.y))).map Real.sqrt = some 0 ∧
      accMean (ts.map (·.t.z)) = none ∧ (accVar (ts.map (·.t.z))).map Real.sqrt = some 0 := by
    rintro rfl
    simp [accMean, accVar]
  cases files with
  | nil =>
    cases h1
    obtain ⟨rs, hrs, rfl⟩ := hts
    cases hrs
    exact .inl (hnone rfl)
  | cons name0 names =>
    rcases noise_ok _ read name0 names obs h1 with ⟨rfl, -⟩ | ⟨cs, h0, rfl⟩
    · obtain ⟨rs, hrs, rfl⟩ := hts
      cases hrs
      exact .inl (hnone rfl)
    · rw [List.map_replicate] at hts
      rcases convergedPoses_replicate hts with rfl | ⟨res, hr, -, rfl⟩
      · exact .inl (hnone rfl)
      · refine .inr ⟨_, F, i, g, cs, res, hset, h0, hr, ?_⟩
        simp only [List.map_replicate, List.length_cons, accMean_replicate, accVar_replicate, and_self]

theorem solvePnpGuess_eq : solvePnpGuess = ⟨⟨1, 0, 0, 0, -1, 0, 0, 0, -1⟩, ⟨0, 0, 1 / 10⟩⟩ := by
  unfold solvePnpGuess
  rw [Iso.one_mul, Iso.mul_def]
  simp only [M3.one_mul]
  congr 1
  · ext <;> simp [AngleAxis.toMat]
  · ext <;> simp [M3.mulVec]

/-- The PnP tool prints two poses exactly if parameters and plugin can be loaded and the target is found, drawn and paired in the image
the parameter names: the pose of OpenCV and the result of the optimisation for the same correspondences and the intrinsic
parameters of the parameter, started from the pose 0.1 metres in front of the camera and turned by half a turn. -/
theorem C190_pnp (W : ToolWorld Img) (hp : ProperParams W.param) (read : String → Img) (cv : CvSolvePnP) (s3 : Ceres V3) (T : Iso)
    (r : PnPResult) : solvePnpTool W read cv s3 = .ok (some (T, r)) ↔
      ∃ path intr F fs cs, W.param "image_path" = some (.string path) ∧ IntrinsicsParam (W.param "intrinsics") intr ∧ FinderParam W F ∧
        F.find (read path) = .ok fs ∧ fs ≠ [] ∧ F.draw (read path) fs = .ok () ∧ F.create fs = .ok cs ∧ T = solveCvPnP cv intr cs ∧
        pnp2 s3 { intr := intr, correspondences := cs, guess := ⟨⟨1, 0, 0, 0, -1, 0, 0, 0, -1⟩, ⟨0, 0, 1 / 10⟩⟩ } = .ok r := by
  have hload : ∀ x : String × Intr × Finder Img, (toolExit <| (getString (W.param "image_path")).bind fun path =>
      (loadIntrParam (W.param "intrinsics")).bind fun intr => (loadFinder W).bind fun F => .ok (path, intr, F)) = .ok (some x) ↔
      W.param "image_path" = some (.string x.1) ∧ IntrinsicsParam (W.param "intrinsics") x.2.1 ∧ FinderParam W x.2.2 := by
    intro x
    rw [toolExit_ok]
    simp only [Res.bind_ok_iff, getString_ok_iff, loadFinder_ok_iff, intrParam_ok_iff hp, Res.ok.injEq]
    constructor
    · rintro ⟨a, h1, b, h2, c, h3, rfl⟩; exact ⟨h1, h2, h3⟩
    · rintro ⟨h1, h2, h3⟩; exact ⟨_, h1, _, h2, _, h3, rfl⟩
  have hg : ∀ intr cs, solvePnpProblem intr cs =
      { intr := intr, correspondences := cs, guess := ⟨⟨1, 0, 0, 0, -1, 0, 0, 0, -1⟩, ⟨0, 0, 1 / 10⟩⟩ } := by
    intro intr cs
    unfold solvePnpProblem
    rw [solvePnpGuess_eq]
  unfold solvePnpTool
  rw [Res.bind_ok_iff]
  constructor
  · rintro ⟨o, ho, h⟩
    match o, ho, h with
    | some (path, intr, F), ho, h =>
      obtain ⟨h1, h2, h3⟩ := (hload _).1 ho
      obtain ⟨fs, cs, k1, k2, k3, k4, k5, k6⟩ := (C163_main _ _ _ _ _ _ _).1 h
      exact ⟨path, intr, F, fs, cs, h1, h2, h3, k1, k2, k3, k4, k5, by rw [← hg]; exact k6⟩
  · rintro ⟨path, intr, F, fs, cs, h1, h2, h3, k1, k2, k3, k4, k5, k6⟩
    refine ⟨some (path, intr, F), (hload (path, intr, F)).2 ⟨h1, h2, h3⟩, ?_⟩
    exact (C163_main _ _ _ _ _ _ _).2 ⟨fs, cs, k1, k2, k3, k4, k5, by rw [hg]; exact k6⟩

/-! ## C191 How these tools end -/

theorem pnp2_empty (s : Ceres V3) (p : PnPProblem Corr2) (h : p.correspondences = []) : pnp2 s p = .abort := by
  unfold pnp2 pnpFinish pnpBuild2
  rw [h]
  simp only [List.map_nil]
  rw [computeCovariance_abort]
  · rfl
  · rfl
  · intro b hb
    simp only [List.mem_cons, List.not_mem_nil, or_false] at hb
    rcases hb with rfl | rfl <;> exact ⟨_, rfl, .inl (by simp [Ceres.covSolver, usedBlocks])⟩
  · exact ⟨pnpRot, by simp, by simp [Ceres.covSolver, usedBlocks]⟩

theorem orderly_intrinsic {s3 : Ceres V3} {s : Ceres Mem} (hs : OrderlyCeres s) (p : IntrinsicProblem) (h0 : p.observations ≠ [])
    (h1 : ∀ obs ∈ p.observations, obs ≠ [] ∧ ∃ q, intrSolvePnP s3 p.guess obs guessInitialPose = .ok q) :
    Orderly (intrinsic s3 s p) := by
  obtain ⟨poses, hp⟩ : ∃ poses, intrPoses s3 p = .ok poses := by
    refine Res.mapList_returns fun obs ho => ?_
    obtain ⟨-, q, hq⟩ := h1 obs ho
    exact ⟨some q, by rw [hq]⟩
  have hused : ∀ b ∈ intrBlk :: (List.range p.observations.length).map poseBlk, b ∈ usedBlocks (intrBuild p poses) := by
    have key : ∀ i < p.observations.length, ∃ k, (i, k) ∈ usableFeatures p.observations (validIdx poses) := by
      intro i hi
      obtain ⟨hne, q, hq⟩ := h1 p.observations[i] (List.getElem_mem hi)
      obtain ⟨k, l, hkl⟩ := List.exists_cons_of_ne_nil hne
      refine ⟨k, ?_⟩
      simp only [usableFeatures, List.mem_flatMap, List.mem_map]
      refine ⟨i, ((C43_partial s3 p poses hp).2.1 i).2 ⟨_, q, List.getElem?_eq_getElem hi, hq⟩, k, ?_, rfl⟩
      simp [List.getD_eq_getElem?_getD, List.getElem?_eq_getElem hi, hkl]
    intro b hb
    rw [mem_usedBlocks, intrBuild_eq]
    simp only [List.mem_cons, List.mem_map, List.mem_range] at hb
    rcases hb with rfl | ⟨i, hi, rfl⟩
    · obtain ⟨k, hk⟩ := key 0 (List.length_pos_iff.2 h0)
      exact ⟨_, List.mem_map.2 ⟨_, hk, rfl⟩, by simp⟩
    · obtain ⟨k, hk⟩ := key i hi
      exact ⟨_, List.mem_map.2 ⟨_, hk, rfl⟩, by simp⟩
  have hnd : (intrBlk :: (List.range p.observations.length).map poseBlk).Nodup := by
    rw [List.nodup_cons]
    refine ⟨by simp [intrBlk, poseBlk], (List.nodup_range).map fun a b h => poseBlk_inj _ _ h⟩
  unfold intrinsic
  rw [hp, Res.ok_bind]
  exact Spec.Orderly.bind (orderly_covariance _ _ (fun b hb => by simp [Ceres.covSolverF, hused b hb])
    (hs.compute _ _ _ hnd hused)) fun _ _ => orderly_ok _

theorem orderly_findDraw {F : Finder Img} (hF : OrderlyFinder F) (m : Img) :
    Orderly ((F.find m).bind fun fs => if fs.isEmpty then .throw .runtimeError else (F.draw m fs).bind fun _ => .ok fs) :=
  (hF.find m).bind fun fs _ => by
    split_ifs
    · exact orderly_throw _
    · exact (hF.draw m fs).bind fun _ _ => orderly_ok _

theorem orderly_validationCollect {F : Finder Img} (hF : OrderlyFinder F) {d : DataSet Img} (hlen : d.images.length ≤ d.poses.length) :
    Orderly (validationCollect (plainEnv F) d) := by
  refine orderly_foldList (fun s i hi => ?_) _
  have hi : i < d.images.length := by simpa using hi
  unfold validationStep
  rw [collectIdx_lt hi, Res.ok_bind]
  have h : Orderly (((plainEnv F).find d.images[i]).bind fun fs => if fs.isEmpty then .throw .runtimeError else
    ((plainEnv F).draw d.images[i] fs).bind fun _ => .ok fs) := orderly_findDraw hF _
  rcases h with ⟨fs, ha⟩ | ⟨e, ha⟩ <;> rw [ha]
  · simp only
    rw [collectIdx_lt (by omega : i < d.poses.length), Res.ok_bind]
    exact (hF.create fs).bind fun cs _ => orderly_ok _
  · simp only
    split_ifs
    · exact orderly_ok _
    · exact orderly_throw _

theorem orderly_noiseCollect {F : Finder Img} (hF : OrderlyFinder F) (read : String → Img) (names : List String) :
    Orderly (noiseCollect (plainEnv F) read names) := by
  refine Spec.Orderly.bind (orderly_foldList (fun s i hi => ?_) _) fun _ _ => orderly_ok _
  have hi : i < names.length := by simpa using hi
  unfold noiseStep
  rw [collectIdx_lt hi, Res.ok_bind]
  have h : Orderly (((plainEnv F).find (s.1.getD (read names[i]))).bind fun fs => if fs.isEmpty then .throw .runtimeError else
    ((plainEnv F).draw (s.1.getD (read names[i])) fs).bind fun _ => .ok fs) := orderly_findDraw hF _
  rcases h with ⟨fs, ha⟩ | ⟨e, ha⟩ <;> simp only [ha]
  · exact (hF.create fs).bind fun cs _ => orderly_ok _
  · split_ifs
    · exact orderly_ok _
    · exact orderly_throw _

theorem orderly_intrinsicCollect {F : Finder Img} (hF : OrderlyFinder F) {d : DataSet Img} (hne : d.images ≠ []) :
    Orderly (intrinsicCollect (plainEnv F) d) := by
  refine Spec.Orderly.bind (orderly_foldList (fun s i hi => ?_) _) fun _ _ => ?_
  · have hi : i < d.images.length := by simpa using hi
    unfold intrinsicStep
    rw [collectIdx_lt hi, Res.ok_bind]
    have h : Orderly (((plainEnv F).find d.images[i]).bind fun fs => if fs.isEmpty then .throw .runtimeError else
        ((plainEnv F).create fs).bind fun cs => .ok (fs, cs)) := by
      refine Spec.Orderly.bind (hF.find _) fun fs _ => ?_
      split_ifs
      · exact orderly_throw _
      · exact Spec.Orderly.bind (hF.create fs) fun _ _ => orderly_ok _
    rcases h with ⟨⟨fs, cs⟩, ha⟩ | ⟨e, ha⟩ <;> rw [ha]
    · exact Spec.Orderly.bind (hF.draw _ fs) fun cs _ => orderly_ok _
    · simp only
      split_ifs
      · exact orderly_ok _
      · exact orderly_throw _
  · rw [collectIdx_lt (List.length_pos_of_ne_nil hne)]
    exact orderly_ok _

theorem orderly_virtualPnp {s : Ceres V3} (hs : OrderlyCeres s) (intr : Intr) (G : Iso) (thr : ℝ) {cs : List Corr2} (hne : cs ≠ []) :
    Orderly (virtualPnp s intr G thr cs) := by
  unfold virtualPnp
  refine (orderly_pnp2 hs _ hne).bind fun r _ => ?_
  split_ifs
  · exact orderly_throw _
  · exact orderly_ok _

theorem orderly_accuracy {s : Ceres V3} (hs : OrderlyCeres s) {obs : List (Obs Corr2)} (hne : obs ≠ []) (hlen : obs.length < 2 ^ 64)
    (htwo : ∀ o ∈ obs, 2 ≤ o.corrs.length) (intr : Intr) (mc mt bb : Iso) (thr : ℝ) :
    Orderly (intrinsicAccuracy s obs intr mc mt bb thr) := by
  unfold intrinsicAccuracy
  have hpos := List.length_pos_of_ne_nil hne
  have hsz : szSub obs.length 1 = obs.length - 1 := by unfold szSub; omega
  refine Spec.Orderly.bind (orderly_foldList (fun u i hi => ?_) _) fun _ _ => Spec.Orderly.bind (orderly_mapList fun o ho => ?_)
    fun _ _ => orderly_ok _
  · rw [hsz, List.mem_range] at hi
    rw [collectIdx_lt (by omega : i < obs.length), Res.ok_bind, collectIdx_lt (by omega : i + 1 < obs.length), Res.ok_bind]
    split_ifs
    · exact orderly_throw _
    · exact orderly_ok _
  · have h2 := htwo o ho
    unfold virtualTargetDiff
    refine (orderly_virtualPnp hs _ _ _ ?_).bind fun _ _ => (orderly_virtualPnp hs _ _ _ ?_).bind fun _ _ => orderly_ok _
    · intro h
      have := congrArg List.length h
      rw [List.length_take, List.length_nil] at this
      omega
    · intro h
      have := congrArg List.length h
      rw [List.length_drop, List.length_nil] at this
      omega

theorem finder_orderly {W : ToolWorld Img} (hW : OrderlyWorld W) {F : Finder Img} (hF : loadFinder W = .ok F) : OrderlyFinder F := by
  obtain ⟨l, type, init, y, -, -, hpl, -, hinit⟩ := (loadFinder_ok_iff W F).1 hF
  exact hW.finder type init y F hpl hinit

/- C191, full statement: for all parameters and files, with plugins that only return or throw, a solver whose covariance
computation reports success or failure and a `cv::calibrateCamera` that returns or throws, the four tools end with exit code 0 or -1.
They do not: a parameter `target_finder` of the wrong shape (`…_negation_finder`), a finder that makes too few correspondences
(`…_negation_features`), an empty data set (`C191_intrinsic_negation_empty`), a single image for which PnP does not converge
(`C191_intrinsic_negation_pnp`) or a data set in which no target is found (`C191_validation_negation_unusable`) end the process or
make its behaviour undefined. -/

/-- The PnP tool ends with an exit code. Missing: parameters `target_finder` that raise exceptions of XmlRpc, finders that make no
correspondences. -/
theorem C191_pnp_partial (W : ToolWorld Img) (hW : OrderlyWorld W) (hf : ¬ FinderCrash W) (read : String → Img) (cv : CvSolvePnP)
    (s3 : Ceres V3) (hs3 : OrderlyCeres s3) (hmake : ∀ F, FinderParam W F → MakesAtLeast 1 F) :
    ∃ o, solvePnpTool W read cv s3 = .ok o := by
  have hload : Orderly ((getString (W.param "image_path")).bind fun path =>
      (loadIntrParam (W.param "intrinsics")).bind fun intr => (loadFinder W).bind fun F => .ok (path, intr, F)) :=
    (orderly_getString _).bind fun path _ => (orderly_loadIntrParam _).bind fun i _ => ((loadFinder_outcome W hW).1 hf).bind fun F _ =>
      orderly_ok _
  unfold solvePnpTool
  rcases hload with ⟨⟨path, i, F⟩, h⟩ | ⟨e, h⟩ <;> rw [h]
  · simp only [Res.bind_ok_iff] at h
    obtain ⟨_, -, _, -, F', hF, h⟩ := h
    cases h
    have hof := finder_orderly hW hF
    have hm := hmake F ((loadFinder_ok_iff W F).1 hF)
    show ∃ o, solvePnpMain _ _ _ _ _ = .ok o
    unfold solvePnpMain
    have : Orderly ((F.find (read path)).bind fun fs => if fs.isEmpty then .throw .runtimeError else
        (F.draw (read path) fs).bind fun _ => (F.create fs).bind fun cs => (F.create fs).bind fun cs' =>
        (pnp2 s3 (solvePnpProblem i cs')).bind fun r => .ok (some (solveCvPnP cv i cs, r))) := by
      refine (hof.find _).bind fun fs hfs => ?_
      split_ifs with he
      · exact orderly_throw _
      · refine (hof.draw _ _).bind fun _ _ => (hof.create _).bind fun cs hcs => (hof.create _).bind fun cs' hcs' =>
          (orderly_pnp2 hs3 _ ?_).bind fun _ _ => orderly_ok _
        have := hm _ fs cs' hfs (by simpa using he) hcs'
        exact List.ne_nil_of_length_pos (by show 0 < cs'.length; omega)
    rcases this with ⟨o, ho⟩ | ⟨e, ho⟩
    · exact ⟨o, by simp only [ho]; rfl⟩
    · exact ⟨none, by simp only [ho]; rfl⟩
  · exact ⟨none, rfl⟩

/-- The noise tool ends with an exit code. Missing: parameters `target_finder` that raise exceptions of XmlRpc, finders that make no
correspondences. -/
theorem C191_noise_partial (W : ToolWorld Img) (hW : OrderlyWorld W) (hf : ¬ FinderCrash W) (read : String → Img) (svd : SvdU0)
    (s3 : Ceres V3) (hs3 : OrderlyCeres s3) (hmake : ∀ F, FinderParam W F → MakesAtLeast 1 F) :
    ∃ o, noiseMain W read svd s3 = .ok o := by
  unfold noiseMain
  refine orderly_toolExit ((orderly_getString _).bind fun path _ => (orderly_getString _).bind fun file _ =>
    ((loadFinder_outcome W hW).1 hf).bind fun F hF => (orderly_loadIntrParam _).bind fun i _ => (orderly_loadPoseParam _).bind fun G _ =>
    (orderly_loadYaml _ _).bind fun root _ => Spec.Orderly.bind ?_ fun names _ => ?_)
  · refine orderly_mapList fun i _ => Spec.Orderly.bind ?_ fun e _ => Spec.Orderly.bind ?_ fun y _ => orderly_asString _
    · unfold Yaml.idx
      split <;> first | exact orderly_ok _ | exact orderly_throw _
    · unfold Yaml.keyN
      split <;> first | exact orderly_ok _ | exact orderly_throw _
  · have hof := finder_orderly hW hF
    have hm := hmake F ((loadFinder_ok_iff W F).1 hF)
    refine (orderly_noiseCollect hof read _).bind fun obs hobs => ?_
    unfold qualifyNoise2 qualifyNoise
    refine Spec.Orderly.bind (orderly_foldList (fun acc q hq => ?_) _) fun _ _ => orderly_ok _
    refine (orderly_pnp2 hs3 _ ?_).bind fun r _ => by split_ifs <;> exact orderly_ok _
    obtain ⟨cs, hcs, rfl⟩ := List.mem_map.1 hq
    show cs ≠ []
    obtain ⟨fs, m, h1, h2, h3⟩ : ∃ fs m, F.find m = .ok fs ∧ fs ≠ [] ∧ F.create fs = .ok cs := by
      generalize hfiles : (names.map fun n => path ++ "/" ++ n) = files at hobs
      cases files with
      | nil => cases hobs; cases hcs
      | cons n0 ns =>
        rcases noise_ok _ read n0 ns obs hobs with ⟨rfl, -⟩ | ⟨cs', ⟨name, fs, -, k1, k2, -, k3⟩, rfl⟩
        · cases hcs
        · rw [(List.mem_replicate.1 hcs).2]
          exact ⟨fs, _, k1, k2, k3⟩
    have := hm _ _ _ h1 h2 h3
    exact List.ne_nil_of_length_pos (by omega)

/-- The validation tool ends with an exit code. Missing: parameters `target_finder` that raise exceptions of XmlRpc, finders that
make fewer than two correspondences, data sets without a usable image. -/
theorem C191_validation_partial (W : ToolWorld Img) (hW : OrderlyWorld W) (hf : ¬ FinderCrash W) (s3 : Ceres V3)
    (hs3 : OrderlyCeres s3) (hmake : ∀ F, FinderParam W F → MakesAtLeast 2 F)
    (husable : ∀ d F, DataParam W (W.param "data_path") d → FinderParam W F →
      d.images.length < 2 ^ 64 ∧ ∃ i o, ValidationItem (plainEnv F) d i o) :
    ∃ o, validationMain W s3 = .ok o := by
  unfold validationMain
  refine orderly_toolExit ((orderly_getString _).bind fun path hpath => (orderly_loadChecked _ _ _).bind fun d hd =>
    ((loadFinder_outcome W hW).1 hf).bind fun F hF => (orderly_loadIntrParam _).bind fun i _ => (orderly_loadPoseParam _).bind fun Y _ =>
    (orderly_loadPoseParam _).bind fun X _ => ?_)
  have hd' := ((C106_partial _ _ _).2 d).1 hd
  obtain ⟨-, h1, h2⟩ := loaded_records hd'
  have hof := finder_orderly hW hF
  have hm := hmake F ((loadFinder_ok_iff W F).1 hF)
  obtain ⟨hlen, j, o, hj⟩ := husable d F ⟨path, (getString_ok_iff _ _).1 hpath, hd'⟩ ((loadFinder_ok_iff W F).1 hF)
  unfold validationTool
  refine Spec.Orderly.bind (orderly_validationCollect hof (by omega)) fun obs hobs => ?_
  obtain ⟨js, hs⟩ := C104_observations_partial _ d obs hobs
  have hlenobs : obs.length ≤ d.images.length := by
    have h1 := hs.2.2.length_eq
    have h2 : js.Nodup := hs.1.imp fun h => Nat.ne_of_lt h
    have h3 : js ⊆ List.range d.images.length := fun j hj => List.mem_range.2 ((hs.2.1 j).1 hj).1
    have h4 := (h2.subperm h3).length_le
    rw [List.length_range] at h4
    omega
  refine Spec.Orderly.bind (orderly_accuracy hs3 ?_ (by omega) ?_ _ _ _ _ _) fun _ _ => orderly_ok _
  · rintro rfl
    obtain ⟨m, fs, hjm, -⟩ := id hj
    have hmem := (hs.2.1 j).2 ⟨(List.getElem?_eq_some_iff.1 hjm).1, o, hj⟩
    cases hs.2.2
    cases hmem
  · intro o ho
    obtain ⟨j, -, m, fs, -, k1, k2, -, k3, -⟩ := Forall₂.mem_right hs.2.2 ho
    exact hm m fs _ k1 k2 k3

/-- The intrinsic calibration tool ends with an exit code. Missing: parameters `target_finder` that raise exceptions of XmlRpc,
finders that make no correspondences, empty data sets, images for which PnP does not converge. -/
theorem C191_intrinsic_partial (W : ToolWorld Img) (hW : OrderlyWorld W) (hf : ¬ FinderCrash W) (cv : CvCalibrate Img)
    (hcv : OrderlyCalibrate cv) (s3 : Ceres V3) (s : Ceres Mem) (hs : OrderlyCeres s)
    (hmake : ∀ F, FinderParam W F → MakesAtLeast 1 F) (hdata : ∀ d, DataParam W (W.param "data_path") d → d.images ≠ [])
    (hpnp : ∀ d F intr i cs, IntrinsicSetup W d F intr → IntrinsicItem (plainEnv F) d.images i cs →
      ∃ r, pnp2 s3 { intr := intr, correspondences := cs, guess := facingPose } = .ok r ∧ r.converged = true)
    (hp : ProperParams W.param) :
    ∃ o, intrinsicMain W cv s3 s = .ok o := by
  unfold intrinsicMain
  refine orderly_toolExit ((orderly_getString _).bind fun path hpath => (orderly_loadChecked _ _ _).bind fun d hd =>
    ((loadFinder_outcome W hW).1 hf).bind fun F hF => (orderly_loadIntrParam _).bind fun i hi => ?_)
  have hd' := ((C106_partial _ _ _).2 d).1 hd
  have hof := finder_orderly hW hF
  have hset : IntrinsicSetup W d F i := ⟨⟨path, (getString_ok_iff _ _).1 hpath, hd'⟩, (loadFinder_ok_iff W F).1 hF,
    (intrParam_ok_iff hp _ _).1 hi⟩
  refine Spec.Orderly.bind (orderly_intrinsicCollect hof (hdata d hset.data)) fun found hfound => ?_
  obtain ⟨⟨js, hsel⟩, -⟩ := C110_partial _ _ _ hfound
  refine Spec.Orderly.bind (Spec.Orderly.bind (hcv.orderly _ _ _ _) fun _ _ => orderly_ok _) fun c hc => ?_
  refine Spec.Orderly.bind (orderly_intrinsic hs _ ?_ ?_) fun _ _ => orderly_ok _
  · intro h0
    have h0 : found.1 = [] := h0
    unfold cvCalibration at hc
    rw [h0] at hc
    obtain ⟨e, he⟩ := hcv.empty found.2 (cvCameraMatrix i)
    simp only [List.map_nil, he] at hc
    cases hc
  · intro cs hcs
    obtain ⟨j, -, hj⟩ := Forall₂.mem_right hsel.2.2 hcs
    obtain ⟨r, hr, hconv⟩ := hpnp d F i j cs hset hj
    obtain ⟨m, fs, -, k1, k2, k3⟩ := hj
    have := hmake F hset.finder m fs cs k1 k2 k3
    refine ⟨List.ne_nil_of_length_pos (by omega), poseEigenToCal r.cameraToTarget, ?_⟩
    unfold intrSolvePnP
    rw [guessInitialPose_eq, hr, Res.ok_bind, if_pos hconv]

/-- A parameter `target_finder` of the wrong shape ends the process of the intrinsic calibration tool. -/
theorem C191_intrinsic_negation_finder (W : ToolWorld Img) (hW : OrderlyWorld W) (cv : CvCalibrate Img) (s3 : Ceres V3) (s : Ceres Mem)
    (d : DataSet Img) (hd : DataParam W (W.param "data_path") d) (hf : FinderCrash W) : intrinsicMain W cv s3 s = .abort := by
  obtain ⟨path, h1, h2⟩ := hd
  unfold intrinsicMain
  rw [(getString_ok_iff _ _).2 h1, Res.ok_bind, ((C106_partial _ _ _).2 d).2 h2, Res.ok_bind, (loadFinder_outcome W hW).2 hf]
  rfl

/-- The same for the validation tool. -/
theorem C191_validation_negation_finder (W : ToolWorld Img) (hW : OrderlyWorld W) (s3 : Ceres V3)
    (d : DataSet Img) (hd : DataParam W (W.param "data_path") d) (hf : FinderCrash W) : validationMain W s3 = .abort := by
  obtain ⟨path, h1, h2⟩ := hd
  unfold validationMain
  rw [(getString_ok_iff _ _).2 h1, Res.ok_bind, ((C106_partial _ _ _).2 d).2 h2, Res.ok_bind, (loadFinder_outcome W hW).2 hf]
  rfl

/-- The same for the noise tool. -/
theorem C191_noise_negation_finder (W : ToolWorld Img) (hW : OrderlyWorld W) (read : String → Img) (svd : SvdU0) (s3 : Ceres V3)
    (dir list : String) (h1 : W.param "data_path" = some (.string dir)) (h2 : W.param "data_file" = some (.string list))
    (hf : FinderCrash W) : noiseMain W read svd s3 = .abort := by
  unfold noiseMain
  rw [(getString_ok_iff _ _).2 h1, Res.ok_bind, (getString_ok_iff _ _).2 h2, Res.ok_bind, (loadFinder_outcome W hW).2 hf]
  rfl

/-- The same for the PnP tool. -/
theorem C191_pnp_negation_finder (W : ToolWorld Img) (hW : OrderlyWorld W) (hp : ProperParams W.param) (read : String → Img)
    (cv : CvSolvePnP) (s3 : Ceres V3) (path : String) (h1 : W.param "image_path" = some (.string path)) (intr : Intr)
    (h2 : IntrinsicsParam (W.param "intrinsics") intr) (hf : FinderCrash W) : solvePnpTool W read cv s3 = .abort := by
  unfold solvePnpTool
  rw [(getString_ok_iff _ _).2 h1, Res.ok_bind, (intrParam_ok_iff hp _ _).2 h2, Res.ok_bind, (loadFinder_outcome W hW).2 hf]
  rfl

/-- If the target is found in the image but no correspondences are made of its features, the process of the PnP tool ends. -/
theorem C191_pnp_negation_features (W : ToolWorld Img) (hp : ProperParams W.param) (read : String → Img) (cv : CvSolvePnP)
    (s3 : Ceres V3) (path : String) (h1 : W.param "image_path" = some (.string path)) (intr : Intr)
    (h2 : IntrinsicsParam (W.param "intrinsics") intr) (F : Finder Img) (h3 : FinderParam W F) (fs : TargetFeatures)
    (k1 : F.find (read path) = .ok fs) (k2 : fs ≠ []) (k3 : F.draw (read path) fs = .ok ()) (k4 : F.create fs = .ok []) :
    solvePnpTool W read cv s3 = .abort := by
  unfold solvePnpTool
  rw [(getString_ok_iff _ _).2 h1, Res.ok_bind, (intrParam_ok_iff hp _ _).2 h2, Res.ok_bind, (loadFinder_ok_iff W F).2 h3]
  show solvePnpMain _ _ _ _ _ = .abort
  unfold solvePnpMain
  simp only [k1, Res.ok_bind, List.isEmpty_iff, k2, if_false, k3, k4, pnp2_empty s3 (solvePnpProblem intr []) rfl]
  rfl

/-- An empty data set lets the intrinsic calibration tool read an image that does not exist. -/
theorem C191_intrinsic_negation_empty (W : ToolWorld Img) (hp : ProperParams W.param) (cv : CvCalibrate Img) (s3 : Ceres V3)
    (s : Ceres Mem) (d : DataSet Img) (F : Finder Img) (intr : Intr) (hset : IntrinsicSetup W d F intr) (hempty : d.images = []) :
    intrinsicMain W cv s3 s = .ub := by
  obtain ⟨⟨path, h1, h2⟩, h3, h4⟩ := hset
  unfold intrinsicMain
  rw [(getString_ok_iff _ _).2 h1, Res.ok_bind, ((C106_partial _ _ _).2 d).2 h2, Res.ok_bind, (loadFinder_ok_iff W F).2 h3, Res.ok_bind,
    (intrParam_ok_iff hp _ _).2 h4, Res.ok_bind]
  have : intrinsicCollect (plainEnv F) d = .ub := by
    cases d
    cases hempty
    exact C110_negation _ _
  rw [show intrinsicCollect ⟨F.find, F.create, F.draw, fun _ _ => .ok ()⟩ d = .ub from this]
  rfl

/-- One image for which PnP does not converge ends the process of the intrinsic calibration tool, whatever the other images show. -/
theorem C191_intrinsic_negation_pnp (W : ToolWorld Img) (hp : ProperParams W.param) (cv : CvCalibrate Img)
    (s3 : Ceres V3) (hs3 : OrderlyCeres s3) (s : Ceres Mem) (d : DataSet Img) (F : Finder Img) (intr : Intr)
    (hset : IntrinsicSetup W d F intr) (hmake : MakesAtLeast 1 F) (hdraw : ∀ m fs, F.draw m fs = .ok ())
    (hfind : ∀ m, ReturnsOrRuntime (F.find m)) (hcreate : ∀ fs, ReturnsOrRuntime (F.create fs))
    (hcv : ∀ pts imgs front K, pts ≠ [] → ∃ r, cv pts imgs front K = .ok r)
    (i : Nat) (cs : List Corr2) (hi : IntrinsicItem (plainEnv F) d.images i cs)
    (hbad : ∀ r, pnp2 s3 { intr := intr, correspondences := cs, guess := facingPose } = .ok r → r.converged = false) :
    intrinsicMain W cv s3 s = .abort := by
  obtain ⟨m, fs, him, -⟩ := id hi
  have hil := (List.getElem?_eq_some_iff.1 him).1
  obtain ⟨found, hfound⟩ := C110_returns_partial (plainEnv F) d (List.ne_nil_of_length_pos (by omega)) hfind hcreate hdraw
  obtain ⟨⟨js, hsel⟩, -⟩ := C110_partial _ _ _ hfound
  have hj : i ∈ js := (hsel.2.1 i).2 ⟨hil, cs, hi⟩
  obtain ⟨cs', hcs', hit⟩ := Forall₂.mem_left hsel.2.2 hj
  have : cs' = cs := by
    obtain ⟨m, fs, a1, a2, a3, a4⟩ := hi
    obtain ⟨m', fs', b1, b2, b3, b4⟩ := hit
    rw [a1] at b1; cases b1
    rw [a2] at b2; cases b2
    rw [a4] at b4; cases b4
    rfl
  subst this
  obtain ⟨⟨path, h1, h2⟩, h3, h4⟩ := hset
  unfold intrinsicMain
  rw [(getString_ok_iff _ _).2 h1, Res.ok_bind, ((C106_partial _ _ _).2 d).2 h2, Res.ok_bind, (loadFinder_ok_iff W F).2 h3, Res.ok_bind,
    (intrParam_ok_iff hp _ _).2 h4, Res.ok_bind,
    show intrinsicCollect ⟨F.find, F.create, F.draw, fun _ _ => .ok ()⟩ d = .ok found from hfound, Res.ok_bind]
  unfold cvCalibration
  obtain ⟨r, hr⟩ := hcv (found.1.map fun o => o.map fun c => c.inTarget) (found.1.map fun o => o.map fun c => c.inImage) found.2
    (cvCameraMatrix intr) (by simpa using List.ne_nil_of_mem hcs')
  rw [hr, Res.ok_bind, Res.ok_bind, C43_negation_unusable s3 s
    { observations := found.1, guess := intr } ?_ cs' hcs' hbad]
  · rfl
  · intro obs ho
    obtain ⟨j, -, m, fs, -, k1, k2, k3⟩ := Forall₂.mem_right hsel.2.2 ho
    have := hmake m fs obs k1 k2 k3
    exact orderly_pnp2 hs3 _ (List.ne_nil_of_length_pos (by show 0 < obs.length; omega))

/-- A data set in which the target is never found lets the validation tool read an observation that does not exist. -/
theorem C191_validation_negation_unusable (W : ToolWorld Img) (hp : ProperParams W.param) (s3 : Ceres V3)
    (d : DataSet Img) (F : Finder Img) (intr : Intr) (X Y : Iso) (hset : ValidationSetup W d F intr X Y)
    (hno : ∀ m, F.find m = .throw .runtimeError ∨ F.find m = .ok []) : validationMain W s3 = .ub := by
  have hd := hset.data
  obtain ⟨⟨path, h1, h2⟩, h3, h4, h5, h6⟩ := hset
  unfold validationMain
  rw [(getString_ok_iff _ _).2 h1, Res.ok_bind, ((C106_partial _ _ _).2 d).2 h2, Res.ok_bind, (loadFinder_ok_iff W F).2 h3, Res.ok_bind,
    (intrParam_ok_iff hp _ _).2 h4, Res.ok_bind, (poseParam_ok_iff hp _ _).2 h6, Res.ok_bind, (poseParam_ok_iff hp _ _).2 h5, Res.ok_bind]
  have hcol : validationCollect (plainEnv F) d = .ok [] := by
    have : ∀ l : List Nat, (∀ i ∈ l, i < d.images.length) → Res.foldList (validationStep (plainEnv F) d) [] l = .ok [] := by
      intro l
      induction l with
      | nil => intro _; rfl
      | cons i l ih =>
        intro hl
        have : validationStep (plainEnv F) d [] i = .ok [] := by
          unfold validationStep
          rw [collectIdx_lt (hl i (by simp)), Res.ok_bind]
          have hi := hl i (by simp)
          rcases hno (d.images[i]) with h | h <;>
            simp only [show (plainEnv F).find = F.find from rfl, h, Res.throw_bind, Res.ok_bind, List.isEmpty_nil, if_true] <;> rfl
        rw [Res.foldList, this, Res.ok_bind]
        exact ih fun j hj => hl j (by simp [hj])
    exact this _ fun i hi => by simpa using hi
  rw [show validationTool ⟨F.find, F.create, F.draw, fun _ _ => .ok ()⟩ s3 intr X Y d = .ub from C104_negation _ _ _ _ _ _ _ hcol (by
    rintro ⟨i, o, m, fs, -, k1, k2, -⟩
    have k1 : F.find m = .ok fs := k1
    rcases hno m with h | h
    · rw [h] at k1; cases k1
    · rw [h] at k1; cases k1; exact k2 rfl)]
  rfl

/-! ### Examples -/

theorem pnp2_id_converged (p : PnPProblem Corr2) (hne : p.correspondences ≠ []) :
    ∃ r, pnp2 (idCeres V3) p = .ok r ∧ r.converged = true := by
  obtain ⟨r, hr⟩ := pnp2_id_returns p hne
  refine ⟨r, hr, ?_⟩
  unfold pnp2 pnpFinish at hr
  simp only [Res.bind_ok_iff] at hr
  obtain ⟨cov, -, h⟩ := hr
  cases h
  rfl

section
variable {C : Codec Nat} {fs : FS Nat} {path : String} {threshold : ℝ} {view : Nat → List Corr2}

theorem exampleWorld_no_crash (hlen : ∀ m, (view m).length < 2 ^ 64) : ¬ FinderCrash (exampleWorld C fs path threshold view) := by
  intro hcr
  have := (loadFinder_ok_iff _ _).2 (exampleWorld_finder C fs path threshold view)
  rw [(loadFinder_outcome _ (exampleWorld_orderly _ _ _ _ _ hlen)).2 hcr] at this
  cases this

theorem exampleWorld_makes {n : Nat} (hn : ∀ m, n ≤ (view m).length) :
    ∀ F, FinderParam (exampleWorld C fs path threshold view) F → MakesAtLeast n F := by
  intro F hF
  obtain rfl : F = exampleFinder view := Res.ok.inj (((loadFinder_ok_iff _ F).2 hF).symm.trans
    ((loadFinder_ok_iff _ _).2 (exampleWorld_finder C fs path threshold view)))
  intro m fs cs hfs _ hcs
  cases hfs
  cases hcs
  exact hn _

theorem exampleWorld_intrinsics : IntrinsicsParam ((exampleWorld C fs path threshold view).param "intrinsics") ⟨1, 1, 0, 0⟩ :=
  ⟨_, rfl, ⟨_, rfl, rfl⟩, ⟨_, rfl, rfl⟩, ⟨_, rfl, rfl⟩, ⟨_, rfl, rfl⟩⟩

/-- What the intrinsic calibration tool finds in the images of the example. -/
theorem exampleWorld_intrinsic {T : Nat → Iso} (hd : parseFromFile C fs path = .ok (some ⟨[0, 1, 2], [T 0, T 1, T 2]⟩)) :
    IntrinsicSetup (exampleWorld C fs path threshold view) ⟨[0, 1, 2], [T 0, T 1, T 2]⟩ (exampleFinder view) ⟨1, 1, 0, 0⟩ ∧
    intrinsicCollect (plainEnv (exampleFinder view)) ⟨[0, 1, 2], [T 0, T 1, T 2]⟩ = .ok ([view 0, view 1, view 2], 0) ∧
    (∀ i cs, IntrinsicItem (plainEnv (exampleFinder view)) [0, 1, 2] i cs → i < 3 ∧ cs = view i) ∧
    (∀ i, i < 3 → IntrinsicItem (plainEnv (exampleFinder view)) [0, 1, 2] i (view i)) := by
  refine ⟨⟨⟨path, rfl, hd⟩, exampleWorld_finder _ _ _ _ _, exampleWorld_intrinsics⟩, rfl, ?_, ?_⟩
  · rintro i cs ⟨m, fs, h1, h2, -, h3⟩
    cases h2
    have h3 : Res.ok (view m) = Res.ok cs := h3
    cases h3
    match i, h1 with
    | 0, h1 => cases h1; exact ⟨by norm_num, rfl⟩
    | 1, h1 => cases h1; exact ⟨by norm_num, rfl⟩
    | 2, h1 => cases h1; exact ⟨by norm_num, rfl⟩
    | (n + 3), h1 => simp at h1
  · intro i hi
    have : i = 0 ∨ i = 1 ∨ i = 2 := by omega
    rcases this with rfl | rfl | rfl <;> exact ⟨_, _, rfl, rfl, by simp, rfl⟩

end

/-- An OpenCV that refuses to calibrate without images and otherwise keeps the guess. -/
def keepCalibrate : CvCalibrate Nat := fun pts _ _ K => if pts = [] then .throw .other else .ok (K, [0, 0, 0, 0, 0])

theorem keepCalibrate_orderly : OrderlyCalibrate keepCalibrate where
  orderly pts imgs front K := by
    unfold keepCalibrate
    split_ifs
    · exact orderly_throw _
    · exact orderly_ok _
  empty front K := ⟨.other, rfl⟩

/-- A run of the intrinsic calibration tool that meets the hypotheses of `C190_intrinsic` and `C191_intrinsic_partial`. -/
example : ∃ (W : ToolWorld Nat) (rep : IntrinsicReport), OrderlyWorld W ∧ ¬ FinderCrash W ∧ OrderlyCalibrate keepCalibrate ∧
    OrderlyCeres (idCeres Mem) ∧ (∀ F, FinderParam W F → MakesAtLeast 1 F) ∧
    (∀ d, DataParam W (W.param "data_path") d → d.images ≠ []) ∧
    (∀ d F intr i cs, IntrinsicSetup W d F intr → IntrinsicItem (plainEnv F) d.images i cs →
      ∃ r, pnp2 (idCeres V3) { intr := intr, correspondences := cs, guess := facingPose } = .ok r ∧ r.converged = true) ∧
    ProperParams W.param ∧ intrinsicMain W keepCalibrate (idCeres V3) (idCeres Mem) = .ok (some rep) := by
  obtain ⟨P, C, D, fs, path, es, col, saved, stored, msg, a1, a2, a3, a4, a5, a6, a7, a8, hcap, hmsg⟩ :=
    example_session (fun _ => 1) fun _ => .one
  have h4 : ∀ i T, (squareImage i T).length = 4 := fun i T => by simp [squareImage, squarePoints]
  obtain ⟨view, hview⟩ : ∃ view, view = fun n : Nat => squareImage ⟨2, 3, 4, 5⟩ (tilted n) := ⟨_, rfl⟩
  have hl : ∀ m, (view m).length = 4 := fun m => by rw [hview]; exact h4 _ _
  obtain ⟨hset, hcol, hitem, -⟩ := exampleWorld_intrinsic (T := fun _ => 1) (threshold := 0) (view := view) a8
  have hp := exampleWorld_proper C (saveToDirectory P D fs path stored).1 (indexFile path) 0 view
  have hmakes := exampleWorld_makes (C := C) (fs := (saveToDirectory P D fs path stored).1) (path := indexFile path) (threshold := 0)
    (view := view) (n := 1) fun m => by rw [hl]; norm_num
  have hpnp : ∀ d F intr i cs, IntrinsicSetup (exampleWorld C (saveToDirectory P D fs path stored).1 (indexFile path) 0 view) d F intr →
      IntrinsicItem (plainEnv F) d.images i cs →
      ∃ r, pnp2 (idCeres V3) { intr := intr, correspondences := cs, guess := facingPose } = .ok r ∧
        r.converged = true := by
    rintro d F intr i cs hs ⟨m, fs, -, h1, h2, h3⟩
    refine pnp2_id_converged _ ?_
    have := hmakes F hs.finder m fs cs h1 h2 h3
    exact List.ne_nil_of_length_pos this
  have hdata : ∀ d, DataParam (exampleWorld C (saveToDirectory P D fs path stored).1 (indexFile path) 0 view)
      ((exampleWorld C (saveToDirectory P D fs path stored).1 (indexFile path) 0 view).param "data_path") d → d.images ≠ [] := by
    rintro d ⟨path', h1, h2⟩
    obtain ⟨path'', g1, g2⟩ := hset.data
    rw [g1] at h1; cases h1
    rw [g2] at h2; cases h2
    simp
  obtain ⟨r, hr⟩ := intrinsic_returns [view 0, view 1, view 2] (by simp) (by
    intro obs ho
    simp only [List.mem_cons, List.not_mem_nil, or_false] at ho
    rcases ho with rfl | rfl | rfl <;> exact List.ne_nil_of_length_pos (by rw [hl]; norm_num)) ⟨1, 1, 0, 0⟩
  refine ⟨_, _, exampleWorld_orderly _ _ _ _ _ (fun m => by rw [hl]; norm_num), exampleWorld_no_crash (fun m => by rw [hl]; norm_num),
    keepCalibrate_orderly, orderly_idCeres _, hmakes, hdata, hpnp, hp,
    (intrinsicMain_ok_iff _ hp _ _ _ _).2 ⟨_, _, _, _, ⟨⟨1, 1, 0, 0⟩, [0, 0, 0, 0, 0]⟩, r, hset, hcol, rfl, hr, rfl⟩⟩

/-- The same world with a PnP solver that does not converge meets the hypotheses of `C191_intrinsic_negation_pnp`. -/
example : ∃ (W : ToolWorld Nat) (d : DataSet Nat) (F : Finder Nat) (intr : Intr) (cs : List Corr2), ProperParams W.param ∧
    OrderlyCeres (stuckCeres V3) ∧ IntrinsicSetup W d F intr ∧ MakesAtLeast 1 F ∧ (∀ m fs, F.draw m fs = .ok ()) ∧
    (∀ m, ReturnsOrRuntime (F.find m)) ∧ (∀ fs, ReturnsOrRuntime (F.create fs)) ∧
    (∀ pts imgs front K, pts ≠ [] → ∃ r, keepCalibrate pts imgs front K = .ok r) ∧ IntrinsicItem (plainEnv F) d.images 0 cs ∧
    ∀ r, pnp2 (stuckCeres V3) { intr := intr, correspondences := cs, guess := facingPose } = .ok r →
      r.converged = false := by
  obtain ⟨P, C, D, fs, path, es, col, saved, stored, msg, a1, a2, a3, a4, a5, a6, a7, a8, hcap, hmsg⟩ :=
    example_session (fun _ => 1) fun _ => .one
  obtain ⟨hset, hcol, -, hitem⟩ := exampleWorld_intrinsic (T := fun _ => 1) (threshold := 0)
    (view := fun n : Nat => squareImage ⟨2, 3, 4, 5⟩ (tilted n)) a8
  refine ⟨_, _, _, _, _, exampleWorld_proper _ _ _ _ _, ⟨(orderly_idCeres V3).order_perm, (orderly_idCeres V3).compute⟩, hset,
    exampleWorld_makes (fun m => by norm_num [squareImage, squarePoints]) _ hset.finder, fun _ _ => rfl, fun m => .inl ⟨_, rfl⟩, ?_, ?_,
    hitem 0 (by norm_num), ?_⟩
  · intro fs
    rcases fs with _ | ⟨⟨k, l⟩, fs⟩ <;> exact .inl ⟨_, rfl⟩
  · intro pts imgs front K hne
    exact ⟨(K, [0, 0, 0, 0, 0]), if_neg hne⟩
  · intro r hr
    unfold pnp2 pnpFinish at hr
    simp only [Res.bind_ok_iff] at hr
    obtain ⟨cov, -, h⟩ := hr
    cases h
    rfl

/-- A data set without images meets the hypotheses of `C191_intrinsic_negation_empty`. -/
example : ∃ (W : ToolWorld Nat) (d : DataSet Nat) (F : Finder Nat) (intr : Intr), ProperParams W.param ∧ IntrinsicSetup W d F intr ∧
    d.images = [] := by
  refine ⟨exampleWorld ⟨fun _ => false, id⟩ ⟨fun _ => True, fun _ => some (.yaml (.seq []))⟩ "a" 0 fun _ => [], ⟨[], []⟩, _, _,
    exampleWorld_proper _ _ _ _ _, ⟨⟨"a", rfl, ?_⟩, exampleWorld_finder _ _ _ _ _, exampleWorld_intrinsics⟩, rfl⟩
  rfl

/-- The list of images of the example of the noise tool. -/
def noiseList : Yaml :=
  .seq [.map [("image", .scalar ⟨"1.png", none, none, none⟩)], .map [("image", .scalar ⟨"2.png", none, none, none⟩)]]

/-- A run of the noise tool that meets the hypotheses of `C190_noise_partial`, `C190_noise_negation` and `C191_noise_partial`; the two
files are different images. -/
example : ∃ (W : ToolWorld Nat) (read : String → Nat) (svd : SvdU0) (r : NoiseStat), OrderlyWorld W ∧ ¬ FinderCrash W ∧
    OrderlyCeres (idCeres V3) ∧ (∀ F, FinderParam W F → MakesAtLeast 1 F) ∧ ProperParams W.param ∧
    noiseMain W read svd (idCeres V3) = .ok (some r) ∧ r.stdevX = some 0 ∧ read "a/1.png" ≠ read "a/2.png" := by
  obtain ⟨view, hview⟩ : ∃ view, view = fun n : Nat => squareImage ⟨1, 1, 0, 0⟩ (shiftBy n 10 10) := ⟨_, rfl⟩
  have hl : ∀ m, (view m).length = 4 := fun m => by rw [hview]; simp [squareImage, squarePoints]
  obtain ⟨W, hW⟩ : ∃ W, W = exampleWorld ⟨fun _ => false, id⟩ ⟨fun _ => True, fun _ => some (.yaml noiseList)⟩ "a" 0 view := ⟨_, rfl⟩
  have hp : ProperParams W.param := by rw [hW]; exact exampleWorld_proper _ _ _ _ _
  obtain ⟨read, hread⟩ : ∃ read : String → Nat, read = fun s => if s = "a/1.png" then 1 else 2 := ⟨_, rfl⟩
  have hset : NoiseSetup W ["a/1.png", "a/2.png"] (exampleFinder view) ⟨1, 1, 0, 0⟩ (shiftBy 10 10 10) := by
    have hpose := (exampleWorld_setup ⟨fun _ => false, id⟩ ⟨fun _ => True, fun _ => some (.yaml (.seq []))⟩ "a" 0 view
      (.inl ⟨rfl, rfl⟩) (d := ⟨[], []⟩) rfl).target
    rw [hW]
    refine ⟨exampleWorld_finder _ _ _ _ _, exampleWorld_intrinsics, hpose, "a", "a", noiseList, ["1.png", "2.png"], rfl, rfl, rfl, ?_, rfl⟩
    refine ⟨rfl, fun i n hn => ?_⟩
    match i, hn with
    | 0, hn => cases hn; exact ⟨_, _, .inl ⟨_, rfl, rfl⟩, rfl, rfl⟩
    | 1, hn => cases hn; exact ⟨_, _, .inl ⟨_, rfl, rfl⟩, rfl, rfl⟩
    | (n + 2), hn => simp at hn
  have hcol : noiseCollect (plainEnv (exampleFinder view)) read ["a/1.png", "a/2.png"] = .ok [view 1, view 1] := by
    rw [hread]; rfl
  obtain ⟨r1, hr1, hc1⟩ := pnp2_id_converged { intr := ⟨1, 1, 0, 0⟩, correspondences := view 1, guess := shiftBy 10 10 10 }
    (List.ne_nil_of_length_pos (by show 0 < (view 1).length; rw [hl]; norm_num))
  have hconv : ConvergedPoses (pnp2 (idCeres V3)) (([view 1, view 1] : List (List Corr2)).map fun cs =>
      ({ intr := ⟨1, 1, 0, 0⟩, correspondences := cs, guess := shiftBy 10 10 10 } : PnPProblem Corr2))
      (List.replicate 2 r1.cameraToTarget) := by
    refine ⟨[r1, r1], .cons hr1 (.cons hr1 .nil), ?_⟩
    simp [hc1, List.replicate]
  refine ⟨W, read, fun _ => ⟨1, 0, 0, 0⟩, _, ?_, ?_, orderly_idCeres _, ?_, hp,
    (noiseMain_ok_iff W hp read _ _ _).2 ⟨_, _, _, _, _, hset, hcol, qualifyNoise_ok.2 ⟨_, hconv, rfl⟩⟩, ?_, ?_⟩
  · rw [hW]; exact exampleWorld_orderly _ _ _ _ _ fun m => by rw [hl]; norm_num
  · rw [hW]; exact exampleWorld_no_crash fun m => by rw [hl]; norm_num
  · rw [hW]; exact exampleWorld_makes fun m => by rw [hl]; norm_num
  · simp only [List.map_replicate]
    exact accVar_replicate 1 _
  · rw [hread]; decide

/-- A run of the PnP tool that meets the hypotheses of `C190_pnp` and `C191_pnp_partial`. -/
example : ∃ (W : ToolWorld Nat) (cv : CvSolvePnP) (T : Iso) (r : PnPResult), OrderlyWorld W ∧ ¬ FinderCrash W ∧
    OrderlyCeres (idCeres V3) ∧ (∀ F, FinderParam W F → MakesAtLeast 1 F) ∧ ProperParams W.param ∧
    solvePnpTool W (fun _ => 7) cv (idCeres V3) = .ok (some (T, r)) := by
  obtain ⟨view, hview⟩ : ∃ view, view = fun n : Nat => squareImage ⟨1, 1, 0, 0⟩ (shiftBy n 10 10) := ⟨_, rfl⟩
  have hl : ∀ m, (view m).length = 4 := fun m => by rw [hview]; simp [squareImage, squarePoints]
  obtain ⟨W, hW⟩ : ∃ W, W = exampleWorld ⟨fun _ => false, id⟩ ⟨fun _ => True, fun _ => none⟩ "a" 0 view := ⟨_, rfl⟩
  have hp : ProperParams W.param := by rw [hW]; exact exampleWorld_proper _ _ _ _ _
  obtain ⟨r, hr, -⟩ := pnp2_id_converged { intr := ⟨1, 1, 0, 0⟩, correspondences := view 7, guess := ⟨⟨1, 0, 0, 0, -1, 0, 0, 0, -1⟩, ⟨0, 0, 1 / 10⟩⟩ }
    (List.ne_nil_of_length_pos (by show 0 < (view 7).length; rw [hl]; norm_num))
  refine ⟨W, fun _ _ _ => (⟨1, 0, 0⟩, ⟨0, 0, 5⟩), _, r, ?_, ?_, orderly_idCeres _, ?_, hp,
    (C190_pnp W hp _ _ _ _ r).2 ⟨"a", ⟨1, 1, 0, 0⟩, exampleFinder view, [(7, [])], view 7, by rw [hW]; rfl, by rw [hW]; exact exampleWorld_intrinsics,
      by rw [hW]; exact exampleWorld_finder _ _ _ _ _, rfl, by simp, rfl, rfl, rfl, hr⟩⟩
  · rw [hW]; exact exampleWorld_orderly _ _ _ _ _ fun m => by rw [hl]; norm_num
  · rw [hW]; exact exampleWorld_no_crash fun m => by rw [hl]; norm_num
  · rw [hW]; exact exampleWorld_makes fun m => by rw [hl]; norm_num

/-- A finder whose features have no partners meets the hypotheses of `C191_pnp_negation_features`. -/
example : ∃ (W : ToolWorld Nat) (path : String) (intr : Intr) (F : Finder Nat) (fs : TargetFeatures), ProperParams W.param ∧
    W.param "image_path" = some (.string path) ∧ IntrinsicsParam (W.param "intrinsics") intr ∧ FinderParam W F ∧
    F.find 7 = .ok fs ∧ fs ≠ [] ∧ F.draw 7 fs = .ok () ∧ F.create fs = .ok [] :=
  ⟨exampleWorld ⟨fun _ => false, id⟩ ⟨fun _ => True, fun _ => none⟩ "a" 0 fun _ => [], "a", _, _, [(7, [])], exampleWorld_proper _ _ _ _ _,
    rfl, exampleWorld_intrinsics, exampleWorld_finder _ _ _ _ _, rfl, by simp, rfl, rfl⟩

/-- A world in which the target is found in no image meets the hypotheses of `C191_validation_negation_unusable`. -/
example : ∃ (W : ToolWorld Nat) (d : DataSet Nat) (F : Finder Nat) (intr : Intr) (X Y : Iso), ProperParams W.param ∧
    ValidationSetup W d F intr X Y ∧ d.images ≠ [] ∧ (∀ m, F.find m = .throw .runtimeError ∨ F.find m = .ok []) := by
  obtain ⟨P, C, D, fs, path, es, col, saved, stored, msg, a1, a2, a3, a4, a5, a6, a7, a8, hcap, hmsg⟩ :=
    example_session (fun _ => 1) fun _ => .one
  have hset := exampleWorld_setup C (saveToDirectory P D fs path stored).1 (indexFile path) 0 (fun _ => []) (.inl ⟨rfl, rfl⟩) a8
  have hp := exampleWorld_proper C (saveToDirectory P D fs path stored).1 (indexFile path) 0 (fun _ => [])
  exact ⟨{ exampleWorld C (saveToDirectory P D fs path stored).1 (indexFile path) 0 (fun _ => []) with
      plugin := fun name => if name = "square" then some fun _ => .ok ⟨fun _ => .throw .runtimeError, fun _ => .ok [], fun _ _ => .ok ()⟩ else none },
    _, ⟨fun _ => .throw .runtimeError, fun _ => .ok [], fun _ _ => .ok ()⟩, _, _, _, hp,
    ⟨hset.data, ⟨_, "square", fun _ => .ok ⟨fun _ => .throw .runtimeError, fun _ => .ok [], fun _ _ => .ok ()⟩, _, rfl, rfl, rfl, rfl, rfl⟩,
      hset.intrinsics, hset.camera, hset.target⟩, by simp, fun _ => .inl rfl⟩

/-- A number as the parameter `target_finder` meets the hypotheses of `C191_intrinsic_negation_finder` and its three companions. -/
example : ∃ (W : ToolWorld Nat) (d : DataSet Nat) (dir list path : String) (intr : Intr), OrderlyWorld W ∧ ProperParams W.param ∧
    DataParam W (W.param "data_path") d ∧ W.param "data_path" = some (.string dir) ∧ W.param "data_file" = some (.string list) ∧
    W.param "image_path" = some (.string path) ∧ IntrinsicsParam (W.param "intrinsics") intr ∧ FinderCrash W := by
  obtain ⟨P, C, D, fs, path, es, col, saved, stored, msg, a1, a2, a3, a4, a5, a6, a7, a8, hcap, hmsg⟩ :=
    example_session (fun _ => 1) fun _ => .one
  obtain ⟨W, hW⟩ : ∃ W, W = exampleWorld C (saveToDirectory P D fs path stored).1 (indexFile path) 0 fun _ => [] := ⟨_, rfl⟩
  have hset := exampleWorld_setup C (saveToDirectory P D fs path stored).1 (indexFile path) 0 (fun _ => []) (.inl ⟨rfl, rfl⟩) a8
  have hp := exampleWorld_proper C (saveToDirectory P D fs path stored).1 (indexFile path) 0 (fun _ => [])
  have ho := exampleWorld_orderly C (saveToDirectory P D fs path stored).1 (indexFile path) 0 (fun _ => []) (fun m => by simp)
  rw [← hW] at hset hp ho
  have hd := hset.data
  obtain ⟨W', hW'⟩ : ∃ W' : ToolWorld Nat, W' = { W with param := fun k => if k = "target_finder" then some (.int 3) else W.param k } := ⟨_, rfl⟩
  have hk : ∀ k, k ≠ "target_finder" → W'.param k = W.param k := fun k hk => by rw [hW']; exact if_neg hk
  have hq : W'.param "target_finder" = some (.int 3) := by rw [hW']; rfl
  refine ⟨W', ⟨[0, 1, 2], [1, 1, 1]⟩, indexFile path, indexFile path, indexFile path, _, ?_, ?_, ?_, ?_, ?_, ?_,
    by rw [hk _ (by decide)]; exact hset.intrinsics, _, hq, by simp, .inl (by simp)⟩
  · rw [hW']; exact ⟨ho.init, ho.finder, ho.draws⟩
  · intro name xml h
    by_cases hn : name = "target_finder"
    · rw [hn, hq] at h
      cases h
      intro k hk
      simp [XVal.member] at hk
    · rw [hk _ hn] at h
      exact hp name xml h
  · rw [hk _ (by decide)]
    obtain ⟨path, h1, h2⟩ := hd
    exact ⟨path, h1, by rw [hW']; exact h2⟩
  all_goals rw [hk _ (by decide), hW]; rfl

end RCT
