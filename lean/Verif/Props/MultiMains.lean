import Verif.Spec.MultiMains
import Verif.Props.Mains
import Verif.Props.MultiTools
import Verif.Props.ToolData
import Verif.Props.IdentifyStatic

/-!
# Properties of the tools for several cameras as programs

Concrete cases that meet the hypotheses are at the end of `Verif/Props/MultiExit.lean`.
-/

namespace RCT

open Spec

variable {Img : Type}

/-! ### Parameters -/

theorem cameraCount_ok_iff (v : Option XVal) (n : Nat) : cameraCount v = .ok n ↔ CountParam v n := by
  unfold cameraCount CountParam
  rw [Res.bind_ok_iff]
  constructor
  · rintro ⟨i, hi, h⟩
    split_ifs at h with hn
    cases h
    unfold getInt at hi
    split at hi
    · cases hi
      left
      rw [Int.toNat_of_nonneg (by omega)]
    · next x =>
      right
      cases hi
      refine ⟨x, rfl, ?_⟩
      by_cases hx : x < 0
      · exfalso
        rw [if_pos (Or.inl hx)] at hn
        have := Int.floor_lt.2 (show x < ((0 : Int) : ℝ) by simpa using hx)
        omega
      · push Not at hx
        have h0 : (0 : Int) ≤ ⌊x⌋ := Int.floor_nonneg.2 hx
        have hfl := Int.floor_add_fract x
        have hf0 := Int.fract_nonneg x
        refine ⟨hx, ?_⟩
        split_ifs with hc
        · rcases hc with hc | hc
          · linarith
          · have : ((⌊x⌋.toNat : Nat) : ℝ) = (⌊x⌋ : ℝ) := by
              exact_mod_cast Int.toNat_of_nonneg h0
            rw [this]
            constructor <;> linarith
        · push Not at hc
          have hce : ⌈x⌉ = ⌊x⌋ + 1 := by
            rw [Int.ceil_eq_iff]
            push_cast
            have := Int.fract_lt_one x
            constructor <;> linarith
          rw [hce]
          have : (((⌊x⌋ + 1).toNat : Nat) : ℝ) = (⌊x⌋ : ℝ) + 1 := by
            have := Int.toNat_of_nonneg (show (0 : Int) ≤ ⌊x⌋ + 1 by omega)
            exact_mod_cast this
          rw [this]
          have := Int.fract_lt_one x
          constructor <;> linarith [hc.2]
    · cases hi
  · rintro (rfl | ⟨x, rfl, hx, h1, h2⟩)
    · exact ⟨n, rfl, by rw [if_neg (by omega)]; simp⟩
    · refine ⟨n, ?_, by rw [if_neg (by omega)]; simp⟩
      show Res.ok (if x < 0 ∨ Int.fract x < 1 / 2 then ⌊x⌋ else ⌈x⌉) = Res.ok (n : Int)
      rw [Res.ok.injEq]
      have hfl := Int.floor_add_fract x
      have hf0 := Int.fract_nonneg x
      have hf1 := Int.fract_lt_one x
      split_ifs with hc
      · rcases hc with hc | hc
        · linarith
        · rw [Int.floor_eq_iff]
          have h3 : (n : ℝ) < ⌊x⌋ + 1 := by linarith
          have h4 : (⌊x⌋ : ℝ) - 1 < n := by linarith
          have h5 : (n : Int) < ⌊x⌋ + 1 := by exact_mod_cast h3
          have h6 : ⌊x⌋ - 1 < (n : Int) := by exact_mod_cast h4
          have : (n : Int) = ⌊x⌋ := by omega
          have : (n : ℝ) = ⌊x⌋ := by exact_mod_cast this
          push_cast
          constructor <;> linarith
      · push Not at hc
        rw [Int.ceil_eq_iff]
        have h3 : (⌊x⌋ : ℝ) < n := by linarith [hc.2]
        have h4 : (n : ℝ) < ⌊x⌋ + 2 := by linarith
        have h5 : ⌊x⌋ < (n : Int) := by exact_mod_cast h3
        have h6 : (n : Int) < ⌊x⌋ + 2 := by exact_mod_cast h4
        have : (n : Int) = ⌊x⌋ + 1 := by omega
        have : (n : ℝ) = ⌊x⌋ + 1 := by exact_mod_cast this
        push_cast
        constructor <;> linarith [hc.2]

theorem tryIntr_ok_iff {param : String → Option XVal} (hp : ProperParams param) (k : String) (d : Intr) (b : Bool) (i : Intr) :
    tryLoadIntrParam (param k) d = .ok (b, i) ∧ b ≠ false ↔ b = true ∧ IntrinsicsParam (param k) i := by
  rw [← intrParam_ok_iff hp]
  rcases C83_flag (param k) d with ⟨j, h1, h2⟩ | ⟨h1, h2⟩ <;> rw [h2]
  · rw [h1]
    simp only [Res.ok.injEq, Prod.mk.injEq]
    constructor
    · rintro ⟨⟨rfl, rfl⟩, -⟩; exact ⟨rfl, rfl⟩
    · rintro ⟨rfl, rfl⟩; simp
  · constructor
    · rintro ⟨h, hb⟩
      simp only [Res.ok.injEq, Prod.mk.injEq] at h
      exact absurd h.1.symm hb
    · rintro ⟨-, h⟩
      exact absurd h (h1 i)

theorem tryPose_cases (v : Option XVal) (d : Iso) :
    (∃ T, loadPoseParam v = .ok T ∧ tryLoadPoseParam v d = .ok (true, T)) ∨
    ((∀ T, loadPoseParam v ≠ .ok T) ∧ (tryLoadPoseParam v d = .ok (false, d) ∨ ∃ e, tryLoadPoseParam v d = .throw e)) := by
  unfold tryLoadPoseParam
  rcases orderly_loadPoseParam v with ⟨T, h⟩ | ⟨e, h⟩
  · left; exact ⟨T, h, by rw [h]; rfl⟩
  · right
    rw [h]
    refine ⟨fun T hT => (by cases hT), ?_⟩
    simp only [Res.bind, Res.tryCatch]
    split_ifs
    · exact .inl rfl
    · exact .inr ⟨e, rfl⟩

theorem needPose_ok_iff {param : String → Option XVal} (hp : ProperParams param) (k : String) (T : Iso) :
    needPose (param k) = .ok T ↔ PoseParam (param k) T := by
  rw [← poseParam_ok_iff hp]
  unfold needPose
  rcases tryPose_cases (param k) 1 with ⟨S, h1, h2⟩ | ⟨h1, h2 | ⟨e, h2⟩⟩ <;> rw [h2]
  · rw [h1]; simp [Res.bind]
  · constructor
    · intro h; cases h
    · intro h; exact absurd h (h1 T)
  · constructor
    · intro h; cases h
    · intro h; exact absurd h (h1 T)

theorem key_data (c : Nat) : cameraKey c "data_path" = "camera_" ++ toString c ++ "/data_path" := by
  unfold cameraKey; rw [String.append_assoc]; rfl

theorem key_intr (c : Nat) : cameraKey c "intrinsics" = "camera_" ++ toString c ++ "/intrinsics" := by
  unfold cameraKey; rw [String.append_assoc]; rfl

/-- One camera is loaded exactly if its three parameters are right. -/
theorem loadCamera_ok_iff (W : ToolWorld Img) (hp : ProperParams W.param) (load : String → Res (DataSet Img))
    (hload : ∀ path d, load path = .ok d ↔ parseFromFile W.codec W.fs path = .ok (some d)) (pose : String) (c : Nat)
    (q : CameraParams Img) : loadCamera W load pose c = .ok q ↔ CameraSetup W pose c q := by
  unfold loadCamera
  rw [key_data, key_intr]
  simp only [Res.bind_ok_iff, getString_ok_iff, hload]
  constructor
  · rintro ⟨path, h1, d, h2, ⟨b, i⟩, h3, h⟩
    split_ifs at h with hb
    rw [Res.bind_ok_iff] at h
    obtain ⟨T, h4, h⟩ := h
    split_ifs at h with hb'
    cases h
    refine ⟨⟨path, h1, h2⟩, ((tryIntr_ok_iff hp _ _ _ _).1 ⟨h3, hb⟩).2, ?_⟩
    rw [← needPose_ok_iff hp]
    unfold needPose
    rw [Res.bind_ok_iff]
    exact ⟨T, h4, by rw [if_neg hb']⟩
  · rintro ⟨⟨path, h1, h2⟩, h3, h4⟩
    obtain ⟨h5, h6⟩ := (tryIntr_ok_iff hp _ ⟨1411, 1408, 8072 / 10, 615⟩ true q.intr).2 ⟨rfl, h3⟩
    rw [← needPose_ok_iff hp] at h4
    unfold needPose at h4
    rw [Res.bind_ok_iff] at h4
    obtain ⟨T, h7, h8⟩ := h4
    split_ifs at h8 with hb'
    refine ⟨path, h1, q.data, h2, _, h5, ?_⟩
    rw [if_neg h6, Res.bind_ok_iff]
    refine ⟨T, h7, ?_⟩
    rw [if_neg hb']
    have h9 := Res.ok.inj h8
    rw [h9]

theorem loadMultiStatic_ok_iff (C : Codec Img) (fs : FS Img) (path : String) (d : DataSet Img) :
    loadMultiStatic C fs path = .ok d ↔ parseFromFile C fs path = .ok (some d) := by
  unfold loadMultiStatic
  rw [Res.bind_ok_iff]
  constructor
  · rintro ⟨o, h, h'⟩
    cases o with
    | none => cases h'
    | some e => cases h'; exact h
  · intro h
    exact ⟨_, h, rfl⟩

theorem loadCameras_ok_iff (W : ToolWorld Img) (hp : ProperParams W.param) (load : String → Res (DataSet Img))
    (hload : ∀ path d, load path = .ok d ↔ parseFromFile W.codec W.fs path = .ok (some d)) (pose : String) (n : Nat)
    (cams : List (CameraParams Img)) :
    loadCameras W load pose n = .ok cams ↔ cams.length = n ∧ ∀ (c : Nat) q, cams[c]? = some q → CameraSetup W pose c q := by
  unfold loadCameras
  rw [Res.mapList_ok_iff, List.forall₂_iff_get]
  simp only [List.length_range, List.get_eq_getElem, List.getElem_range]
  constructor
  · rintro ⟨h1, h2⟩
    refine ⟨h1.symm, fun c q hq => ?_⟩
    obtain ⟨hc, rfl⟩ := List.getElem?_eq_some_iff.1 hq
    exact (loadCamera_ok_iff W hp load hload pose c _).1 (h2 c (by omega) hc)
  · rintro ⟨h1, h2⟩
    refine ⟨h1.symm, fun c hc hc' => ?_⟩
    exact (loadCamera_ok_iff W hp load hload pose c _).2 (h2 c _ (List.getElem?_eq_getElem hc'))

/-! ## C186 What the tools for several cameras compute -/

theorem Spec.Seen.unique {find : Img → Res TargetFeatures} {create : TargetFeatures → Res (List Corr2)}
    {draw : Img → TargetFeatures → Res Unit} {m : Img} {a b : List Corr2}
    (ha : Seen find create draw m a) (hb : Seen find create draw m b) : a = b := by
  obtain ⟨f, h1, -, h2, -⟩ := ha
  obtain ⟨g, h3, -, h4, -⟩ := hb
  rw [h1] at h3
  cases h3
  rw [h2] at h4
  exact Res.ok.inj h4

theorem Spec.SelectedAt.congr {A : Type} {n : Nat} {P Q : Nat → A → Prop} {js : List Nat} {as : List A} (h : SelectedAt n P js as)
    (hPQ : ∀ i a, i < n → (P i a ↔ Q i a)) : SelectedAt n Q js as := by
  obtain ⟨h1, h2, h3⟩ := h
  refine ⟨h1, fun j => ?_, ?_⟩
  · rw [h2]
    constructor
    · rintro ⟨hj, a, ha⟩; exact ⟨hj, a, (hPQ j a hj).1 ha⟩
    · rintro ⟨hj, a, ha⟩; exact ⟨hj, a, (hPQ j a hj).2 ha⟩
  · refine Forall₂.imp_mem h3 fun j hj a ha => ?_
    exact (hPQ j a ((h2 j).1 hj).1).1 ha

/-- What the table of correspondences holds if all data sets have `k` images. -/
theorem table_facts {F : Finder Img} {junk : Nat → Nat → Nat} {cams : List (CameraParams Img)} {k : Nat} {t : CorrDataSet}
    (h : buildCorrDataSet F.find F.create F.draw junk (cams.map fun c => c.data) = .ok t) (hk : ∀ q ∈ cams, q.data.images.length = k) :
    t.rows = cams.length ∧ t.cols = k ∧ ProperFlags t ∧
    ∀ (c : Nat) q, cams[c]? = some q → ∀ i < k, ∃ m, q.data.images[i]? = some m ∧
      (t.mask c i = 1 ∧ Seen F.find F.create F.draw m (t.corr c i) ∨ t.mask c i = 0 ∧ ¬ ∃ o, Seen F.find F.create F.draw m o) := by
  obtain ⟨first, h0, h1, h2, -, h3⟩ := corrTable_ok h
  rw [List.getElem?_map] at h0
  obtain ⟨q0, hq0, rfl⟩ := Option.map_eq_some_iff.1 h0
  rw [hk q0 (List.mem_of_getElem? hq0)] at h2
  rw [List.length_map] at h1
  have key : ∀ (c : Nat) q, cams[c]? = some q → ∀ i < k, ∃ m, q.data.images[i]? = some m ∧
      (t.mask c i = 1 ∧ Seen F.find F.create F.draw m (t.corr c i) ∨ t.mask c i = 0 ∧ ¬ ∃ o, Seen F.find F.create F.draw m o) := by
    intro c q hq i hi
    have hl := hk q (List.mem_of_getElem? hq)
    have hm : q.data.images[i]? = some (q.data.images[i]'(by omega)) := List.getElem?_eq_getElem (by omega)
    refine ⟨_, hm, (h3 c q.data i (by rw [List.getElem?_map, hq]; rfl)).1 _ hm⟩
  refine ⟨h1, h2, fun c i hc hi => ?_, key⟩
  obtain ⟨m, -, h | h⟩ := key c _ (List.getElem?_eq_getElem (by omega)) i (by omega)
  · exact .inr h.1
  · exact .inl h.1

theorem reportsOpt_of (converged : Bool) (initial final : Option ℝ) :
    ReportsOpt (printOpt converged initial final) converged initial final := ⟨rfl, rfl, rfl⟩

theorem printCameras_ok {n : Nat} {poses : List Iso} {out : List (PrintedTransform × PrintedTransform)} (hn : poses.length = n)
    (h : printCameras n poses = .ok out) : ReportsCameras out poses := by
  unfold printCameras at h
  unfold ReportsCameras
  rw [Res.mapList_ok_iff, List.forall₂_iff_get] at h
  rw [List.forall₂_iff_get]
  simp only [List.length_range, List.get_eq_getElem, List.getElem_range] at h
  obtain ⟨h1, h2⟩ := h
  refine ⟨by omega, fun c hc hc' => ?_⟩
  have := h2 c (by omega) hc'
  simp only [Res.bind_ok_iff, collectIdx_ok_iff] at this
  obtain ⟨T, hT, T0, hT0, h⟩ := this
  rw [List.getElem?_eq_getElem hc] at hT
  cases hT
  have h := (Res.ok.inj h).symm
  simp only [List.get_eq_getElem]
  rw [h]
  refine ⟨rfl, fun T' hT' => ?_⟩
  rw [hT0] at hT'
  cases hT'
  rfl

theorem multiStatic_poses {s : Ceres Pose6} {p : MsProblem} {r : MsResult} (h : multiStatic s p = .ok r) :
    r.baseToCamera.length = p.baseToCameraGuess.length := by
  unfold multiStatic at h
  simp only [Res.bind_ok_iff] at h
  obtain ⟨pb, -, cov, -, h⟩ := h
  cases h
  simp

theorem multiStaticMain_ok (W : ToolWorld Img) (hp : ProperParams W.param) (junk : Nat → Nat → Nat) (s : Ceres Pose6)
    (rep : MultiStaticReport Img) (h : multiStaticMain W junk s = .ok (some rep)) :
    ∃ cams : List (CameraParams Img), ∃ Y F t data r, CountParam (W.param "num_of_cameras") cams.length ∧
      (∀ (c : Nat) q, cams[c]? = some q → CameraSetup W "base_to_camera_guess" c q) ∧ FinderParam W F ∧
      PoseParam (W.param "wrist_to_target_guess") Y ∧
      buildCorrDataSet F.find F.create F.draw junk (cams.map fun c => c.data) = .ok t ∧
      multiStaticBuild t (cams.map fun c => c.data) = .ok data ∧
      multiStatic s { intr := cams.map fun c => c.intr, wristPoses := data.map Prod.fst, observations := data.map Prod.snd,
                      wristToTargetGuess := Y, baseToCameraGuess := cams.map fun c => c.pose } = .ok r ∧
      r.baseToCamera.length = cams.length ∧
      ReportsOpt rep.opt r.converged r.initialCost r.finalCost ∧ rep.wristToTarget = printTransform r.wristToTarget ∧
      ReportsCameras rep.cameras r.baseToCamera ∧
      ∃ first, cams[0]? = some first ∧ Res.mapList (multiStaticView s t (cams.map fun c => c.data) (cams.map fun c => c.intr) r
        cams.length) (List.range first.data.images.length) = .ok rep.views := by
  unfold multiStaticMain at h
  rw [toolExit_ok] at h
  simp only [Res.bind_ok_iff, cameraCount_ok_iff, loadFinder_ok_iff, needPose_ok_iff hp,
    loadCameras_ok_iff W hp _ (loadMultiStatic_ok_iff W.codec W.fs), collectIdx_ok_iff] at h
  obtain ⟨n, h1, cams, ⟨rfl, h2⟩, Y, h3, F, h4, t, h5, data, h6, r, h7, out, h8, first, h9, views, h10, h11⟩ := h
  have hr := multiStatic_poses h7
  simp only [List.length_map] at hr
  rw [List.getElem?_map] at h9
  obtain ⟨q0, hq0, rfl⟩ := Option.map_eq_some_iff.1 h9
  have h11 := (Res.ok.inj h11).symm
  refine ⟨cams, Y, F, t, data, r, h1, h2, h4, h3, h5, h6, h7, hr, ?_, ?_, ?_, q0, hq0, ?_⟩
  · rw [h11]; exact reportsOpt_of _ _ _
  · rw [h11]
  · rw [h11]; exact printCameras_ok hr h8
  · rw [h11]; exact h10

theorem multiStatic_problem {F : Finder Img} {junk : Nat → Nat → Nat} {cams : List (CameraParams Img)} {k : Nat} {t : CorrDataSet}
    (h : buildCorrDataSet F.find F.create F.draw junk (cams.map fun c => c.data) = .ok t) (hk : ∀ q ∈ cams, q.data.images.length = k)
    {data : List (List Iso × List (List Corr2))} (hd : multiStaticBuild t (cams.map fun c => c.data) = .ok data) (Y : Iso) :
    MultiStaticProblem cams k F Y { intr := cams.map fun c => c.intr, wristPoses := data.map Prod.fst, observations := data.map Prod.snd,
                                    wristToTargetGuess := Y, baseToCameraGuess := cams.map fun c => c.pose } := by
  obtain ⟨h1, h2, h3, h4⟩ := table_facts h hk
  obtain ⟨h5, h6⟩ := C105_pairs t h3 _ data hd
  refine ⟨rfl, rfl, rfl, ⟨by simp [h5, h1], by simp [h5, h1]⟩, fun c q hq => ?_⟩
  have hc : c < t.rows := by rw [h1]; exact (List.getElem?_eq_some_iff.1 hq).1
  obtain ⟨ds, js, items, hds, hsel, hout⟩ := h6 c hc
  rw [List.getElem?_map, hq] at hds
  cases hds
  refine ⟨js, items, ?_, by simp [hout], by simp [hout]⟩
  rw [h2] at hsel
  refine hsel.congr fun i e hi => ?_
  obtain ⟨m, hm, hcase⟩ := h4 c q hq i hi
  unfold CameraItem SeenItem
  constructor
  · rintro ⟨hmask, hpose, hcorr⟩
    rcases hcase with ⟨-, hs⟩ | ⟨h0, -⟩
    · exact ⟨m, hm, by rw [hcorr]; exact hs, hpose⟩
    · omega
  · rintro ⟨m', hm', hs, hpose⟩
    rw [hm] at hm'
    cases hm'
    rcases hcase with ⟨h1, hs'⟩ | ⟨-, h0⟩
    · exact ⟨h1, hpose, hs.unique hs'⟩
    · exact absurd ⟨_, hs⟩ h0

/-- Whenever the tool for several static cameras ends with success: data set, intrinsic parameters and guess of camera `c` are
those of the parameters `camera_c/…`; what is printed is the result of a calibration with, for every camera, exactly the images
in which it saw the target, each with the wrist pose recorded with it; and the poses printed for camera `c` are those of camera
`c`, in the base frame and in the frame of camera 0. All data sets have `k` images. -/
theorem C186_multi_static (W : ToolWorld Img) (hp : ProperParams W.param) (junk : Nat → Nat → Nat) (s : Ceres Pose6)
    (rep : MultiStaticReport Img) (h : multiStaticMain W junk s = .ok (some rep)) (k : Nat)
    (hk : ∀ (c : Nat) d, DataParam W (W.param ("camera_" ++ toString c ++ "/data_path")) d → d.images.length = k) :
    ∃ cams : List (CameraParams Img), ∃ F Y p r, CamerasSetup W "base_to_camera_guess" cams k F ∧ PoseParam (W.param "wrist_to_target_guess") Y ∧
      MultiStaticProblem cams k F Y p ∧ multiStatic s p = .ok r ∧ r.baseToCamera.length = cams.length ∧
      ReportsOpt rep.opt r.converged r.initialCost r.finalCost ∧ rep.wristToTarget = printTransform r.wristToTarget ∧
      ReportsCameras rep.cameras r.baseToCamera := by
  obtain ⟨cams, Y, F, t, data, r, h1, h2, h3, h4, h5, h6, h7, h8, h9, h10, h11, -⟩ := multiStaticMain_ok W hp junk s rep h
  have hk' : ∀ q ∈ cams, q.data.images.length = k := fun q hq => by
    obtain ⟨c, hc⟩ := List.mem_iff_getElem?.1 hq
    exact hk c _ (h2 c q hc).data
  exact ⟨cams, F, Y, _, r, ⟨h1, h2, h3, hk'⟩, h4, multiStatic_problem h5 hk' h6 Y, h7, h8, h9, h10, h11⟩

/-! ## C187 What is shown per image -/

theorem drawnAt_of (K : Intr) (T : Iso) (sets : List (List Corr2)) :
    DrawnAt K T sets (getReprojections T K (sets.flatMap fun cs => cs.map fun c => c.inTarget)) := by
  unfold DrawnAt getReprojections
  have : (sets.flatMap fun cs => cs.map fun c : Corr2 => c.inTarget) = sets.flatten.map fun c : Corr2 => c.inTarget := by
    rw [List.flatMap_def, List.map_flatten]
  rw [this, List.map_map, List.forall₂_map_right_iff, List.forall₂_same]
  intro c _ hz
  exact C02_pinhole K _ hz

theorem reproject_ok {s : Ceres Pose6} {B : Iso} {poses : List Iso} {intr : List Intr} {image : Img} {sets : List (List Corr2)}
    {v : View Img} (h : reproject s B poses intr image sets = .ok v) :
    v.image = image ∧ ∃ A K, poses[0]? = some A ∧ intr[0]? = some K ∧ ViewShows s B poses intr sets A K v := by
  unfold reproject at h
  simp only [Res.bind_ok_iff, collectIdx_ok_iff] at h
  obtain ⟨A, h1, K, h2, r, h3, h⟩ := h
  cases h
  exact ⟨rfl, A, K, h1, h2, rfl, drawnAt_of _ _ _, r, h3, rfl, rfl, drawnAt_of _ _ _, reportsOpt_of _ _ _⟩

theorem table_seen {F : Finder Img} {junk : Nat → Nat → Nat} {cams : List (CameraParams Img)} {k : Nat} {t : CorrDataSet}
    (h : buildCorrDataSet F.find F.create F.draw junk (cams.map fun c => c.data) = .ok t) (hk : ∀ q ∈ cams, q.data.images.length = k)
    {i : Nat} (hi : i < k) (c : Nat) : c < t.rows ∧ t.mask c i = 1 ↔
      ∃ q m o, cams[c]? = some q ∧ q.data.images[i]? = some m ∧ Seen F.find F.create F.draw m o := by
  obtain ⟨h1, h2, h3, h4⟩ := table_facts h hk
  constructor
  · rintro ⟨hc, hm⟩
    have hq : cams[c]? = some (cams[c]'(by omega)) := List.getElem?_eq_getElem (by omega)
    obtain ⟨m, hm', hcase⟩ := h4 c _ hq i hi
    rcases hcase with ⟨-, hs⟩ | ⟨h0, -⟩
    · exact ⟨_, m, _, hq, hm', hs⟩
    · omega
  · rintro ⟨q, m, o, hq, hm, hs⟩
    refine ⟨by rw [h1]; exact (List.getElem?_eq_some_iff.1 hq).1, ?_⟩
    obtain ⟨m', hm', hcase⟩ := h4 c _ hq i hi
    rw [hm] at hm'
    cases hm'
    rcases hcase with ⟨h1, -⟩ | ⟨-, h0⟩
    · exact h1
    · exact absurd ⟨o, hs⟩ h0

theorem table_corr {F : Finder Img} {junk : Nat → Nat → Nat} {cams : List (CameraParams Img)} {k : Nat} {t : CorrDataSet}
    (h : buildCorrDataSet F.find F.create F.draw junk (cams.map fun c => c.data) = .ok t) (hk : ∀ q ∈ cams, q.data.images.length = k)
    {i : Nat} (hi : i < k) {c : Nat} (hc : c < t.rows ∧ t.mask c i = 1) :
      ∃ q m, cams[c]? = some q ∧ q.data.images[i]? = some m ∧ Seen F.find F.create F.draw m (t.corr c i) := by
  obtain ⟨h1, h2, h3, h4⟩ := table_facts h hk
  have hq : cams[c]? = some (cams[c]'(by omega)) := List.getElem?_eq_getElem (by omega)
  obtain ⟨m, hm', hcase⟩ := h4 c _ hq i hi
  rcases hcase with ⟨-, hs⟩ | ⟨h0, -⟩
  · exact ⟨_, m, hq, hm', hs⟩
  · omega

/-- The view of one image. -/
theorem multiStaticView_ok {F : Finder Img} {junk : Nat → Nat → Nat} {cams : List (CameraParams Img)} {k : Nat} {t : CorrDataSet}
    (h : buildCorrDataSet F.find F.create F.draw junk (cams.map fun c => c.data) = .ok t) (hk : ∀ q ∈ cams, q.data.images.length = k)
    {s : Ceres Pose6} {r : MsResult} {i : Nat} (hi : i < k) {o : Option (View Img)}
    (ho : multiStaticView s t (cams.map fun c => c.data) (cams.map fun c => c.intr) r cams.length i = .ok o) :
    ∃ cs, SeeingCameras F cams i cs ∧ (cs.length < 2 → o = none) ∧
      (2 ≤ cs.length → ∃ a v, cs.head? = some a ∧ o = some v ∧ ViewOf s F cams r.baseToCamera r.wristToTarget i a cs v) := by
  obtain ⟨h1, h2, h3, h4⟩ := table_facts h hk
  unfold multiStaticView at ho
  simp only [Res.bind_ok_iff, collectIdx_ok_iff] at ho
  obtain ⟨first, hf, wrist, hw, shown, hshow, ho⟩ := ho
  rw [List.getElem?_map] at hf
  obtain ⟨q0, hq0, rfl⟩ := Option.map_eq_some_iff.1 hf
  rw [← h1] at hshow
  obtain ⟨cs, hasc, hmem, hless, hmore⟩ := C109_view t h3 _ i (by omega) shown hshow
  refine ⟨cs, ⟨hasc, fun c => ?_⟩, fun hlt => ?_, fun hge => ?_⟩
  · rw [hmem]; exact table_seen h hk hi c
  · rw [hless hlt] at ho
    cases ho
    rfl
  · obtain ⟨a, ds, m, hhead, hds, hm, rfl⟩ := hmore hge
    simp only [Res.bind_ok_iff, Res.mapList_ok_iff, collectIdx_ok_iff] at ho
    obtain ⟨poses, hposes, intr, hintr, v, hv, ho⟩ := ho
    cases ho
    rw [List.forall₂_map_left_iff] at hposes hintr
    obtain ⟨himg, A, K, hA, hK, hshows⟩ := reproject_ok hv
    obtain ⟨rest, rfl⟩ : ∃ rest, cs = a :: rest := by
      cases cs with
      | nil => simp at hhead
      | cons b l => simp at hhead; exact ⟨l, by rw [hhead]⟩
    obtain ⟨q, m', hq, hm', hs'⟩ := table_corr h hk hi ((hmem a).1 (by simp))
    rw [List.getElem?_map, hq] at hds
    cases hds
    rw [hm] at hm'
    cases hm'
    have hKq : K = q.intr := by
      cases hintr with
      | cons h1 _ =>
        simp only [List.getElem?_cons_zero, Option.some.injEq] at hK
        subst hK
        simp only [List.getElem?_map, hq, Option.map_some, Option.some.injEq] at h1
        exact h1.symm
    have hTa : r.baseToCamera[a]? = some A := by
      cases hposes with
      | cons h1 _ =>
        simp only [List.getElem?_cons_zero, Option.some.injEq] at hA
        subst hA
        exact h1
    subst hKq
    refine ⟨a, v, rfl, rfl, q0, q, A, wrist, poses, intr, _, hq0, hw, hq, hTa, by rw [himg]; exact hm, hposes, ?_, ?_, hshows⟩
    · refine hintr.imp fun c K hK => ?_
      simp only [List.getElem?_map] at hK
      exact Option.map_eq_some_iff.1 hK
    · rw [List.map_map, List.forall₂_map_right_iff, List.forall₂_same]
      intro c hc
      exact table_corr h hk hi ((hmem c).1 hc)

/-- Full C187: for every image the tools for several cameras show the image of the first of the cameras compared, with all features
drawn where this camera sees them according to the calibration and according to PnP, and the transform they print as that from
camera 0 to the target is the pose of the target in the frame of camera 0.

The tool for several static cameras: exactly the images that two or more cameras saw are shown; the claim holds for those that
camera 0 saw. Missing: images not seen by camera 0, see `C187_multi_static_negation`. -/
theorem C187_multi_static_partial (W : ToolWorld Img) (hp : ProperParams W.param) (junk : Nat → Nat → Nat) (s : Ceres Pose6)
    (rep : MultiStaticReport Img) (h : multiStaticMain W junk s = .ok (some rep)) (k : Nat)
    (hk : ∀ (c : Nat) d, DataParam W (W.param ("camera_" ++ toString c ++ "/data_path")) d → d.images.length = k) :
    ∃ cams : List (CameraParams Img), ∃ F Y p r, CamerasSetup W "base_to_camera_guess" cams k F ∧ MultiStaticProblem cams k F Y p ∧
      multiStatic s p = .ok r ∧ rep.views.length = k ∧
      ∀ i, i < k → ∃ cs, SeeingCameras F cams i cs ∧ (cs.length < 2 → rep.views[i]? = some none) ∧
        (2 ≤ cs.length → ∃ v, rep.views[i]? = some (some v) ∧
          (0 ∈ cs → ViewOf s F cams r.baseToCamera r.wristToTarget i 0 cs v)) := by
  obtain ⟨cams, Y, F, t, data, r, h1, h2, h3, h4, h5, h6, h7, h8, h9, h10, h11, first, hf, hv⟩ := multiStaticMain_ok W hp junk s rep h
  have hk' : ∀ q ∈ cams, q.data.images.length = k := fun q hq => by
    obtain ⟨c, hc⟩ := List.mem_iff_getElem?.1 hq
    exact hk c _ (h2 c q hc).data
  have hlen := Res.mapList_ok_length hv
  rw [List.length_range, hk' first (List.mem_of_getElem? hf)] at hlen
  refine ⟨cams, F, Y, _, r, ⟨h1, h2, h3, hk'⟩, multiStatic_problem h5 hk' h6 Y, h7, hlen, fun i hi => ?_⟩
  rw [Res.mapList_ok_iff, List.forall₂_iff_get] at hv
  have hvi := hv.2 i (by rw [List.length_range, hk' first (List.mem_of_getElem? hf)]; exact hi) (by omega)
  simp only [List.get_eq_getElem, List.getElem_range] at hvi
  have hget : rep.views[i]? = some (rep.views[i]'(by omega)) := List.getElem?_eq_getElem (by omega)
  obtain ⟨cs, hcs, hless, hmore⟩ := multiStaticView_ok h5 hk' hi hvi
  refine ⟨cs, hcs, fun hlt => by rw [hget, hless hlt], fun hge => ?_⟩
  obtain ⟨a, v, ha, ho, hview⟩ := hmore hge
  refine ⟨v, by rw [hget, ho], fun h0 => ?_⟩
  have : a = 0 := by
    cases cs with
    | nil => simp at ha
    | cons b l =>
      simp only [List.head?_cons, Option.some.injEq] at ha
      subst ha
      rcases List.mem_cons.1 h0 with h0 | h0
      · exact h0.symm
      · have := (List.pairwise_cons.1 hcs.1).1 0 h0
        omega
  rw [this] at hview
  exact hview

/-- If camera 0 did not see the target, the transform printed as that from camera 0 to the target is the pose of the target in the
frame of another camera `a`; it is wrong whenever these cameras are not at the same place. -/
theorem C187_multi_static_negation (W : ToolWorld Img) (hp : ProperParams W.param) (junk : Nat → Nat → Nat) (s : Ceres Pose6)
    (rep : MultiStaticReport Img) (h : multiStaticMain W junk s = .ok (some rep)) (k : Nat)
    (hk : ∀ (c : Nat) d, DataParam W (W.param ("camera_" ++ toString c ++ "/data_path")) d → d.images.length = k) :
    ∃ cams : List (CameraParams Img), ∃ F Y p r, CamerasSetup W "base_to_camera_guess" cams k F ∧ MultiStaticProblem cams k F Y p ∧
      multiStatic s p = .ok r ∧
      ∀ i, i < k → ∀ v, rep.views[i]? = some (some v) → ∀ cs, SeeingCameras F cams i cs → 0 ∉ cs →
        ∃ a, 0 < a ∧ a ∈ cs ∧ ViewOf s F cams r.baseToCamera r.wristToTarget i a cs v ∧
          ∀ first wrist T0 A, cams[0]? = some first → first.data.poses[i]? = some wrist → r.baseToCamera[0]? = some T0 →
            r.baseToCamera[a]? = some A → RigidMotion wrist → RigidMotion r.wristToTarget → RigidMotion T0 → RigidMotion A →
            (v.calibrated = T0.inv * (wrist * r.wristToTarget) ↔ A = T0) := by
  obtain ⟨cams, Y, F, t, data, r, h1, h2, h3, h4, h5, h6, h7, h8, h9, h10, h11, first, hf, hv⟩ := multiStaticMain_ok W hp junk s rep h
  have hk' : ∀ q ∈ cams, q.data.images.length = k := fun q hq => by
    obtain ⟨c, hc⟩ := List.mem_iff_getElem?.1 hq
    exact hk c _ (h2 c q hc).data
  have hlen := Res.mapList_ok_length hv
  rw [List.length_range, hk' first (List.mem_of_getElem? hf)] at hlen
  refine ⟨cams, F, Y, _, r, ⟨h1, h2, h3, hk'⟩, multiStatic_problem h5 hk' h6 Y, h7, fun i hi v hvv cs hcs h0 => ?_⟩
  rw [Res.mapList_ok_iff, List.forall₂_iff_get] at hv
  have hvi := hv.2 i (by rw [List.length_range, hk' first (List.mem_of_getElem? hf)]; exact hi) (by omega)
  simp only [List.get_eq_getElem, List.getElem_range] at hvi
  rw [List.getElem?_eq_getElem (by omega)] at hvv
  rw [Option.some.inj hvv] at hvi
  obtain ⟨cs', hcs', hless, hmore⟩ := multiStaticView_ok h5 hk' hi hvi
  have hsame : cs' = cs := by
    refine List.Perm.eq_of_pairwise (le := (· < ·)) (fun a b _ _ hab hba => by omega) hcs'.1 hcs.1 ?_
    rw [List.perm_ext_iff_of_nodup]
    · intro c; rw [hcs'.2, hcs.2]
    · exact hcs'.1.imp fun h => by omega
    · exact hcs.1.imp fun h => by omega
  subst hsame
  by_cases hge : 2 ≤ cs'.length
  · obtain ⟨a, v', ha, ho, hview⟩ := hmore hge
    cases ho
    have hmem : a ∈ cs' := List.mem_of_mem_head? ha
    have hpos : 0 < a := Nat.pos_of_ne_zero fun h => h0 (h ▸ hmem)
    refine ⟨a, hpos, hmem, hview, fun first' wrist T0 A hf' hw hT0 hA rw1 rw2 rw3 rw4 => ?_⟩
    obtain ⟨f, q, A', w, poses, intr, sets, g1, g2, g3, g4, -, -, -, -, hshow⟩ := hview
    rw [hf'] at g1
    cases g1
    rw [hw] at g2
    cases g2
    rw [hA] at g4
    cases g4
    rw [hshow.calibrated]
    constructor
    · intro heq
      have hB : (wrist * r.wristToTarget).IsRigid := Iso.IsRigid.mul ((rigid_iff _).2 rw1) ((rigid_iff _).2 rw2)
      have h1 : A.inv = T0.inv := by
        have := congrArg (fun T => T * (wrist * r.wristToTarget).inv) heq
        simp only [Iso.mul_assoc A.inv, Iso.mul_assoc T0.inv, Iso.mul_inv hB, Iso.mul_one] at this
        exact this
      have := congrArg Iso.inv h1
      rwa [Iso.inv_inv ((rigid_iff _).2 rw4), Iso.inv_inv ((rigid_iff _).2 rw3)] at this
    · rintro rfl; rfl
  · have := hless (by omega)
    cases this

theorem jointItem_iff {F : Finder Img} {junk : Nat → Nat → Nat} {first : CameraParams Img} {rest : List (CameraParams Img)} {k : Nat}
    {t : CorrDataSet} (h : buildCorrDataSet F.find F.create F.draw junk ((first :: rest).map fun c => c.data) = .ok t)
    (hk : ∀ q ∈ first :: rest, q.data.images.length = k) {i : Nat} (hi : i < k) (e : Iso × List (List Corr2)) :
    SharedItem t first.data i e ↔ JointItem F (first :: rest) i e := by
  obtain ⟨h1, h2, h3, h4⟩ := table_facts h hk
  unfold SharedItem JointItem SeenByAll
  rw [List.forall₂_iff_get]
  simp only [List.get_eq_getElem]
  constructor
  · rintro ⟨g1, g2, g3, g4⟩
    refine ⟨⟨first, rfl, g2⟩, by omega, fun c hc hc' => ?_⟩
    obtain ⟨q, m, hq, hm, hs⟩ := table_corr h hk hi ⟨by omega, g1 c (by omega)⟩
    rw [List.getElem?_eq_getElem hc] at hq
    cases hq
    have := g4 c (by omega)
    rw [List.getElem?_eq_getElem hc'] at this
    rw [Option.some.inj this]
    exact ⟨m, hm, hs⟩
  · rintro ⟨⟨q, hq, g2⟩, g3, g4⟩
    cases hq
    have hall : ∀ c, (hc : c < t.rows) → t.mask c i = 1 := fun c hc => by
      obtain ⟨m, hm, hs⟩ := g4 c (by omega) (by omega)
      exact ((table_seen h hk hi c).2 ⟨_, m, _, List.getElem?_eq_getElem (by omega), hm, hs⟩).2
    refine ⟨hall, g2, by omega, fun c hc => ?_⟩
    obtain ⟨m, hm, hs⟩ := g4 c (by omega) (by omega)
    obtain ⟨q, m', hq, hm', hs'⟩ := table_corr h hk hi ⟨hc, hall c hc⟩
    rw [List.getElem?_eq_getElem (by omega)] at hq
    cases hq
    rw [hm] at hm'
    cases hm'
    rw [List.getElem?_eq_getElem (by omega), hs.unique hs']

theorem getBool_ok_iff (v : Option XVal) (b : Bool) : getBool v = .ok b ↔ v = some (.bool b) := by
  unfold getBool
  split
  · simp
  · next h =>
    constructor
    · intro h'; cases h'
    · intro h'; exact absurd h' (h b)

theorem cameraOnly_poses {s : Ceres Pose6} {p : CoProblem} {r : CoResult} (h : cameraOnly s p = .ok r) :
    r.baseToCamera.length = p.baseToCameraGuess.length := by
  unfold cameraOnly at h
  simp only [Res.bind_ok_iff] at h
  obtain ⟨pb, -, h⟩ := h
  cases h
  simp

theorem wristOnly_poses {s : Ceres Pose6} {p : WoProblem} {r : WoResult} (h : wristOnly s p = .ok r) :
    r.baseToCamera.length = p.baseToCameraGuess.length := by
  unfold wristOnly at h
  simp only [Res.bind_ok_iff] at h
  obtain ⟨pb, -, h⟩ := h
  cases h
  simp

/-- A table of correspondences is only made for at least one camera. -/
theorem table_nonempty {F : Finder Img} {junk : Nat → Nat → Nat} {cams : List (CameraParams Img)} {t : CorrDataSet}
    (h : buildCorrDataSet F.find F.create F.draw junk (cams.map fun c => c.data) = .ok t) : ∃ first rest, cams = first :: rest := by
  cases cams with
  | nil => rw [List.map_nil, C80_negation_none] at h; cases h
  | cons a l => exact ⟨a, l, rfl⟩

/-- The steps of the multi step tool. -/
theorem multiStepMain_ok (W : ToolWorld Img) (hp : ProperParams W.param) (junk : Nat → Nat → Nat) (s : Ceres Pose6)
    (rep : MultiStepReport Img) (h : multiStepMain W junk s = .ok (some rep)) (k : Nat)
    (hk : ∀ (c : Nat) d, DataParam W (W.param ("camera_" ++ toString c ++ "/data_path")) d → d.images.length = k) :
    ∃ cams : List (CameraParams Img), ∃ F fix Y js, ∃ items : List (Iso × List (List Corr2)), ∃ pc rc pw rw,
      CamerasSetup W "base_to_camera_guess" cams k F ∧
      W.param "fix_first_camera" = some (.bool fix) ∧ PoseParam (W.param "wrist_to_target_guess") Y ∧
      SelectedAt k (JointItem F cams) js items ∧
      CameraStep cams fix Y items pc ∧ cameraOnly s pc = .ok rc ∧ rc.baseToCamera.length = cams.length ∧
      ReportsOpt rep.camerasOpt rc.converged rc.initialCost rc.finalCost ∧ ReportsCameras rep.cameras rc.baseToCamera ∧
      WristStep cams rc.baseToCamera Y items pw ∧ wristOnly s pw = .ok rw ∧ rw.baseToCamera.length = cams.length ∧
      ReportsOpt rep.wristOpt rw.converged rw.initialCost rw.finalCost ∧ rep.wristToTarget = printTransform rw.wristToTarget ∧
      ReportsCameras rep.corrected rw.baseToCamera ∧ cams ≠ [] ∧
      ∃ d, d.wristPoses = items.map Prod.fst ∧ Res.mapList (multiStepView s (cams.map fun c => c.data) (cams.map fun c => c.intr)
        pw.observations d rw cams.length) (List.range d.wristPoses.length) = .ok rep.views := by
  unfold multiStepMain at h
  rw [toolExit_ok] at h
  simp only [Res.bind_ok_iff, cameraCount_ok_iff, loadFinder_ok_iff, needPose_ok_iff hp, getBool_ok_iff,
    loadCameras_ok_iff W hp _ (C106_partial W.codec W.fs · |>.2)] at h
  obtain ⟨n, h1, cams, ⟨rfl, h2⟩, fix, h3, F, h4, Y, h5, t, h6, d, h7, rc, h8, out, h9, rw', h10, out', h11, views, h12, h13⟩ := h
  have hk' : ∀ q ∈ cams, q.data.images.length = k := fun q hq => by
    obtain ⟨c, hc⟩ := List.mem_iff_getElem?.1 hq
    exact hk c _ (h2 c q hc).data
  obtain ⟨first, rest, rfl⟩ := table_nonempty h6
  obtain ⟨g1, g2, g3, g4⟩ := table_facts h6 hk'
  obtain ⟨js, items, hsel, hw, hobs, hguess⟩ := C107_multi_step t g3 _ _ Y d h7
  rw [g2] at hsel
  have hsel' := hsel.congr (Q := JointItem F (first :: rest)) fun i a hi => jointItem_iff h6 hk' hi a
  have hr1 := cameraOnly_poses h8
  have hr2 := wristOnly_poses h10
  simp only [List.length_map] at hr1
  simp only [hr1] at hr2
  have h13 := (Res.ok.inj h13).symm
  have hper : ∀ (c : Nat), c < (first :: rest).length → (perCamera t.rows d)[c]? = some (items.map fun e => e.2.getD c []) := by
    intro c hc
    unfold perCamera
    rw [List.getElem?_map, List.getElem?_range (by omega), Option.map_some, hobs, List.map_map]
    rfl
  have hlen : (perCamera t.rows d).length = (first :: rest).length := by simp [perCamera, g1]
  refine ⟨first :: rest, F, fix, Y, js, items, _, rc, _, rw', ⟨h1, h2, h4, hk'⟩, h3, h5, hsel',
    ⟨rfl, rfl, rfl, hguess, hlen, hper⟩, h8, hr1, ?_, ?_, ⟨rfl, rfl, rfl, hw, hlen, hper⟩, h10, hr2, ?_, ?_, ?_, by simp, d, hw, ?_⟩
  · rw [h13]; exact reportsOpt_of _ _ _
  · rw [h13]; exact printCameras_ok hr1 h9
  · rw [h13]; exact reportsOpt_of _ _ _
  · rw [h13]
  · rw [h13]; exact printCameras_ok hr2 h11
  · rw [h13]; exact h12

/-- The multi step tool: the first step calibrates the cameras with exactly the images that all cameras saw; the second step
starts with the camera poses found in the first and uses the wrist poses recorded with the same images; what is printed are the
results of these steps. All data sets have `k` images. -/
theorem C186_multi_step (W : ToolWorld Img) (hp : ProperParams W.param) (junk : Nat → Nat → Nat) (s : Ceres Pose6)
    (rep : MultiStepReport Img) (h : multiStepMain W junk s = .ok (some rep)) (k : Nat)
    (hk : ∀ (c : Nat) d, DataParam W (W.param ("camera_" ++ toString c ++ "/data_path")) d → d.images.length = k) :
    ∃ cams : List (CameraParams Img), ∃ F fix Y js, ∃ items : List (Iso × List (List Corr2)), ∃ pc rc pw rw,
      CamerasSetup W "base_to_camera_guess" cams k F ∧
      W.param "fix_first_camera" = some (.bool fix) ∧ PoseParam (W.param "wrist_to_target_guess") Y ∧
      SelectedAt k (JointItem F cams) js items ∧
      CameraStep cams fix Y items pc ∧ cameraOnly s pc = .ok rc ∧ rc.baseToCamera.length = cams.length ∧
      ReportsOpt rep.camerasOpt rc.converged rc.initialCost rc.finalCost ∧ ReportsCameras rep.cameras rc.baseToCamera ∧
      WristStep cams rc.baseToCamera Y items pw ∧ wristOnly s pw = .ok rw ∧ rw.baseToCamera.length = cams.length ∧
      ReportsOpt rep.wristOpt rw.converged rw.initialCost rw.finalCost ∧ rep.wristToTarget = printTransform rw.wristToTarget ∧
      ReportsCameras rep.corrected rw.baseToCamera := by
  obtain ⟨cams, F, fix, Y, js, items, pc, rc, pw, rw', h1, h2, h3, h4, h5, h6, h7, h8, h9, h10, h11, h12, h13, h14, h15, -⟩ :=
    multiStepMain_ok W hp junk s rep h k hk
  exact ⟨cams, F, fix, Y, js, items, pc, rc, pw, rw', h1, h2, h3, h4, h5, h6, h7, h8, h9, h10, h11, h12, h13, h14, h15⟩

/-- The PnP tool for several cameras: for exactly the images that all cameras saw, in order, the pose recorded with the image is
compared with the estimate of all cameras, on that image of camera 0, as camera 0 sees it. -/
theorem C186_multi_pnp (W : ToolWorld Img) (hp : ProperParams W.param) (junk : Nat → Nat → Nat) (s : Ceres Pose6)
    (rep : List (Iso × View Img)) (h : multiPnpMain W junk s = .ok (some rep)) (k : Nat)
    (hk : ∀ (c : Nat) d, DataParam W (W.param ("camera_" ++ toString c ++ "/data_path")) d → d.images.length = k) :
    ∃ first : CameraParams Img, ∃ rest, ∃ F js items, CamerasSetup W "base_to_camera" (first :: rest) k F ∧
      SelectedAt k (JointItem F (first :: rest)) js items ∧
      List.Forall₂ (fun (i : Nat) (o : Iso × View Img) => first.data.images[i]? = some o.2.image) js rep ∧
      List.Forall₂ (fun (e : Iso × List (List Corr2)) (o : Iso × View Img) => o.1 = e.1 ∧
        ViewShows s e.1 ((first :: rest).map fun q => q.pose) ((first :: rest).map fun q => q.intr) e.2 first.pose first.intr o.2)
        items rep := by
  unfold multiPnpMain at h
  rw [toolExit_ok] at h
  simp only [Res.bind_ok_iff, cameraCount_ok_iff, loadFinder_ok_iff,
    loadCameras_ok_iff W hp _ (C106_partial W.codec W.fs · |>.2)] at h
  obtain ⟨n, h1, cams, ⟨rfl, h2⟩, F, h3, t, h4, items, h5, h6⟩ := h
  have hk' : ∀ q ∈ cams, q.data.images.length = k := fun q hq => by
    obtain ⟨c, hc⟩ := List.mem_iff_getElem?.1 hq
    exact hk c _ (h2 c q hc).data
  obtain ⟨first, rest, rfl⟩ := table_nonempty h4
  obtain ⟨g1, g2, g3, g4⟩ := table_facts h4 hk'
  rw [← g1] at h5
  obtain ⟨js, hsel⟩ := C107_multi_pnp t g3 _ _ items h5
  refine ⟨first, rest, F, js, items.map fun e => (e.1, e.2.2), ⟨h1, h2, h3, hk'⟩, ?_, ?_, ?_⟩
  · rw [g2] at hsel
    obtain ⟨s1, s2, s3⟩ := hsel
    refine ⟨s1, fun j => ?_, ?_⟩
    · rw [s2]
      constructor
      · rintro ⟨hj, e, he, -⟩
        exact ⟨hj, _, (jointItem_iff h4 hk' hj _).1 he⟩
      · rintro ⟨hj, e, he⟩
        have hl := hk' first (by simp)
        exact ⟨hj, (e.1, first.data.images[j], e.2), (jointItem_iff h4 hk' hj _).2 he,
          List.getElem?_eq_getElem (show j < first.data.images.length by omega)⟩
    · rw [List.forall₂_map_right_iff]
      exact Forall₂.imp_mem s3 fun j hj e he => (jointItem_iff h4 hk' ((s2 j).1 hj).1 _).1 he.1
  · have s3 := hsel.2.2
    rw [Res.mapList_ok_iff] at h6
    rw [List.forall₂_iff_get] at s3 h6 ⊢
    refine ⟨s3.1.trans h6.1, fun j hj hj' => ?_⟩
    obtain ⟨a1, a2⟩ := s3.2 j hj (by have := s3.1; omega)
    have hv := h6.2 j (by have := s3.1; omega) hj'
    rw [Res.bind_ok_iff] at hv
    obtain ⟨v, hv, ho⟩ := hv
    rw [a2, ← (Res.ok.inj ho), (reproject_ok hv).1]
  · rw [List.forall₂_map_left_iff]
    rw [Res.mapList_ok_iff] at h6
    refine h6.imp fun e o ho => ?_
    rw [Res.bind_ok_iff] at ho
    obtain ⟨v, hv, ho⟩ := ho
    cases ho
    obtain ⟨hi, A, K, hA, hK, hs⟩ := reproject_ok hv
    cases hA
    cases hK
    exact ⟨rfl, hs⟩

/-- The multi step tool: number `j` of the images that all cameras saw is shown with all features drawn as camera 0 sees them, and
the transforms are those from camera 0 to the target. The picture below is image `j` of camera 0, see C85. -/
theorem C187_multi_step (W : ToolWorld Img) (hp : ProperParams W.param) (junk : Nat → Nat → Nat) (s : Ceres Pose6)
    (rep : MultiStepReport Img) (h : multiStepMain W junk s = .ok (some rep)) (k : Nat)
    (hk : ∀ (c : Nat) d, DataParam W (W.param ("camera_" ++ toString c ++ "/data_path")) d → d.images.length = k) :
    ∃ first : CameraParams Img, ∃ rest F js items T0 T Y, CamerasSetup W "base_to_camera_guess" (first :: rest) k F ∧
      SelectedAt k (JointItem F (first :: rest)) js items ∧ ReportsCameras rep.corrected (T0 :: T) ∧
      rep.wristToTarget = printTransform Y ∧
      List.Forall₂ (fun (e : Iso × List (List Corr2)) (v : View Img) =>
        ViewShows s (e.1 * Y) (T0 :: T) ((first :: rest).map fun q => q.intr) e.2 T0 first.intr v) items rep.views ∧
      ∀ (j : Nat) v, rep.views[j]? = some v → first.data.images[j]? = some v.image := by
  obtain ⟨cams, F, fix, Y, js, items, pc, rc, pw, rw', h1, h2, h3, h4, h5, h6, h7, h8, h9, h10, h11, h12, h13, h14, h15, hne,
    d, h16, h17⟩ := multiStepMain_ok W hp junk s rep h k hk
  obtain ⟨first, rest, rfl⟩ := List.exists_cons_of_ne_nil hne
  obtain ⟨T0, T, hT⟩ : ∃ T0 T, rw'.baseToCamera = T0 :: T := by
    refine List.exists_cons_of_ne_nil fun h0 => ?_
    rw [h0] at h12
    simp at h12
  rw [Res.mapList_ok_iff, List.forall₂_iff_get] at h17
  simp only [List.get_eq_getElem, List.getElem_range, List.length_range] at h17
  obtain ⟨hl, hv⟩ := h17
  have hdl : d.wristPoses.length = items.length := by rw [h16, List.length_map]
  have hviews : ∀ (j : Nat) (hj : j < items.length) (hj' : j < rep.views.length),
      first.data.images[j]? = some rep.views[j].image ∧
      ViewShows s (items[j].1 * rw'.wristToTarget) (T0 :: T) ((first :: rest).map fun q => q.intr) items[j].2 T0 first.intr rep.views[j] := by
    intro j hj hj'
    have hvj := hv j (by omega) hj'
    unfold multiStepView at hvj
    simp only [Res.bind_ok_iff, collectIdx_ok_iff, Res.mapList_ok_iff] at hvj
    obtain ⟨wrist, e1, poses, e2, intr, e3, cs, e4, f, e5, image, e6, e7⟩ := hvj
    obtain ⟨k1, A, K, k2, k3, k4⟩ := reproject_ok e7
    have hwrist : wrist = items[j].1 := by
      rw [h16, List.getElem?_map, List.getElem?_eq_getElem hj] at e1
      exact (Option.some.inj e1).symm
    have full : ∀ {α : Type} (l out : List α), l.length = (first :: rest).length →
        List.Forall₂ (fun (c : Nat) (a : α) => l[c]? = some a) (List.range (first :: rest).length) out → out = l := by
      intro α l out hlen hall
      rw [List.forall₂_iff_get] at hall
      simp only [List.length_range, List.get_eq_getElem, List.getElem_range] at hall
      refine List.ext_getElem (by omega) fun n hn hn' => ?_
      have := hall.2 n (by omega) hn
      rw [List.getElem?_eq_getElem hn'] at this
      exact (Option.some.inj this).symm
    have hposes := full _ _ h12 e2
    have hintr := full _ _ (by simp) e3
    have hcs : cs = items[j].2 := by
      have hlen2 : items[j].2.length = (first :: rest).length := by
        have hitem : ∃ i, JointItem F (first :: rest) i items[j] := by
          obtain ⟨i, -, hi⟩ := Forall₂.mem_right h4.2.2 (List.getElem_mem hj)
          exact ⟨i, hi⟩
        obtain ⟨i, -, hi⟩ := hitem
        exact hi.length_eq.symm
      refine full _ _ hlen2 ?_
      refine Forall₂.imp_mem e4 fun c hc o ho => ?_
      rw [List.mem_range] at hc
      obtain ⟨oc, ho1, ho2⟩ := ho
      rw [h10.images c hc] at ho1
      rw [← Option.some.inj ho1, List.getElem?_map, List.getElem?_eq_getElem hj, Option.map_some] at ho2
      rw [← Option.some.inj ho2, List.getD_eq_getElem?_getD, List.getElem?_eq_getElem (by omega)]
      rfl
    subst hwrist hposes hintr hcs
    rw [hT] at k2 k4
    cases k2
    cases k3
    cases e5
    rw [k1]
    exact ⟨e6, k4⟩
  refine ⟨first, rest, F, js, items, T0, T, rw'.wristToTarget, h1, h4, hT ▸ h15, h14, ?_, fun j v hjv => ?_⟩
  · rw [List.forall₂_iff_get]
    exact ⟨by omega, fun j hj hj' => (hviews j hj hj').2⟩
  · obtain ⟨hj, rfl⟩ := List.getElem?_eq_some_iff.1 hjv
    exact (hviews j (by omega) hj).1

end RCT
