import Verif.Props.MultiMains
import Verif.Props.Alignment

/-!
# Exit codes of the tools for several cameras (C188)
-/

namespace RCT
open Spec

variable {Img : Type}

/-! ### Loading -/

theorem orderly_cameraCount (v : Option XVal) : Orderly (cameraCount v) := by
  unfold cameraCount
  refine Spec.Orderly.bind ?_ fun n _ => ?_
  · unfold getInt
    split <;> first | exact orderly_ok _ | exact orderly_throw _
  · split_ifs
    · exact orderly_throw _
    · exact orderly_ok _

theorem orderly_getBool (v : Option XVal) : Orderly (getBool v) := by
  unfold getBool
  split <;> first | exact orderly_ok _ | exact orderly_throw _

theorem orderly_tryPose (v : Option XVal) (d : Iso) : Orderly (tryLoadPoseParam v d) :=
  ((orderly_loadPoseParam v).bind fun _ _ => orderly_ok _).catch _ _

theorem orderly_tryIntr (v : Option XVal) (d : Intr) : Orderly (tryLoadIntrParam v d) :=
  ((orderly_loadIntrParam v).bind fun _ _ => orderly_ok _).catch _ _

theorem orderly_needPose (v : Option XVal) : Orderly (needPose v) := by
  refine (orderly_tryPose v 1).bind fun T _ => ?_
  split_ifs
  · exact orderly_throw _
  · exact orderly_ok _

theorem orderly_loadCamera (W : ToolWorld Img) (load : String → Res (DataSet Img)) (pose : String) (c : Nat)
    (hload : ∀ path, W.param ("camera_" ++ toString c ++ "/data_path") = some (.string path) → Orderly (load path)) :
    Orderly (loadCamera W load pose c) := by
  unfold loadCamera
  refine (orderly_getString _).bind fun path hpath => ?_
  rw [key_data, getString_ok_iff] at hpath
  refine (hload path hpath).bind fun d _ => (orderly_tryIntr _ _).bind fun i _ => ?_
  split_ifs
  · exact orderly_throw _
  · refine (orderly_tryPose _ _).bind fun T _ => ?_
    split_ifs
    · exact orderly_throw _
    · exact orderly_ok _

theorem orderly_loadMultiStatic (C : Codec Img) (fs : FS Img) (path : String) (h : parseFromFile C fs path ≠ .ok none) :
    Orderly (loadMultiStatic C fs path) := by
  unfold loadMultiStatic
  refine (orderly_parseFromFile C fs path).bind fun o ho => ?_
  cases o with
  | none => exact absurd ho h
  | some d => exact orderly_ok _

/-- Everything before the first element that does not return is done. -/
theorem mapList_stops {α β : Type} {f : α → Res β} {l₁ l₂ : List α} {a : α} (h : ∀ b ∈ l₁, ∃ x, f b = .ok x) (ha : f a = .ub) :
    Res.mapList f (l₁ ++ a :: l₂) = .ub := by
  induction l₁ with
  | nil => show (f a).bind _ = _; rw [ha]; rfl
  | cons b l ih =>
    obtain ⟨x, hx⟩ := h b (by simp)
    show (f b).bind (fun y => (Res.mapList f (l ++ a :: l₂)).bind fun ys => .ok (y :: ys)) = _
    rw [hx, Res.ok_bind, ih fun b hb => h b (by simp [hb])]
    rfl

/-! ### The calibration -/

theorem msNames_size (p : MsProblem) : (msNames p).size = p.baseToCameraGuess.length + 1 := by
  unfold msNames
  rw [SMap.size_insert_new]
  · rw [size_foldl_insert (fun c => poseLabels labelsIsometry3d (p.labelCamera ++ toString c)) msCam fun a b => (C41_distinct a b).1.1]
    · simp [SMap.size]
    · intro c _; rfl
  · rw [find_foldl_insert_ne (fun c => poseLabels labelsIsometry3d (p.labelCamera ++ toString c)) msCam _ _ _
      (by intro c _; exact ((C41_distinct c 0).2).symm)]
    rfl

/-- The sizes fit. -/
structure MsSizes (p : MsProblem) : Prop where
  wrist : p.wristPoses.length = p.baseToCameraGuess.length
  obs : p.observations.length = p.baseToCameraGuess.length
  intr : p.intr.length = p.baseToCameraGuess.length
  images : ∀ (c : Nat) oc wp, p.observations[c]? = some oc → p.wristPoses[c]? = some wp → oc.length = wp.length

theorem ms_used {p : MsProblem} (hp : MsSizes p) {pb : List (ResBlock Pose6)} (hb : msBuild p = .ok pb) {c : Nat} {oc : List (List Corr2)}
    {l : List Corr2} (ho : p.observations[c]? = some oc) (hl : l ∈ oc) (hne : l ≠ []) :
    msCam c ∈ usedBlocks pb ∧ msTgt ∈ usedBlocks pb := by
  obtain ⟨k, hk⟩ := List.exists_mem_of_ne_nil _ hne
  obtain ⟨i, hi, hil⟩ := List.mem_iff_getElem.1 hl
  have hc : c < p.baseToCameraGuess.length := by rw [← hp.obs]; exact (List.getElem?_eq_some_iff.1 ho).1
  have hw : p.wristPoses[c]? = some (p.wristPoses[c]'(by rw [hp.wrist]; exact hc)) := List.getElem?_eq_getElem _
  have hm : (⟨c, i, k⟩ : Feature) ∈ byCamera p.observations p.baseToCameraGuess.length fun c => (p.wristPoses.getD c []).length := by
    refine byCamera_mem hc ?_ ?_
    · rw [List.getD_eq_getElem?_getD, hw, Option.getD_some, ← hp.images c oc _ ho hw]
      exact hi
    · rw [List.getD_eq_getElem?_getD (l := p.observations), ho, Option.getD_some, List.getD_eq_getElem?_getD,
        List.getElem?_eq_getElem hi, hil]
      exact hk
  obtain ⟨b, hb1, intr, wp, w, -, -, -, rfl⟩ := Forall₂.mem_left (msBuild_blocks hb) hm
  exact ⟨mem_usedBlocks.2 ⟨_, hb1, by simp⟩, mem_usedBlocks.2 ⟨_, hb1, by simp⟩⟩

theorem ms_all_used {p : MsProblem} (hp : MsSizes p) (hn : p.baseToCameraGuess ≠ [])
    (hsee : ∀ c, c < p.baseToCameraGuess.length → ∃ oc, ∃ l ∈ oc, p.observations[c]? = some oc ∧ l ≠ [])
    {pb : List (ResBlock Pose6)} (hb : msBuild p = .ok pb) :
    ∀ b ∈ (List.range p.baseToCameraGuess.length).map msCam ++ [msTgt], b ∈ usedBlocks pb := by
  intro b hb'
  simp only [List.mem_append, List.mem_map, List.mem_range, List.mem_singleton] at hb'
  rcases hb' with ⟨c, hc, rfl⟩ | rfl
  · obtain ⟨oc, l, hl, ho, hne⟩ := hsee c hc
    exact (ms_used hp hb ho hl hne).1
  · obtain ⟨oc, l, hl, ho, hne⟩ := hsee 0 (List.length_pos_of_ne_nil hn)
    exact (ms_used hp hb ho hl hne).2

theorem orderly_multiStatic {s : Ceres Pose6} (hs : OrderlyCeres s) {p : MsProblem} (hp : MsSizes p) (hn : p.baseToCameraGuess ≠ [])
    (hsee : ∀ c, c < p.baseToCameraGuess.length → ∃ oc, ∃ l ∈ oc, p.observations[c]? = some oc ∧ l ≠ []) :
    Orderly (multiStatic s p) := by
  obtain ⟨pb, hb⟩ := C41_built p hp.wrist hp.obs hp.intr hp.images
  have hu := ms_all_used hp hn hsee hb
  unfold multiStatic
  rw [hb, Res.ok_bind]
  refine Spec.Orderly.bind (orderly_covariance _ _ (fun b hb => by simp [Ceres.covSolver, hu b hb]) (hs.compute _ _ _ ?_ hu))
    fun _ _ => orderly_ok _
  rw [List.nodup_append]
  refine ⟨List.nodup_range.map fun a b h => ((C41_distinct a b).1.1 h), by simp, ?_⟩
  intro a ha b hb
  obtain ⟨c, -, rfl⟩ := List.mem_map.1 ha
  rw [List.mem_singleton.1 hb]
  exact (C41_distinct c 0).2

theorem multiStatic_id_runs {p : MsProblem} (hp : MsSizes p) (hn : p.baseToCameraGuess ≠ [])
    (hsee : ∀ c, c < p.baseToCameraGuess.length → ∃ oc, ∃ l ∈ oc, p.observations[c]? = some oc ∧ l ≠ []) :
    ∃ r, multiStatic (idCeres Pose6) p = .ok r := by
  obtain ⟨pb, hb⟩ := C41_built p hp.wrist hp.obs hp.intr hp.images
  have hu := ms_all_used hp hn hsee hb
  unfold multiStatic
  rw [hb, Res.ok_bind]
  simp only
  obtain ⟨cov, hc⟩ := computeCovariance_returns
    (cs := (idCeres Pose6).covSolver pb ((idCeres Pose6).solve pb (msInit p)) 6)
    (blocks := (List.range p.baseToCameraGuess.length).map msCam ++ [msTgt]) (names := msNames p) (masks := [])
    (by rw [msNames_size]; simp) (fun b hb => ⟨_, msNames_find p b hb, by simp [Ceres.covSolver, hu b hb, poseLabels, labelsIsometry3d]⟩)
    rfl rfl
  exact ⟨_, (Res.bind_ok_iff _ _ _).2 ⟨cov, hc, rfl⟩⟩

/-- A block that is not part of the problem ends the process if all blocks have labels of the right length. -/
theorem tangent_unknown {cs : CovSolver} {names : SMap Nat (List String)} {masks : SMap Nat (List Int)} {n : Nat} {blocks : List Nat}
    (hsize : ∀ b ∈ blocks, cs.blockSize b = none ∨ cs.blockSize b = some n)
    (hnames : ∀ b ∈ blocks, ∃ l, names.find b = some l ∧ l.length = n) (hun : ∃ b ∈ blocks, cs.blockSize b = none) (t : Tangent) :
    Res.foldList (tangentBlock cs names masks) t blocks = .abort := by
  induction blocks generalizing t with
  | nil => obtain ⟨b, hb, -⟩ := hun; cases hb
  | cons b bs ih =>
    rw [Res.foldList_cons]
    rcases hsize b (by simp) with h | h
    · have : tangentBlock cs names masks t b = .abort := by unfold tangentBlock; rw [h]
      rw [this]; rfl
    · rcases tangentBlocks_outcome cs names masks [b] t (by simp [h]) with ⟨t', ht⟩ | ⟨⟨b', hb', hl⟩, -⟩
      · rw [Res.foldList_cons] at ht
        obtain ⟨t'', h1, h2⟩ := (Res.bind_ok_iff _ _ _).1 ht
        rw [h1, Res.ok_bind]
        refine ih (fun b hb => hsize b (by simp [hb])) (fun b hb => hnames b (by simp [hb])) ?_ t''
        obtain ⟨c, hc, hcn⟩ := hun
        rcases List.mem_cons.1 hc with rfl | hc
        · rw [h] at hcn; cases hcn
        · exact ⟨c, hc, hcn⟩
      · exfalso
        rw [List.mem_singleton.1 hb'] at hl
        obtain ⟨l, h1, h2⟩ := hnames b (by simp)
        exact hl l h1 (by rw [h, h2])

/-- A camera that contributes no feature ends the process. -/
theorem multiStatic_blind (s : Ceres Pose6) {p : MsProblem} (hp : MsSizes p) (hblind : ∃ c < p.baseToCameraGuess.length,
      ∀ oc, p.observations[c]? = some oc → ∀ l ∈ oc, l = []) : multiStatic s p = .abort := by
  obtain ⟨pb, hb⟩ := C41_built p hp.wrist hp.obs hp.intr hp.images
  unfold multiStatic
  rw [hb, Res.ok_bind]
  obtain ⟨c, hc, hno⟩ := hblind
  have hnot : msCam c ∉ usedBlocks pb := by
    intro hmem
    obtain ⟨b, hb1, hb2⟩ := mem_usedBlocks.1 hmem
    obtain ⟨f, hf, intr, wp, w, -, -, -, rfl⟩ := Forall₂.mem_right (msBuild_blocks hb) hb1
    simp only [List.mem_cons, List.not_mem_nil, or_false] at hb2
    rcases hb2 with hb2 | hb2
    · have hcf := (C41_distinct _ _).1.1 hb2
      subst hcf
      obtain ⟨-, -, h3⟩ := mem_byCamera hf
      rw [List.getD_eq_getElem?_getD, List.getD_eq_getElem?_getD] at h3
      cases ho : p.observations[f.cam]? with
      | none => rw [ho] at h3; simp at h3
      | some oc =>
        rw [ho, Option.getD_some] at h3
        cases hi : oc[f.img]? with
        | none => rw [hi] at h3; simp at h3
        | some l =>
          rw [hi, Option.getD_some, hno oc ho l (List.mem_of_getElem? hi)] at h3
          cases h3
    · exact (C41_distinct c 0).2 hb2
  simp only
  unfold computeCovariance
  rw [if_neg (by rw [msNames_size]; simp), tangent_unknown (n := 6)]
  · rfl
  · intro b _
    by_cases h : b ∈ usedBlocks pb
    · right; simp [Ceres.covSolver, h]
    · left; simp [Ceres.covSolver, h]
  · intro b hb
    exact ⟨_, msNames_find p b hb, by simp [poseLabels, labelsIsometry3d]⟩
  · exact ⟨msCam c, List.mem_append_left _ (List.mem_map.2 ⟨c, List.mem_range.2 hc, rfl⟩), by simp [Ceres.covSolver, hnot]⟩

/-! ### What follows the calibration -/

theorem printCameras_returns {n : Nat} {poses : List Iso} (hn : poses.length = n) : ∃ out, printCameras n poses = .ok out := by
  refine Res.mapList_returns fun c hc => ?_
  rw [List.mem_range] at hc
  rw [collectIdx_lt (by omega : c < poses.length), Res.ok_bind, collectIdx_lt (by omega : 0 < poses.length), Res.ok_bind]
  exact ⟨_, rfl⟩

theorem reproject_returns (s : Ceres Pose6) (B : Iso) {poses : List Iso} {intr : List Intr} (image : Img) {sets : List (List Corr2)}
    (hne : poses ≠ []) (h1 : intr.length = poses.length) (h2 : sets.length = poses.length) :
    ∃ v, reproject s B poses intr image sets = .ok v := by
  have hp := List.length_pos_of_ne_nil hne
  unfold reproject
  rw [collectIdx_lt hp, Res.ok_bind, collectIdx_lt (by omega : 0 < intr.length), Res.ok_bind]
  obtain ⟨r, hr⟩ := C125_returns s ⟨intr, poses, sets, B⟩ (by simp [h1]) (by simp [h2])
  simp only [hr, Res.ok_bind]
  exact ⟨_, rfl⟩

theorem Res.bind_returns {α β : Type} {m : Res α} {f : α → Res β} (h : ∃ a, m = .ok a) (hf : ∀ a, m = .ok a → ∃ b, f a = .ok b) :
    ∃ b, m.bind f = .ok b := by
  obtain ⟨a, rfl⟩ := h
  exact hf a rfl

theorem multiStaticShow_returns {t : CorrDataSet} {sets : List (DataSet Img)} {n i : Nat} (hn : n ≤ sets.length)
    (hi : ∀ d ∈ sets, i < d.images.length) : ∃ o, multiStaticShow t sets n i = .ok o := by
  refine Res.bind_returns (fold_returns (fun acc c hc => ?_) _) fun acc _ => ?_
  · split_ifs
    · refine Res.bind_returns ?_ fun _ _ => ⟨_, rfl⟩
      have hc' : c < sets.length := by omega
      cases acc.2 with
      | some m => exact ⟨_, rfl⟩
      | none =>
        simp only
        rw [collectIdx_lt hc', Res.ok_bind, collectIdx_lt (hi _ (List.getElem_mem hc')), Res.ok_bind]
        exact ⟨_, rfl⟩
    · exact ⟨_, rfl⟩
  · cases acc.2 <;> exact ⟨_, rfl⟩

theorem multiStaticView_returns {F : Finder Img} {junk : Nat → Nat → Nat} {cams : List (CameraParams Img)} {k : Nat} {t : CorrDataSet}
    (h : buildCorrDataSet F.find F.create F.draw junk (cams.map fun c => c.data) = .ok t) (hk : ∀ q ∈ cams, q.data.images.length = k)
    (hpose : ∀ q ∈ cams, q.data.images.length = q.data.poses.length)
    (s : Ceres Pose6) {r : MsResult} (hr : r.baseToCamera.length = cams.length) {i : Nat} (hi : i < k) :
    ∃ o, multiStaticView s t (cams.map fun c => c.data) (cams.map fun c => c.intr) r cams.length i = .ok o := by
  obtain ⟨h1, h2, h3, h4⟩ := table_facts h hk
  obtain ⟨first, rest, rfl⟩ := table_nonempty h
  unfold multiStaticView
  have hf := hk first (by simp)
  have hfp := hpose first (by simp)
  have h0 : Res.idxList ((first :: rest).map fun c : CameraParams Img => c.data) 0 = .ok first.data := rfl
  rw [h0, Res.ok_bind, collectIdx_lt (by omega : i < first.data.poses.length), Res.ok_bind]
  obtain ⟨o, ho⟩ := multiStaticShow_returns (t := t) (sets := (first :: rest).map fun c => c.data) (n := (first :: rest).length) (i := i)
    (by simp) (by
      intro d hd
      obtain ⟨q, hq, rfl⟩ := List.mem_map.1 hd
      rw [hk q hq]; exact hi)
  rw [ho, Res.ok_bind]
  rw [← h1] at ho
  obtain ⟨cs, -, hmem, hless, hmore⟩ := C109_view t h3 _ i (by omega) o ho
  by_cases hlt : cs.length < 2
  · rw [hless hlt]; exact ⟨_, rfl⟩
  · obtain ⟨a, ds, m, -, -, -, rfl⟩ := hmore (by omega)
    simp only
    have hin : ∀ e ∈ cs.map (fun c => (c, t.corr c i)), e.1 < (first :: rest).length := by
      intro e he
      obtain ⟨c, hc, rfl⟩ := List.mem_map.1 he
      rw [← h1]; exact ((hmem c).1 hc).1
    obtain ⟨poses, hposes⟩ : ∃ poses, Res.mapList (fun e : Nat × List Corr2 => Res.idxList r.baseToCamera e.1)
        (cs.map fun c => (c, t.corr c i)) = .ok poses :=
      Res.mapList_returns fun e he => ⟨_, collectIdx_lt (by have := hin e he; omega)⟩
    obtain ⟨intr, hintr⟩ : ∃ intr, Res.mapList (fun e : Nat × List Corr2 => Res.idxList ((first :: rest).map fun c => c.intr) e.1)
        (cs.map fun c => (c, t.corr c i)) = .ok intr :=
      Res.mapList_returns fun e he => ⟨_, collectIdx_lt (by simpa using hin e he)⟩
    have l1 := Res.mapList_ok_length hposes
    have l2 := Res.mapList_ok_length hintr
    rw [hposes, Res.ok_bind, hintr, Res.ok_bind]
    obtain ⟨v, hv⟩ := reproject_returns s (first.data.poses[i]'(by omega) * r.wristToTarget) (poses := poses) (intr := intr) m
      (sets := (cs.map fun c => (c, t.corr c i)).map fun e => e.2) (by
        rintro rfl
        simp at l1 hlt
        rw [← l1] at hlt
        simp at hlt) (by omega) (by simp only [List.length_map] at l1 ⊢; omega)
    rw [hv]
    exact ⟨_, rfl⟩

theorem cameraOnly_returns (s : Ceres Pose6) (p : CoProblem) (h1 : p.intr.length = p.baseToCameraGuess.length)
    (h2 : ∀ c, c < p.baseToCameraGuess.length → ∃ oc, p.observations[c]? = some oc ∧ oc.length = p.baseToTargetGuess.length) :
    ∃ r, cameraOnly s p = .ok r := by
  obtain ⟨pb, hb⟩ : ∃ pb, coBuild p = .ok pb := by
    refine Res.flatMapList_returns fun i hi => Res.flatMapList_returns fun c hc => ?_
    rw [List.mem_range] at hi hc
    obtain ⟨oc, ho, hl⟩ := h2 c hc
    rw [(collectIdx_ok_iff _ _ _).2 ho, Res.ok_bind, collectIdx_lt (by omega : i < oc.length), Res.ok_bind]
    refine Res.mapList_returns fun k _ => ?_
    rw [collectIdx_lt (by omega : c < p.intr.length), Res.ok_bind]
    split_ifs
    · rw [collectIdx_lt hc, Res.ok_bind]; exact ⟨_, rfl⟩
    · exact ⟨_, rfl⟩
  unfold cameraOnly
  rw [hb, Res.ok_bind]
  exact ⟨_, rfl⟩

theorem wristOnly_returns (s : Ceres Pose6) (p : WoProblem) (h1 : p.intr.length = p.baseToCameraGuess.length)
    (h2 : ∀ c, c < p.baseToCameraGuess.length → ∃ oc, p.observations[c]? = some oc ∧ oc.length = p.wristPoses.length) :
    ∃ r, wristOnly s p = .ok r := by
  obtain ⟨pb, hb⟩ : ∃ pb, woBuild p = .ok pb := by
    refine Res.flatMapList_returns fun c hc => Res.flatMapList_returns fun i hi => ?_
    rw [List.mem_range] at hi hc
    obtain ⟨oc, ho, hl⟩ := h2 c hc
    rw [(collectIdx_ok_iff _ _ _).2 ho, Res.ok_bind, collectIdx_lt (by omega : i < oc.length), Res.ok_bind]
    refine Res.mapList_returns fun k _ => ?_
    rw [collectIdx_lt (by omega : i < p.wristPoses.length), Res.ok_bind, collectIdx_lt hc, Res.ok_bind,
      collectIdx_lt (by omega : c < p.intr.length), Res.ok_bind]
    exact ⟨_, rfl⟩
  unfold wristOnly
  rw [hb, Res.ok_bind]
  exact ⟨_, rfl⟩

/-- Loaded data sets have a pose for every image. -/
theorem setup_poses {W : ToolWorld Img} {pose : String} {cams : List (CameraParams Img)}
    (h : ∀ (c : Nat) q, cams[c]? = some q → CameraSetup W pose c q) : ∀ q ∈ cams, q.data.images.length = q.data.poses.length := by
  intro q hq
  obtain ⟨c, hc⟩ := List.mem_iff_getElem?.1 hq
  obtain ⟨path, -, hd⟩ := (h c q hc).data
  obtain ⟨root, -, hl, -⟩ := C77_aligned _ _ _ _ hd
  exact hl

theorem setup_images {W : ToolWorld Img} {pose : String} {cams : List (CameraParams Img)} {k : Nat}
    (hk : ∀ (c : Nat) d, DataParam W (W.param ("camera_" ++ toString c ++ "/data_path")) d → d.images.length = k)
    (h : ∀ (c : Nat) q, cams[c]? = some q → CameraSetup W pose c q) : ∀ q ∈ cams, q.data.images.length = k := by
  intro q hq
  obtain ⟨c, hc⟩ := List.mem_iff_getElem?.1 hq
  exact hk c _ (h c q hc).data

theorem orderlyFinder_of {W : ToolWorld Img} (hW : OrderlyWorld W) {F : Finder Img} (hF : FinderParam W F) : OrderlyFinder F := by
  obtain ⟨l, type, init, y, -, -, hpl, -, hinit⟩ := hF
  exact hW.finder type init y F hpl hinit

theorem table_returns {F : Finder Img} (hF : OrderlyFinder F) (junk : Nat → Nat → Nat) {cams : List (CameraParams Img)} {k : Nat}
    (hne : cams ≠ []) (hk : ∀ q ∈ cams, q.data.images.length = k) :
    ∃ t, buildCorrDataSet F.find F.create F.draw junk (cams.map fun c => c.data) = .ok t :=
  C80_returns hF.find hF.create hF.draw junk _ k (by simpa using hne) (by
    intro d hd
    obtain ⟨q, hq, rfl⟩ := List.mem_map.1 hd
    exact hk q hq)

theorem problem_sizes {F : Finder Img} {cams : List (CameraParams Img)} {k : Nat} {Y : Iso} {p : MsProblem}
    (h : MultiStaticProblem cams k F Y p) : MsSizes p := by
  have hc : p.baseToCameraGuess.length = cams.length := by rw [h.cameraGuess, List.length_map]
  refine ⟨by rw [hc]; exact h.length.1, by rw [hc]; exact h.length.2, by rw [hc, h.intr, List.length_map], fun c oc wp h1 h2 => ?_⟩
  have hcl : c < cams.length := by rw [← h.length.2]; exact (List.getElem?_eq_some_iff.1 h1).1
  obtain ⟨js, items, -, e1, e2⟩ := h.images c _ (List.getElem?_eq_getElem hcl)
  rw [h1] at e2
  rw [h2] at e1
  rw [Option.some.inj e1, Option.some.inj e2]
  simp

/-- A camera contributes features exactly if it saw some. -/
theorem problem_sees {F : Finder Img} {cams : List (CameraParams Img)} {k : Nat} {Y : Iso} {p : MsProblem}
    (h : MultiStaticProblem cams k F Y p) (hk : ∀ q ∈ cams, q.data.images.length = k)
    (hpose : ∀ q ∈ cams, q.data.images.length = q.data.poses.length) {c : Nat} {q : CameraParams Img} (hq : cams[c]? = some q) :
    (∃ oc, ∃ l ∈ oc, p.observations[c]? = some oc ∧ l ≠ []) ↔ ∃ m ∈ q.data.images, ∃ cs, Seen F.find F.create F.draw m cs ∧ cs ≠ [] := by
  obtain ⟨js, items, hsel, -, ho⟩ := h.images c q hq
  have hqm := List.mem_of_getElem? hq
  constructor
  · rintro ⟨oc, l, hl, ho', hne⟩
    rw [ho] at ho'
    rw [← Option.some.inj ho'] at hl
    obtain ⟨e, he, rfl⟩ := List.mem_map.1 hl
    obtain ⟨j, -, m, hm, hs, -⟩ := Forall₂.mem_right hsel.2.2 he
    exact ⟨m, List.mem_of_getElem? hm, _, hs, hne⟩
  · rintro ⟨m, hm, cs, hs, hne⟩
    obtain ⟨j, hj⟩ := List.mem_iff_getElem?.1 hm
    have hjl := (List.getElem?_eq_some_iff.1 hj).1
    have hp := hpose q hqm
    have hkq := hk q hqm
    have hjs : j ∈ js := (hsel.2.1 j).2 ⟨by omega, (q.data.poses[j]'(by omega), cs), m, hj, hs, List.getElem?_eq_getElem (by omega)⟩
    obtain ⟨e, he, m', hm', hs', -⟩ := Forall₂.mem_left hsel.2.2 hjs
    rw [hj] at hm'
    cases hm'
    refine ⟨_, e.2, List.mem_map_of_mem he, ho, ?_⟩
    rw [hs'.unique hs]
    exact hne

/-- The setup is determined by the parameters and files. -/
theorem setup_unique {W : ToolWorld Img} (hp : ProperParams W.param) {pose : String} {cams cams' : List (CameraParams Img)} {k k' : Nat}
    {F F' : Finder Img} (h : CamerasSetup W pose cams k F) (h' : CamerasSetup W pose cams' k' F') : cams = cams' ∧ F = F' := by
  have hl : cams.length = cams'.length := by
    have h1 := (cameraCount_ok_iff _ _).2 h.count
    rw [(cameraCount_ok_iff _ _).2 h'.count] at h1
    exact (Res.ok.inj h1).symm
  refine ⟨?_, ?_⟩
  · have a := (loadCameras_ok_iff W hp _ (C106_partial W.codec W.fs · |>.2) pose cams.length cams).2 ⟨rfl, h.camera⟩
    have b := (loadCameras_ok_iff W hp _ (C106_partial W.codec W.fs · |>.2) pose cams.length cams').2 ⟨hl.symm, h'.camera⟩
    rw [a] at b
    exact Res.ok.inj b
  · have a := (loadFinder_ok_iff W F).2 h.finder
    rw [(loadFinder_ok_iff W F').2 h'.finder] at a
    exact (Res.ok.inj a).symm

section
variable {F : Finder Img} {cams : List (CameraParams Img)} {k : Nat}

theorem multiStatic_after {junk : Nat → Nat → Nat} {t : CorrDataSet}
    (ht : buildCorrDataSet F.find F.create F.draw junk (cams.map fun c => c.data) = .ok t) (hne : cams ≠ [])
    (hk : ∀ q ∈ cams, q.data.images.length = k) (hpose : ∀ q ∈ cams, q.data.images.length = q.data.poses.length)
    (s : Ceres Pose6) {r : MsResult} (hl : r.baseToCamera.length = cams.length) :
    ∃ rep, ((printCameras cams.length r.baseToCamera).bind fun cameras =>
      (Res.idxList (cams.map fun c => c.data) 0).bind fun first =>
      (Res.mapList (multiStaticView s t (cams.map fun c => c.data) (cams.map fun c => c.intr) r cams.length)
        (List.range first.images.length)).bind fun views =>
      .ok (⟨printOpt r.converged r.initialCost r.finalCost, printTransform r.wristToTarget, cameras, views⟩ : MultiStaticReport Img)) =
      .ok rep := by
  refine Res.bind_returns (printCameras_returns hl) fun cameras _ => ?_
  obtain ⟨first, rest, rfl⟩ := List.exists_cons_of_ne_nil hne
  refine Res.bind_returns ⟨first.data, rfl⟩ fun d hd => Res.bind_returns (Res.mapList_returns fun i hi => ?_) fun _ _ => ⟨_, rfl⟩
  cases hd
  rw [List.mem_range, hk first (by simp)] at hi
  exact multiStaticView_returns ht hk hpose s hl hi

/-- What the tool for several static cameras does after loading, if every camera saw some features. -/
theorem orderly_multiStatic_tail (hF : OrderlyFinder F) (junk : Nat → Nat → Nat) {s : Ceres Pose6} (hs : OrderlyCeres s) (Y : Iso)
    (hne : cams ≠ []) (hk : ∀ q ∈ cams, q.data.images.length = k) (hpose : ∀ q ∈ cams, q.data.images.length = q.data.poses.length)
    (hsee : ∀ q ∈ cams, ∃ m ∈ q.data.images, ∃ cs, Seen F.find F.create F.draw m cs ∧ cs ≠ []) :
    Orderly ((buildCorrDataSet F.find F.create F.draw junk (cams.map fun c => c.data)).bind fun t =>
      (multiStaticBuild t (cams.map fun c => c.data)).bind fun data =>
      (multiStatic s { intr := cams.map fun c => c.intr, wristPoses := data.map Prod.fst, observations := data.map Prod.snd,
                       wristToTargetGuess := Y, baseToCameraGuess := cams.map fun c => c.pose }).bind fun r =>
      (printCameras cams.length r.baseToCamera).bind fun cameras =>
      (Res.idxList (cams.map fun c => c.data) 0).bind fun first =>
      (Res.mapList (multiStaticView s t (cams.map fun c => c.data) (cams.map fun c => c.intr) r cams.length)
        (List.range first.images.length)).bind fun views =>
      .ok (⟨printOpt r.converged r.initialCost r.finalCost, printTransform r.wristToTarget, cameras, views⟩ : MultiStaticReport Img)) := by
  obtain ⟨t, ht⟩ := table_returns hF junk hne hk
  obtain ⟨g1, g2, g3, g4⟩ := table_facts ht hk
  obtain ⟨data, hdata⟩ := C105_returns t (cams.map fun c => c.data) (by rw [g1]; simp) (by
    intro d hd
    obtain ⟨q, hq, rfl⟩ := List.mem_map.1 hd
    rw [g2, ← hpose q hq, hk q hq])
  have hprob := multiStatic_problem ht hk hdata Y
  rw [ht, Res.ok_bind, hdata, Res.ok_bind]
  refine (orderly_multiStatic hs (problem_sizes hprob) (by simpa using hne) ?_).bind fun r hr => ?_
  · intro c hc
    simp only [List.length_map] at hc
    exact (problem_sees hprob hk hpose (List.getElem?_eq_getElem hc)).2 (hsee _ (List.getElem_mem hc))
  · have hl := multiStatic_poses hr
    simp only [List.length_map] at hl
    exact .inl (multiStatic_after ht hne hk hpose s hl)

/-- What the multi step tool does after loading. -/
theorem multiStep_tail (hF : OrderlyFinder F) (junk : Nat → Nat → Nat) (s : Ceres Pose6) (fix : Bool) (Y : Iso)
    (hne : cams ≠ []) (hk : ∀ q ∈ cams, q.data.images.length = k) (hpose : ∀ q ∈ cams, q.data.images.length = q.data.poses.length) :
    ∃ rep, ((buildCorrDataSet F.find F.create F.draw junk (cams.map fun c => c.data)).bind fun t =>
      (multiStepCollect t (cams.map fun c => c.data) Y).bind fun d =>
      (cameraOnly s { fixFirst := fix, intr := cams.map fun c => c.intr, baseToTargetGuess := d.targetGuesses,
                      observations := perCamera t.rows d, baseToCameraGuess := cams.map fun c => c.pose }).bind fun rc =>
      (printCameras cams.length rc.baseToCamera).bind fun cameras =>
      (wristOnly s { intr := cams.map fun c => c.intr, wristPoses := d.wristPoses, observations := perCamera t.rows d,
                     wristToTargetGuess := Y, baseToCameraGuess := rc.baseToCamera }).bind fun rw =>
      (printCameras cams.length rw.baseToCamera).bind fun corrected =>
      (Res.mapList (multiStepView s (cams.map fun c => c.data) (cams.map fun c => c.intr) (perCamera t.rows d) d rw cams.length)
        (List.range d.wristPoses.length)).bind fun views =>
      .ok (⟨printOpt rc.converged rc.initialCost rc.finalCost, cameras, printOpt rw.converged rw.initialCost rw.finalCost,
        printTransform rw.wristToTarget, corrected, views⟩ : MultiStepReport Img)) = .ok rep := by
  obtain ⟨t, ht⟩ := table_returns hF junk hne hk
  obtain ⟨g1, g2, g3, g4⟩ := table_facts ht hk
  obtain ⟨first, rest, rfl⟩ := List.exists_cons_of_ne_nil hne
  have hf := hk first (by simp)
  have hfp := hpose first (by simp)
  obtain ⟨d, hd⟩ := C107_multi_step_returns t first.data (rest.map fun c => c.data) Y (by omega)
  obtain ⟨js, items, hsel, hw, hobs, hguess⟩ := C107_multi_step t g3 _ _ Y d hd
  have hitems : items.length ≤ k := by
    have h1 := hsel.2.2.length_eq
    have h2 : js.length ≤ (List.range k).length := List.Subperm.length_le (List.Nodup.subperm (hsel.1.imp fun h => h.ne) fun j hj => by
      rw [List.mem_range, ← g2]; exact ((hsel.2.1 j).1 hj).1)
    rw [List.length_range] at h2
    omega
  have hper : ∀ (c : Nat), c < (first :: rest).length → ∃ oc, (perCamera t.rows d)[c]? = some oc ∧ oc.length = items.length := by
    intro c hc
    refine ⟨d.observations.map fun o => o.getD c [], ?_, by simp [hobs]⟩
    unfold perCamera
    rw [List.getElem?_map, List.getElem?_range (by omega), Option.map_some]
  rw [ht, Res.ok_bind]
  refine Res.bind_returns ⟨d, hd⟩ fun d' hd' => ?_
  have hdd : d' = d := by
    have : (Res.ok d : Res StepData) = .ok d' := hd.symm.trans hd'
    exact (Res.ok.inj this).symm
  subst hdd
  refine Res.bind_returns (cameraOnly_returns s _ (by simp) fun c hc => ?_) fun rc hrc => ?_
  · obtain ⟨oc, h1, h2⟩ := hper c (by simpa using hc)
    exact ⟨oc, h1, by rw [h2]; simp [hguess]⟩
  have l1 := cameraOnly_poses hrc
  simp only [List.length_map] at l1
  refine Res.bind_returns (printCameras_returns l1) fun cameras _ => ?_
  refine Res.bind_returns (wristOnly_returns s _ (by simp [l1]) fun c hc => ?_) fun rw' hrw => ?_
  · obtain ⟨oc, h1, h2⟩ := hper c (by simpa [l1] using hc)
    exact ⟨oc, h1, by rw [h2]; simp [hw]⟩
  have l2 := wristOnly_poses hrw
  simp only [l1] at l2
  refine Res.bind_returns (printCameras_returns l2) fun corrected _ => Res.bind_returns (Res.mapList_returns fun i hi => ?_)
    fun _ _ => ⟨_, rfl⟩
  rw [List.mem_range] at hi
  have hi' : i < items.length := by rw [hw, List.length_map] at hi; exact hi
  unfold multiStepView
  rw [collectIdx_lt hi, Res.ok_bind]
  refine Res.bind_returns (Res.mapList_returns fun c hc => ⟨_, collectIdx_lt (by rw [List.mem_range] at hc; omega)⟩) fun poses h1 => ?_
  refine Res.bind_returns (Res.mapList_returns fun c hc => ⟨_, collectIdx_lt (by rw [List.mem_range] at hc; simpa using hc)⟩)
    fun intr h2 => ?_
  refine Res.bind_returns (Res.mapList_returns fun c hc => ?_) fun cs h3 => ?_
  · rw [List.mem_range] at hc
    obtain ⟨oc, e1, e2⟩ := hper c hc
    rw [(collectIdx_ok_iff _ _ _).2 e1, Res.ok_bind, collectIdx_lt (by omega : i < oc.length)]
    exact ⟨_, rfl⟩
  refine Res.bind_returns ⟨first.data, rfl⟩ fun f hf' => ?_
  have hff : f = first.data := (Res.ok.inj hf').symm
  subst hff
  rw [collectIdx_lt (by omega : i < first.data.images.length), Res.ok_bind]
  have m1 := Res.mapList_ok_length h1
  have m2 := Res.mapList_ok_length h2
  have m3 := Res.mapList_ok_length h3
  simp only [List.length_range, List.length_cons] at m1 m2 m3
  exact reproject_returns s _ _ (by rintro rfl; simp at m1) (by omega) (by omega)

/-- What the PnP tool for several cameras does after loading. -/
theorem multiPnp_tail (hF : OrderlyFinder F) (junk : Nat → Nat → Nat) (s : Ceres Pose6)
    (hne : cams ≠ []) (hk : ∀ q ∈ cams, q.data.images.length = k) (hpose : ∀ q ∈ cams, q.data.images.length = q.data.poses.length) :
    ∃ rep, ((buildCorrDataSet F.find F.create F.draw junk (cams.map fun c => c.data)).bind fun t =>
      (multiPnpItems t (cams.map fun c => c.data) cams.length).bind fun items =>
      Res.mapList (fun e : Iso × Img × List (List Corr2) =>
        (reproject s e.1 (cams.map fun c => c.pose) (cams.map fun c => c.intr) e.2.1 e.2.2).bind fun v => .ok (e.1, v)) items) = .ok rep := by
  obtain ⟨t, ht⟩ := table_returns hF junk hne hk
  obtain ⟨g1, g2, g3, g4⟩ := table_facts ht hk
  obtain ⟨first, rest, rfl⟩ := List.exists_cons_of_ne_nil hne
  have hf := hk first (by simp)
  have hfp := hpose first (by simp)
  rw [ht, Res.ok_bind]
  refine Res.bind_returns (fold_returns (fun acc i hi => ?_) _) fun items hitems => Res.mapList_returns fun e he => ?_
  · split_ifs
    · refine Res.bind_returns ⟨first.data, rfl⟩ fun f hf' => ?_
      have hff : f = first.data := (Res.ok.inj hf').symm
      subst hff
      rw [collectIdx_lt (by omega : i < first.data.poses.length), Res.ok_bind, collectIdx_lt (by omega : i < first.data.images.length),
        Res.ok_bind]
      exact ⟨_, rfl⟩
    · exact ⟨_, rfl⟩
  · rw [← g1] at hitems
    obtain ⟨js, hsel⟩ := C107_multi_pnp t g3 _ _ items hitems
    obtain ⟨j, hj, hit, -⟩ := Forall₂.mem_right hsel.2.2 he
    obtain ⟨v, hv⟩ := reproject_returns s e.1 (poses := (first :: rest).map fun c => c.pose) (intr := (first :: rest).map fun c => c.intr)
      e.2.1 (sets := e.2.2) (by simp) (by simp) (by
        have := ((jointItem_iff ht hk (by rw [← g2]; exact ((hsel.2.1 j).1 hj).1) _).1 hit).2.length_eq
        simpa using this.symm)
    rw [hv]
    exact ⟨_, rfl⟩

end

/-! ### C188

For all parameters and files, the three tools for several cameras end with the exit code 0 or -1, and with -1 if there is no
image they can use. -/

/-- The tool for several static cameras ends with an exit code if there is at least one camera, all data sets can be read and
have `k` images, and every camera found features in some image. Missing: all other cases, see `C188_zero_negation`,
`C188_unreadable_negation`, `C188_blind_negation`, `C188_finder_negation` and C80. -/
theorem C188_multi_static_partial (W : ToolWorld Img) (hW : OrderlyWorld W) (hp : ProperParams W.param) (junk : Nat → Nat → Nat)
    (s : Ceres Pose6) (hs : OrderlyCeres s) (hf : ¬ FinderCrash W) (hcount : ¬ CountParam (W.param "num_of_cameras") 0)
    (hread : ∀ (c : Nat) path, W.param ("camera_" ++ toString c ++ "/data_path") = some (.string path) →
      parseFromFile W.codec W.fs path ≠ .ok none) (k : Nat)
    (hk : ∀ (c : Nat) d, DataParam W (W.param ("camera_" ++ toString c ++ "/data_path")) d → d.images.length = k)
    (hsee : ∀ cams F, CamerasSetup W "base_to_camera_guess" cams k F → ∀ q ∈ cams, ∃ m ∈ q.data.images, ∃ cs,
      Seen F.find F.create F.draw m cs ∧ cs ≠ []) : ∃ o, multiStaticMain W junk s = .ok o := by
  unfold multiStaticMain
  refine orderly_toolExit ((orderly_cameraCount _).bind fun n hn => Spec.Orderly.bind
    (orderly_mapList fun c _ => orderly_loadCamera W _ _ c fun path hpath => orderly_loadMultiStatic _ _ _ (hread c path hpath))
    fun cams hcams => (orderly_needPose _).bind fun Y _ => ((loadFinder_outcome W hW).1 hf).bind fun F hF => ?_)
  rw [cameraCount_ok_iff] at hn
  obtain ⟨rfl, hc⟩ := (loadCameras_ok_iff W hp _ (loadMultiStatic_ok_iff W.codec W.fs) _ _ _).1 hcams
  rw [loadFinder_ok_iff] at hF
  have hk' := setup_images hk hc
  exact orderly_multiStatic_tail (orderlyFinder_of hW hF) junk hs Y (by rintro rfl; exact hcount hn) hk' (setup_poses hc)
    (hsee cams F ⟨hn, hc, hF, hk'⟩)

/-- The multi step tool ends with an exit code if there is at least one camera and all data sets have `k` images. Missing: all
other cases, see `C188_zero_negation`, `C188_finder_negation` and C80; and the exit code -1 if no image was seen by all cameras, see
`C188_multi_step_negation`. -/
theorem C188_multi_step_partial (W : ToolWorld Img) (hW : OrderlyWorld W) (hp : ProperParams W.param) (junk : Nat → Nat → Nat)
    (s : Ceres Pose6) (hf : ¬ FinderCrash W) (hcount : ¬ CountParam (W.param "num_of_cameras") 0) (k : Nat)
    (hk : ∀ (c : Nat) d, DataParam W (W.param ("camera_" ++ toString c ++ "/data_path")) d → d.images.length = k) :
    ∃ o, multiStepMain W junk s = .ok o := by
  unfold multiStepMain
  refine orderly_toolExit ((orderly_cameraCount _).bind fun n hn => Spec.Orderly.bind
    (orderly_mapList fun c _ => orderly_loadCamera W _ _ c fun path _ => orderly_loadChecked _ _ _)
    fun cams hcams => (orderly_getBool _).bind fun fix _ => ((loadFinder_outcome W hW).1 hf).bind fun F hF =>
    (orderly_needPose _).bind fun Y _ => ?_)
  rw [cameraCount_ok_iff] at hn
  obtain ⟨rfl, hc⟩ := (loadCameras_ok_iff W hp _ (C106_partial W.codec W.fs · |>.2) _ _ _).1 hcams
  rw [loadFinder_ok_iff] at hF
  exact .inl (multiStep_tail (orderlyFinder_of hW hF) junk s fix Y (by rintro rfl; exact hcount hn) (setup_images hk hc)
    (setup_poses hc))

/-- The PnP tool for several cameras ends with an exit code if there is at least one camera and all data sets have `k` images.
Missing: all other cases, see `C188_zero_negation`, `C188_finder_negation` and C80; and the exit code -1 if no image was seen by all
cameras, see `C188_multi_pnp_negation`. -/
theorem C188_multi_pnp_partial (W : ToolWorld Img) (hW : OrderlyWorld W) (hp : ProperParams W.param) (junk : Nat → Nat → Nat)
    (s : Ceres Pose6) (hf : ¬ FinderCrash W) (hcount : ¬ CountParam (W.param "num_of_cameras") 0) (k : Nat)
    (hk : ∀ (c : Nat) d, DataParam W (W.param ("camera_" ++ toString c ++ "/data_path")) d → d.images.length = k) :
    ∃ o, multiPnpMain W junk s = .ok o := by
  unfold multiPnpMain
  refine orderly_toolExit ((orderly_cameraCount _).bind fun n hn => Spec.Orderly.bind
    (orderly_mapList fun c _ => orderly_loadCamera W _ _ c fun path _ => orderly_loadChecked _ _ _)
    fun cams hcams => ((loadFinder_outcome W hW).1 hf).bind fun F hF => ?_)
  rw [cameraCount_ok_iff] at hn
  obtain ⟨rfl, hc⟩ := (loadCameras_ok_iff W hp _ (C106_partial W.codec W.fs · |>.2) _ _ _).1 hcams
  rw [loadFinder_ok_iff] at hF
  exact .inl (multiPnp_tail (orderlyFinder_of hW hF) junk s (by rintro rfl; exact hcount hn) (setup_images hk hc)
    (setup_poses hc))

/-- If the number of cameras is zero and the other parameters are right, all three tools access memory that does not exist. -/
theorem C188_zero_negation (W : ToolWorld Img) (hp : ProperParams W.param) (junk : Nat → Nat → Nat) (s : Ceres Pose6)
    (hcount : CountParam (W.param "num_of_cameras") 0) (F : Finder Img) (hF : FinderParam W F) :
    multiPnpMain W junk s = .ub ∧
    ∀ Y, PoseParam (W.param "wrist_to_target_guess") Y → multiStaticMain W junk s = .ub ∧
      ∀ fix, W.param "fix_first_camera" = some (.bool fix) → multiStepMain W junk s = .ub := by
  have h1 := (cameraCount_ok_iff _ _).2 hcount
  have h2 := (loadFinder_ok_iff W F).2 hF
  have h3 : ∀ load pose, loadCameras W load pose 0 = .ok [] := fun _ _ => rfl
  refine ⟨?_, fun Y hY => ⟨?_, fun fix hfix => ?_⟩⟩
  · unfold multiPnpMain
    rw [h1, Res.ok_bind, h3, Res.ok_bind, h2]
    rfl
  · unfold multiStaticMain
    rw [h1, Res.ok_bind, h3, Res.ok_bind, (needPose_ok_iff hp _ _).2 hY, Res.ok_bind, h2]
    rfl
  · unfold multiStepMain
    rw [h1, Res.ok_bind, h3, Res.ok_bind, (getBool_ok_iff _ _).2 hfix, Res.ok_bind, h2, Res.ok_bind, (needPose_ok_iff hp _ _).2 hY]
    rfl

/-- If the data set of camera `c` cannot be read and the parameters of the cameras before it are right, the tool for several
static cameras uses a value that does not exist. -/
theorem C188_unreadable_negation (W : ToolWorld Img) (hp : ProperParams W.param) (junk : Nat → Nat → Nat) (s : Ceres Pose6)
    (n c : Nat) (hcount : CountParam (W.param "num_of_cameras") n) (hc : c < n) (path : String)
    (hpath : W.param ("camera_" ++ toString c ++ "/data_path") = some (.string path))
    (hun : parseFromFile W.codec W.fs path = .ok none) (hbefore : ∀ c' < c, ∃ q, CameraSetup W "base_to_camera_guess" c' q) :
    multiStaticMain W junk s = .ub := by
  have hload : loadCameras W (loadMultiStatic W.codec W.fs) "base_to_camera_guess" n = .ub := by
    have hr : List.range n = List.range c ++ c :: (List.range' (c + 1) (n - c - 1)) := by
      rw [List.range_eq_range', List.range_eq_range']
      have : n = c + (1 + (n - c - 1)) := by omega
      conv_lhs => rw [this]
      rw [← List.range'_append, ← List.range'_append]
      simp
    unfold loadCameras
    rw [hr]
    refine mapList_stops (fun c' hc' => ?_) ?_
    · obtain ⟨q, hq⟩ := hbefore c' (List.mem_range.1 hc')
      exact ⟨q, (loadCamera_ok_iff W hp _ (loadMultiStatic_ok_iff W.codec W.fs) _ _ _).2 hq⟩
    · unfold loadCamera
      rw [key_data, (getString_ok_iff _ _).2 hpath, Res.ok_bind]
      unfold loadMultiStatic
      rw [hun]
      rfl
  unfold multiStaticMain
  rw [(cameraCount_ok_iff _ _).2 hcount, Res.ok_bind, hload]
  rfl

/-- If some camera found no features in any image, the tool for several static cameras ends the process although everything
could be loaded. -/
theorem C188_blind_negation (W : ToolWorld Img) (hW : OrderlyWorld W) (hp : ProperParams W.param) (junk : Nat → Nat → Nat)
    (s : Ceres Pose6) (cams : List (CameraParams Img)) (k : Nat) (F : Finder Img)
    (hset : CamerasSetup W "base_to_camera_guess" cams k F) (Y : Iso) (hY : PoseParam (W.param "wrist_to_target_guess") Y)
    (q : CameraParams Img) (hq : q ∈ cams) (hblind : ∀ m ∈ q.data.images, ∀ cs, Seen F.find F.create F.draw m cs → cs = []) :
    multiStaticMain W junk s = .abort := by
  have hne : cams ≠ [] := List.ne_nil_of_mem hq
  have hpose := setup_poses hset.camera
  obtain ⟨t, ht⟩ := table_returns (orderlyFinder_of hW hset.finder) junk hne hset.images
  obtain ⟨g1, g2, g3, g4⟩ := table_facts ht hset.images
  obtain ⟨data, hdata⟩ := C105_returns t (cams.map fun c => c.data) (by rw [g1]; simp) (by
    intro d hd
    obtain ⟨q, hq, rfl⟩ := List.mem_map.1 hd
    rw [g2, ← hpose q hq, hset.images q hq])
  have hprob := multiStatic_problem ht hset.images hdata Y
  obtain ⟨c, hc⟩ := List.mem_iff_getElem?.1 hq
  unfold multiStaticMain
  rw [(cameraCount_ok_iff _ _).2 hset.count, Res.ok_bind,
    (loadCameras_ok_iff W hp _ (loadMultiStatic_ok_iff W.codec W.fs) _ _ _).2 ⟨rfl, hset.camera⟩, Res.ok_bind,
    (needPose_ok_iff hp _ _).2 hY, Res.ok_bind, (loadFinder_ok_iff W F).2 hset.finder, Res.ok_bind]
  simp only
  rw [ht, Res.ok_bind, hdata, Res.ok_bind, multiStatic_blind s (problem_sizes hprob)]
  · rfl
  · refine ⟨c, by simpa using (List.getElem?_eq_some_iff.1 hc).1, fun oc ho l hl => ?_⟩
    by_contra hne'
    obtain ⟨m, hm, cs, hs, hcs⟩ := (problem_sees hprob hset.images hpose hc).1 ⟨oc, l, hl, ho, hne'⟩
    exact hcs (hblind m hm cs hs)

/-- If the parameters of the cameras are right, a parameter `target_finder` of the wrong shape ends the process of all three
tools. -/
theorem C188_finder_negation (W : ToolWorld Img) (hW : OrderlyWorld W) (hp : ProperParams W.param) (junk : Nat → Nat → Nat)
    (s : Ceres Pose6) (cams : List (CameraParams Img)) (hcount : CountParam (W.param "num_of_cameras") cams.length) (hf : FinderCrash W) :
    ((∀ (c : Nat) q, cams[c]? = some q → CameraSetup W "base_to_camera" c q) → multiPnpMain W junk s = .abort) ∧
    ((∀ (c : Nat) q, cams[c]? = some q → CameraSetup W "base_to_camera_guess" c q) →
      (∀ Y, PoseParam (W.param "wrist_to_target_guess") Y → multiStaticMain W junk s = .abort) ∧
      ∀ fix, W.param "fix_first_camera" = some (.bool fix) → multiStepMain W junk s = .abort) := by
  have h1 := (cameraCount_ok_iff _ _).2 hcount
  have h2 := (loadFinder_outcome W hW).2 hf
  refine ⟨fun hc => ?_, fun hc => ⟨fun Y hY => ?_, fun fix hfix => ?_⟩⟩
  · unfold multiPnpMain
    rw [h1, Res.ok_bind, (loadCameras_ok_iff W hp _ (C106_partial W.codec W.fs · |>.2) _ _ _).2 ⟨rfl, hc⟩, Res.ok_bind, h2]
    rfl
  · unfold multiStaticMain
    rw [h1, Res.ok_bind, (loadCameras_ok_iff W hp _ (loadMultiStatic_ok_iff W.codec W.fs) _ _ _).2 ⟨rfl, hc⟩, Res.ok_bind,
      (needPose_ok_iff hp _ _).2 hY, Res.ok_bind, h2]
    rfl
  · unfold multiStepMain
    rw [h1, Res.ok_bind, (loadCameras_ok_iff W hp _ (C106_partial W.codec W.fs · |>.2) _ _ _).2 ⟨rfl, hc⟩, Res.ok_bind,
      (getBool_ok_iff _ _).2 hfix, Res.ok_bind, h2]
    rfl

theorem selected_none {A : Type} {n : Nat} {P : Nat → A → Prop} {js : List Nat} {as : List A} (h : SelectedAt n P js as)
    (hno : ∀ i < n, ∀ a, ¬ P i a) : js = [] ∧ as = [] := by
  have hjs : js = [] := List.eq_nil_iff_forall_not_mem.2 fun j hj => by
    obtain ⟨hj', a, ha⟩ := (h.2.1 j).1 hj
    exact hno j hj' a ha
  refine ⟨hjs, ?_⟩
  have := h.2.2
  rw [hjs] at this
  exact List.forall₂_nil_left_iff.1 this

/-- If no image was seen by all cameras, the multi step tool ends with success. It prints the base frame as pose of every camera,
not even the guesses, for both steps; it prints no error and shows nothing. -/
theorem C188_multi_step_negation (W : ToolWorld Img) (hW : OrderlyWorld W) (hp : ProperParams W.param) (junk : Nat → Nat → Nat)
    (s : Ceres Pose6) (hs : s.WF) (cams : List (CameraParams Img)) (hne : cams ≠ []) (k : Nat)
    (hk : ∀ (c : Nat) d, DataParam W (W.param ("camera_" ++ toString c ++ "/data_path")) d → d.images.length = k) (F : Finder Img)
    (hset : CamerasSetup W "base_to_camera_guess" cams k F) (Y : Iso) (hY : PoseParam (W.param "wrist_to_target_guess") Y)
    (fix : Bool) (hfix : W.param "fix_first_camera" = some (.bool fix)) (hno : ∀ i < k, ∀ e, ¬ JointItem F cams i e) :
    ∃ rep, multiStepMain W junk s = .ok (some rep) ∧
      rep.cameras = List.replicate cams.length (printTransform 1, printTransform 1) ∧
      rep.corrected = List.replicate cams.length (printTransform 1, printTransform 1) ∧
      rep.camerasOpt.final = none ∧ rep.wristOpt.final = none ∧ rep.views = [] := by
  obtain ⟨rep, hrep⟩ : ∃ rep, multiStepMain W junk s = .ok (some rep) := by
    obtain ⟨rep, hrep⟩ := multiStep_tail (orderlyFinder_of hW hset.finder) junk s fix Y hne hset.images (setup_poses hset.camera)
    refine ⟨rep, ?_⟩
    unfold multiStepMain
    rw [toolExit_ok, (cameraCount_ok_iff _ _).2 hset.count, Res.ok_bind,
      (loadCameras_ok_iff W hp _ (C106_partial W.codec W.fs · |>.2) _ _ _).2 ⟨rfl, hset.camera⟩, Res.ok_bind,
      (getBool_ok_iff _ _).2 hfix, Res.ok_bind, (loadFinder_ok_iff W F).2 hset.finder, Res.ok_bind, (needPose_ok_iff hp _ _).2 hY,
      Res.ok_bind]
    exact hrep
  refine ⟨rep, hrep, ?_⟩
  obtain ⟨cams', F', fix', Y', js, items, pc, rc, pw, rw', h1, h2, h3, h4, h5, h6, h7, h8, h9, h10, h11, h12, h13, h14, h15, -,
    d, h16, h17⟩ := multiStepMain_ok W hp junk s rep hrep k hk
  obtain ⟨rfl, rfl⟩ := setup_unique hp h1 hset
  obtain ⟨rfl, rfl⟩ := selected_none h4 hno
  have hzero : poseCalToEigen ⟨0, 0, 0, 0, 0, 0⟩ = 1 := poseCalToEigen_zero (p := ⟨0, 0, 0, 0, 0, 0⟩) rfl
  have hone : poseCalToEigen (poseEigenToCal 1) = 1 := Representable.one.roundtrip
  have hguess : pc.baseToTargetGuess = [] := h5.targetGuess
  have hwp : pw.wristPoses = [] := h10.poses
  have hrc : rc.baseToCamera = List.replicate cams'.length 1 ∧ rc.finalCost = none := by
    unfold cameraOnly at h6
    rw [Res.bind_ok_iff] at h6
    obtain ⟨pb, hb, h6⟩ := h6
    have hpb : pb = [] := by
      unfold coBuild at hb
      rw [hguess] at hb
      exact (Res.ok.inj hb).symm
    subst hpb
    cases h6
    refine ⟨?_, rfl⟩
    rw [List.eq_replicate_iff]
    refine ⟨by simp [h5.cameraGuess], fun T hT => ?_⟩
    obtain ⟨c, -, rfl⟩ := List.mem_map.1 hT
    rw [hs.frame _ _ _ (by simp [usedBlocks])]
    have : coInit pc (coCam c) = ⟨0, 0, 0, 0, 0, 0⟩ := by
      unfold coInit coCam
      rw [if_neg (by omega), if_pos (by rw [hguess]; rfl)]
    rw [this, hzero, Iso.inv_one]
  have hrw : rw'.baseToCamera = List.replicate cams'.length 1 ∧ rw'.finalCost = none := by
    unfold wristOnly at h11
    rw [Res.bind_ok_iff] at h11
    obtain ⟨pb, hb, h11⟩ := h11
    have hpb : pb = [] := by
      refine List.eq_nil_iff_forall_not_mem.2 fun b hb' => ?_
      obtain ⟨f, -, intr, w, g, -, hw, -⟩ := Forall₂.mem_right (woBuild_blocks hb) hb'
      rw [hwp] at hw
      simp at hw
    subst hpb
    cases h11
    refine ⟨?_, rfl⟩
    simp only [h10.cameraGuess, hrc.1]
    rw [hs.frame _ _ _ (by simp [usedBlocks])]
    have : woInit pw woCorr = poseEigenToCal 1 := rfl
    rw [this, hone, Iso.inv_one, List.map_replicate, Iso.mul_one]
  have hprint : ∀ (out : List (PrintedTransform × PrintedTransform)), ReportsCameras out (List.replicate cams'.length 1) →
      out = List.replicate cams'.length (printTransform 1, printTransform 1) := by
    intro out hout
    unfold ReportsCameras at hout
    rw [List.eq_replicate_iff]
    refine ⟨by have := hout.length_eq; simp at this; exact this.symm, fun e he => ?_⟩
    obtain ⟨T, hT, e1, e2⟩ := Forall₂.mem_right hout he
    rw [List.eq_of_mem_replicate hT] at e1 e2
    have h0 := e2 1 (by rw [List.getElem?_replicate, if_pos (List.length_pos_of_ne_nil hne)])
    rw [Iso.inv_one, Iso.one_mul] at h0
    exact Prod.ext e1 h0
  refine ⟨hprint _ (hrc.1 ▸ h9), hprint _ (hrw.1 ▸ h15), by rw [h8.final, hrc.2]; rfl, by rw [h13.final, hrw.2]; rfl, ?_⟩
  rw [h16] at h17
  exact (Res.ok.inj h17).symm

/-- If no image was seen by all cameras, the PnP tool for several cameras ends with success and shows nothing. -/
theorem C188_multi_pnp_negation (W : ToolWorld Img) (hW : OrderlyWorld W) (hp : ProperParams W.param) (junk : Nat → Nat → Nat)
    (s : Ceres Pose6) (cams : List (CameraParams Img)) (hne : cams ≠ []) (k : Nat)
    (hk : ∀ (c : Nat) d, DataParam W (W.param ("camera_" ++ toString c ++ "/data_path")) d → d.images.length = k) (F : Finder Img)
    (hset : CamerasSetup W "base_to_camera" cams k F) (hno : ∀ i < k, ∀ e, ¬ JointItem F cams i e) :
    multiPnpMain W junk s = .ok (some []) := by
  obtain ⟨rep, hrep⟩ : ∃ rep, multiPnpMain W junk s = .ok (some rep) := by
    obtain ⟨rep, hrep⟩ := multiPnp_tail (orderlyFinder_of hW hset.finder) junk s hne hset.images (setup_poses hset.camera)
    refine ⟨rep, ?_⟩
    unfold multiPnpMain
    rw [toolExit_ok, (cameraCount_ok_iff _ _).2 hset.count, Res.ok_bind,
      (loadCameras_ok_iff W hp _ (C106_partial W.codec W.fs · |>.2) _ _ _).2 ⟨rfl, hset.camera⟩, Res.ok_bind,
      (loadFinder_ok_iff W F).2 hset.finder, Res.ok_bind]
    exact hrep
  rw [hrep]
  obtain ⟨first, rest, F', js, items, h1, h2, h3, -⟩ := C186_multi_pnp W hp junk s rep hrep k hk
  obtain ⟨rfl, rfl⟩ := setup_unique hp h1 hset
  obtain ⟨rfl, -⟩ := selected_none h2 hno
  rw [List.forall₂_nil_left_iff.1 h3]

/-! ### Examples

The data sets `a`, `b`, `c` and `d` have two images each; the target is visible in image 5 and not in image 7. -/

noncomputable def camFiles : FS Nat := ⟨fun _ => True, fun p =>
  if p ∈ ["a", "b", "c", "d"] then some (.yaml alIndex)
  else if p ∈ ["a/i0", "b/i0", "b/i1", "c/i1"] then some (.image 5)
  else if p ∈ ["a/i1", "c/i0", "d/i0", "d/i1"] then some (.image 7)
  else if p ∈ ["a/p0", "a/p1", "b/p0", "b/p1", "c/p0", "c/p1", "d/p0", "d/p1"] then some (.yaml alPose)
  else none⟩

/-- The data set with the images `m0` and `m1`. -/
noncomputable def camData (m0 m1 : Nat) : DataSet Nat := ⟨[m0, m1], [alIso, alIso]⟩

theorem camFiles_load (r : String) (m0 m1 : Nat) (h0 : rootPath r = r) (hf : camFiles.files r = some (.yaml alIndex))
    (hi0 : camFiles.files (combine r "i0") = some (.image m0)) (hi1 : camFiles.files (combine r "i1") = some (.image m1))
    (hp0 : camFiles.files (combine r "p0") = some (.yaml alPose)) (hp1 : camFiles.files (combine r "p1") = some (.yaml alPose)) :
    parseFromFile alCodec camFiles r = .ok (some (camData m0 m1)) := by
  have hr : (List.range alIndex.size) = [0, 1] := rfl
  have e1 : entryString alIndex 0 "image" = .ok "i0" := rfl
  have e2 : entryString alIndex 0 "pose" = .ok "p0" := rfl
  have e3 : entryString alIndex 1 "image" = .ok "i1" := rfl
  have e4 : entryString alIndex 1 "pose" = .ok "p1" := rfl
  have r0 : readImage alCodec camFiles (combine r "i0") = some m0 := by unfold readImage; rw [hi0]; rfl
  have r1 : readImage alCodec camFiles (combine r "i1") = some m1 := by unfold readImage; rw [hi1]; rfl
  have t0 : tryLoadPoseFile camFiles (combine r "p0") = .ok (some alIso) :=
    (tryLoadPoseFile_some_iff camFiles _ _).2 ⟨_, hp0, alPose_dec⟩
  have t1 : tryLoadPoseFile camFiles (combine r "p1") = .ok (some alIso) :=
    (tryLoadPoseFile_some_iff camFiles _ _).2 ⟨_, hp1, alPose_dec⟩
  unfold parseFromFile loadYaml parse
  simp only [hf, Res.ok_bind, h0, hr, Res.foldList_cons, Res.foldList_nil, parseStep, e1, e2, e3, e4, r0, r1, t0, t1]
  rfl

theorem camFiles_loads : parseFromFile alCodec camFiles "a" = .ok (some (camData 5 7)) ∧
    parseFromFile alCodec camFiles "b" = .ok (some (camData 5 5)) ∧ parseFromFile alCodec camFiles "c" = .ok (some (camData 7 5)) ∧
    parseFromFile alCodec camFiles "d" = .ok (some (camData 7 7)) := by
  refine ⟨camFiles_load _ _ _ (by decide) ?_ ?_ ?_ ?_ ?_, camFiles_load _ _ _ (by decide) ?_ ?_ ?_ ?_ ?_,
    camFiles_load _ _ _ (by decide) ?_ ?_ ?_ ?_ ?_, camFiles_load _ _ _ (by decide) ?_ ?_ ?_ ?_ ?_⟩ <;> simp [camFiles, combine]

def camFinder : Finder Nat where
  find m := .ok (if m = 5 then [(0, [])] else [])
  create _ := .ok [⟨⟨0, 0⟩, ⟨0, 0, 1⟩⟩]
  draw _ _ := .ok ()

noncomputable def camPose (x : ℝ) : XVal := .struct [("x", .double x), ("y", .double x), ("z", .double x), ("qx", .double 0),
  ("qy", .double 0), ("qz", .double 0), ("qw", .double 1)]

noncomputable def camParams (paths : List String) (finder : XVal) : List (String × XVal) :=
  let intr : XVal := .struct [("fx", .double 1), ("fy", .double 1), ("cx", .double 0), ("cy", .double 0)]
  [("num_of_cameras", .int paths.length), ("target_finder", finder), ("wrist_to_target_guess", camPose 3), ("fix_first_camera", .bool true),
   ("camera_0/data_path", .string (paths.getD 0 "a")), ("camera_0/intrinsics", intr), ("camera_0/base_to_camera_guess", camPose 0),
   ("camera_0/base_to_camera", camPose 0),
   ("camera_1/data_path", .string (paths.getD 1 "a")), ("camera_1/intrinsics", intr), ("camera_1/base_to_camera_guess", camPose 1),
   ("camera_1/base_to_camera", camPose 1),
   ("camera_2/data_path", .string (paths.getD 2 "a")), ("camera_2/intrinsics", intr), ("camera_2/base_to_camera_guess", camPose 2),
   ("camera_2/base_to_camera", camPose 2)]

/-- A world with cameras with these data sets. -/
noncomputable def camWorld (paths : List String) (finder : XVal) : ToolWorld Nat where
  param k := (camParams paths finder).lookup k
  codec := alCodec
  fs := camFiles
  printer := { exPrinter with int := fun i => ⟨"", some (some (i : ℝ)), none, none⟩, str := fun t => ⟨t, none, none, none⟩ }
  plugin name := if name = "square" then some fun _ => .ok camFinder else none
  lu := fun _ _ => 0
  draws := fun _ a _ _ => a

/-- A parameter for the finder of the right shape. -/
def camRight : XVal := .struct [("type", .string "square"), ("rows", .int 2)]

section
variable (paths : List String) (finder : XVal)

theorem camWorld_orderly : OrderlyWorld (camWorld paths finder) := by
  refine ⟨fun type init y h => ?_, fun type init y F h hF => ?_, fun i a b k hab => ⟨le_refl _, hab⟩⟩
  · simp only [camWorld] at h
    split_ifs at h
    cases h
    exact orderly_ok _
  · simp only [camWorld] at h
    split_ifs at h
    cases h
    cases hF
    exact ⟨fun _ => orderly_ok _, fun _ => orderly_ok _, fun _ _ => orderly_ok _, fun fs cs h => by cases h; simp⟩

theorem camWorld_proper (hf : finder = camRight ∨ finder = .int 3) : ProperParams (camWorld paths finder).param := by
  intro name xml h k hk
  have h := lookup_mem h
  simp only [camParams, List.mem_cons, Prod.mk.injEq, List.not_mem_nil, or_false] at h
  rcases h with ⟨-, rfl⟩ | ⟨-, rfl⟩ | ⟨-, rfl⟩ | ⟨-, rfl⟩ | ⟨-, rfl⟩ | ⟨-, rfl⟩ | ⟨-, rfl⟩ | ⟨-, rfl⟩ | ⟨-, rfl⟩ | ⟨-, rfl⟩ | ⟨-, rfl⟩ |
    ⟨-, rfl⟩ | ⟨-, rfl⟩ | ⟨-, rfl⟩ | ⟨-, rfl⟩ | ⟨-, rfl⟩ <;>
    first
      | (rcases hf with rfl | rfl
         · have hk := lookup_mem hk; simp at hk
         · simp [XVal.member] at hk)
      | (have hk := lookup_mem hk; simp at hk)
      | (simp [XVal.member] at hk)

theorem camWorld_finder : FinderParam (camWorld paths camRight) camFinder :=
  ⟨_, "square", fun _ => .ok camFinder, _, rfl, rfl, rfl, rfl, rfl⟩

theorem camWorld_calm : ¬ FinderCrash (camWorld paths camRight) := by
  intro hcr
  have := (loadFinder_ok_iff _ _).2 (camWorld_finder paths)
  rw [(loadFinder_outcome _ (camWorld_orderly paths camRight)).2 hcr] at this
  cases this

theorem camPose_param (x : ℝ) : PoseParam (some (camPose x)) (shiftBy x x x) := by
  refine ⟨_, ⟨1, 0, 0, 0⟩, rfl, ⟨⟨_, rfl, rfl⟩, ⟨_, rfl, rfl⟩, ⟨_, rfl, rfl⟩⟩, ⟨⟨_, rfl, rfl⟩, ⟨_, rfl, rfl⟩, ⟨_, rfl, rfl⟩, ⟨_, rfl, rfl⟩⟩,
    fun _ => rfl, fun _ => ?_⟩
  ext <;> simp [shiftBy, Quat.toMat, Quat.normSq, M3.one_def]

theorem camWorld_count : CountParam ((camWorld paths finder).param "num_of_cameras") paths.length := .inl rfl

theorem camWorld_target : PoseParam ((camWorld paths finder).param "wrist_to_target_guess") (shiftBy 3 3 3) := camPose_param 3

theorem camWorld_fix : (camWorld paths finder).param "fix_first_camera" = some (.bool true) := rfl

theorem camWorld_camera {pose : String} (hpose : pose = "base_to_camera_guess" ∨ pose = "base_to_camera") {c : Nat} (hc : c < 3)
    {r : String} (hr : paths.getD c "a" = r) {d : DataSet Nat} (hd : parseFromFile alCodec camFiles r = .ok (some d)) :
    CameraSetup (camWorld paths finder) pose c ⟨d, ⟨1, 1, 0, 0⟩, shiftBy c c c⟩ := by
  subst hr
  interval_cases c
  · refine ⟨⟨_, rfl, hd⟩, ⟨_, rfl, ⟨_, rfl, rfl⟩, ⟨_, rfl, rfl⟩, ⟨_, rfl, rfl⟩, ⟨_, rfl, rfl⟩⟩, ?_⟩
    rcases hpose with rfl | rfl <;> (have := camPose_param 0; norm_num; exact this)
  · refine ⟨⟨_, rfl, hd⟩, ⟨_, rfl, ⟨_, rfl, rfl⟩, ⟨_, rfl, rfl⟩, ⟨_, rfl, rfl⟩, ⟨_, rfl, rfl⟩⟩, ?_⟩
    rcases hpose with rfl | rfl <;> (have := camPose_param 1; norm_num; exact this)
  · refine ⟨⟨_, rfl, hd⟩, ⟨_, rfl, ⟨_, rfl, rfl⟩, ⟨_, rfl, rfl⟩, ⟨_, rfl, rfl⟩, ⟨_, rfl, rfl⟩⟩, ?_⟩
    rcases hpose with rfl | rfl <;> (have := camPose_param 2; norm_num; exact this)

theorem camWorld_setup {pose : String} (hpose : pose = "base_to_camera_guess" ∨ pose = "base_to_camera") (hl : paths.length ≤ 3)
    {ds : List (DataSet Nat)} (h : List.Forall₂ (fun r d => parseFromFile alCodec camFiles r = .ok (some d) ∧ d.images.length = 2) paths ds) :
    CamerasSetup (camWorld paths camRight) pose (ds.mapIdx fun c d => ⟨d, ⟨1, 1, 0, 0⟩, shiftBy c c c⟩) 2 camFinder := by
  refine ⟨?_, fun c q hq => ?_, camWorld_finder _, fun q hq => ?_⟩
  · rw [List.length_mapIdx, ← h.length_eq]
    exact camWorld_count _ _
  · rw [List.getElem?_mapIdx] at hq
    obtain ⟨d, hd, rfl⟩ := Option.map_eq_some_iff.1 hq
    have hc := (List.getElem?_eq_some_iff.1 hd).1
    have hcp : c < paths.length := by rw [h.length_eq]; exact hc
    have := h.get hcp hc
    simp only [List.get_eq_getElem] at this
    rw [(List.getElem?_eq_some_iff.1 hd).2] at this
    refine camWorld_camera paths camRight hpose (by omega) ?_ this.1
    rw [List.getD_eq_getElem?_getD, List.getElem?_eq_getElem hcp, Option.getD_some]
  · obtain ⟨c, hc⟩ := List.mem_iff_getElem?.1 hq
    rw [List.getElem?_mapIdx] at hc
    obtain ⟨d, hd, rfl⟩ := Option.map_eq_some_iff.1 hc
    obtain ⟨r, -, -, h2⟩ := Forall₂.mem_right h (List.mem_of_getElem? hd)
    exact h2

theorem camWorld_string {k v : String} (hf : finder = camRight ∨ finder = .int 3)
    (h : (camWorld paths finder).param k = some (.string v)) : ∃ c, v = paths.getD c "a" := by
  have h := lookup_mem h
  simp only [camParams, List.mem_cons, Prod.mk.injEq, List.not_mem_nil, or_false] at h
  rcases h with ⟨-, h⟩ | ⟨-, h⟩ | ⟨-, h⟩ | ⟨-, h⟩ | ⟨-, h⟩ | ⟨-, h⟩ | ⟨-, h⟩ | ⟨-, h⟩ | ⟨-, h⟩ | ⟨-, h⟩ | ⟨-, h⟩ |
    ⟨-, h⟩ | ⟨-, h⟩ | ⟨-, h⟩ | ⟨-, h⟩ | ⟨-, h⟩ <;>
    first
      | (rcases hf with rfl | rfl <;> cases h; done)
      | (cases h; done)
      | (cases h; exact ⟨_, rfl⟩)

theorem camWorld_images (hf : finder = camRight ∨ finder = .int 3) (hp : ∀ r ∈ paths, r = "a" ∨ r = "b" ∨ r = "c" ∨ r = "d") (c : Nat)
    (d : DataSet Nat) (h : DataParam (camWorld paths finder) ((camWorld paths finder).param ("camera_" ++ toString c ++ "/data_path")) d) :
    d.images.length = 2 := by
  obtain ⟨v, hv, hd⟩ := h
  obtain ⟨j, rfl⟩ := camWorld_string paths finder hf hv
  have : paths.getD j "a" = "a" ∨ paths.getD j "a" = "b" ∨ paths.getD j "a" = "c" ∨ paths.getD j "a" = "d" := by
    rw [List.getD_eq_getElem?_getD]
    cases hj : paths[j]? with
    | none => exact .inl rfl
    | some r => exact hp r (List.mem_of_getElem? hj)
  obtain ⟨h1, h2, h3, h4⟩ := camFiles_loads
  change parseFromFile alCodec camFiles _ = _ at hd
  rcases this with e | e | e | e <;> rw [e] at hd
  · rw [h1] at hd; cases hd; rfl
  · rw [h2] at hd; cases hd; rfl
  · rw [h3] at hd; cases hd; rfl
  · rw [h4] at hd; cases hd; rfl

end

theorem camFinder_seen (m : Nat) (cs : List Corr2) : Seen camFinder.find camFinder.create camFinder.draw m cs ↔ m = 5 ∧ cs = [⟨⟨0, 0⟩, ⟨0, 0, 1⟩⟩] := by
  constructor
  · rintro ⟨f, h1, h2, h3, -⟩
    simp only [camFinder] at h1 h3
    split_ifs at h1 with hm
    · exact ⟨hm, (Res.ok.inj h3).symm⟩
    · rw [← Res.ok.inj h1] at h2
      simp at h2
  · rintro ⟨rfl, rfl⟩
    exact ⟨[(0, [])], rfl, by simp, rfl, rfl⟩

/-- The cameras of the examples. -/
noncomputable def camCams (ds : List (DataSet Nat)) : List (CameraParams Nat) := ds.mapIdx fun c d => ⟨d, ⟨1, 1, 0, 0⟩, shiftBy c c c⟩

/-- Without any change by the solver, the guesses come back. -/
theorem multiStatic_id_poses {p : MsProblem} {r : MsResult} (h : multiStatic (idCeres Pose6) p = .ok r)
    (hg : ∀ T ∈ p.baseToCameraGuess, Representable T) (hY : Representable p.wristToTargetGuess) :
    r.baseToCamera = p.baseToCameraGuess ∧ r.wristToTarget = p.wristToTargetGuess := by
  unfold multiStatic at h
  simp only [Res.bind_ok_iff] at h
  obtain ⟨pb, -, cov, -, h⟩ := h
  cases h
  refine ⟨List.ext_getElem (by simp) fun c hc hc' => ?_, ?_⟩
  · simp only [List.getElem_map, List.getElem_range, idCeres]
    have : msInit p (msCam c) = poseEigenToCal (p.baseToCameraGuess[c]).inv := by
      unfold msInit msCam msTgt
      rw [if_neg (by omega), Nat.add_sub_cancel, List.getElem?_eq_getElem hc']
    have hr := hg _ (List.getElem_mem hc')
    rw [this, hr.inv.roundtrip, Iso.inv_inv hr.rigid]
  · exact hY.roundtrip

/-- Three cameras; camera 0 did not see the target in image 1. All hypotheses of `C186_multi_static`, `C187_multi_static_partial`,
`C187_multi_static_negation` and `C188_multi_static_partial` hold, and the poses of the cameras found are different rigid motions. -/
example : ∃ (W : ToolWorld Nat) (junk : Nat → Nat → Nat) (s : Ceres Pose6) (rep : MultiStaticReport Nat)
    (cams : List (CameraParams Nat)) (F : Finder Nat) (v : View Nat) (cs : List Nat), OrderlyWorld W ∧ ProperParams W.param ∧ OrderlyCeres s ∧
    ¬ FinderCrash W ∧ ¬ CountParam (W.param "num_of_cameras") 0 ∧
    (∀ (c : Nat) path, W.param ("camera_" ++ toString c ++ "/data_path") = some (.string path) → parseFromFile W.codec W.fs path ≠ .ok none) ∧
    (∀ (c : Nat) d, DataParam W (W.param ("camera_" ++ toString c ++ "/data_path")) d → d.images.length = 2) ∧
    (∀ cams F, CamerasSetup W "base_to_camera_guess" cams 2 F → ∀ q ∈ cams, ∃ m ∈ q.data.images, ∃ cs,
      Seen F.find F.create F.draw m cs ∧ cs ≠ []) ∧
    multiStaticMain W junk s = .ok (some rep) ∧ CamerasSetup W "base_to_camera_guess" cams 2 F ∧ SeeingCameras F cams 1 cs ∧ 0 ∉ cs ∧
    rep.views[1]? = some (some v) ∧ (∀ Y p r, PoseParam (W.param "wrist_to_target_guess") Y → MultiStaticProblem cams 2 F Y p →
      multiStatic s p = .ok r → RigidMotion r.wristToTarget ∧ (∀ T ∈ r.baseToCamera, RigidMotion T) ∧ r.baseToCamera.Nodup) := by
  obtain ⟨l1, l2, l3, l4⟩ := camFiles_loads
  have hf2 : List.Forall₂ (fun r d => parseFromFile alCodec camFiles r = .ok (some d) ∧ d.images.length = 2) ["a", "b", "b"]
      [camData 5 7, camData 5 5, camData 5 5] := .cons ⟨l1, rfl⟩ (.cons ⟨l2, rfl⟩ (.cons ⟨l2, rfl⟩ .nil))
  obtain ⟨W, hW⟩ : ∃ W, W = camWorld ["a", "b", "b"] camRight := ⟨_, rfl⟩
  obtain ⟨cams, hcams⟩ : ∃ cams, cams = camCams [camData 5 7, camData 5 5, camData 5 5] := ⟨_, rfl⟩
  have hset : CamerasSetup W "base_to_camera_guess" cams 2 camFinder := by
    rw [hW, hcams]; exact camWorld_setup _ (.inl rfl) (by simp) hf2
  have ho : OrderlyWorld W := by rw [hW]; exact camWorld_orderly _ _
  have hp : ProperParams W.param := by rw [hW]; exact camWorld_proper _ _ (.inl rfl)
  have hk : ∀ (c : Nat) d, DataParam W (W.param ("camera_" ++ toString c ++ "/data_path")) d → d.images.length = 2 := by
    rw [hW]; exact camWorld_images _ _ (.inl rfl) (by simp)
  have hY : PoseParam (W.param "wrist_to_target_guess") (shiftBy 3 3 3) := by rw [hW]; exact camWorld_target _ _
  have hne : cams ≠ [] := by rw [hcams]; simp [camCams, List.mapIdx_cons]
  have hq : ∀ q ∈ cams, 5 ∈ q.data.images ∧ ∃ x : ℝ, q.pose = shiftBy x x x := by
    intro q hq
    rw [hcams] at hq
    simp only [camCams, List.mapIdx_cons, List.mapIdx_nil, List.mem_cons, List.not_mem_nil, or_false] at hq
    rcases hq with rfl | rfl | rfl <;> exact ⟨by simp [camData], _, rfl⟩
  have hsee : ∀ q ∈ cams, ∃ m ∈ q.data.images, ∃ cs, Seen camFinder.find camFinder.create camFinder.draw m cs ∧ cs ≠ [] := fun q hq' =>
    ⟨5, (hq q hq').1, _, (camFinder_seen 5 _).2 ⟨rfl, rfl⟩, by simp⟩
  have hpose := setup_poses hset.camera
  obtain ⟨rep, hrep⟩ : ∃ rep, multiStaticMain W (fun _ _ => 7) (idCeres Pose6) = .ok (some rep) := by
    obtain ⟨t, ht⟩ := table_returns (orderlyFinder_of ho hset.finder) (fun _ _ => 7) hne hset.images
    obtain ⟨g1, g2, g3, g4⟩ := table_facts ht hset.images
    obtain ⟨data, hdata⟩ := C105_returns t (cams.map fun c => c.data) (by rw [g1]; simp) (by
      intro d hd
      obtain ⟨q, hq, rfl⟩ := List.mem_map.1 hd
      rw [g2, ← hpose q hq, hset.images q hq])
    have hprob := multiStatic_problem ht hset.images hdata (shiftBy 3 3 3)
    obtain ⟨r, hr⟩ := multiStatic_id_runs (problem_sizes hprob) (by simpa using hne) (by
      intro c hc
      simp only [List.length_map] at hc
      exact (problem_sees hprob hset.images hpose (List.getElem?_eq_getElem hc)).2 (hsee _ (List.getElem_mem hc)))
    have hl := multiStatic_poses hr
    simp only [List.length_map] at hl
    obtain ⟨rep, hrep⟩ := multiStatic_after ht hne hset.images hpose (idCeres Pose6) hl
    refine ⟨rep, ?_⟩
    unfold multiStaticMain
    rw [toolExit_ok, (cameraCount_ok_iff _ _).2 hset.count, Res.ok_bind,
      (loadCameras_ok_iff W hp _ (loadMultiStatic_ok_iff W.codec W.fs) _ _ _).2 ⟨rfl, hset.camera⟩, Res.ok_bind,
      (needPose_ok_iff hp _ _).2 hY, Res.ok_bind, (loadFinder_ok_iff W _).2 hset.finder, Res.ok_bind]
    simp only
    rw [ht, Res.ok_bind, hdata, Res.ok_bind, hr, Res.ok_bind]
    exact hrep
  obtain ⟨cams', F', Y', p, r, h1, -, -, -, h5⟩ := C187_multi_static_partial W hp _ _ rep hrep 2 hk
  obtain ⟨rfl, rfl⟩ := setup_unique hp h1 hset
  obtain ⟨cs, hcs, -, hcs2⟩ := h5 1 (by norm_num)
  have h0 : 0 ∉ cs := by
    intro h
    obtain ⟨q, m, o, e1, e2, e3⟩ := (hcs.2 0).1 h
    rw [hcams] at e1
    cases e1
    cases e2
    have := ((camFinder_seen _ _).1 e3).1
    norm_num at this
  have h12 : 1 ∈ cs ∧ 2 ∈ cs := by
    constructor
    · refine (hcs.2 1).2 ⟨_, 5, _, by rw [hcams]; rfl, rfl, (camFinder_seen _ _).2 ⟨rfl, rfl⟩⟩
    · refine (hcs.2 2).2 ⟨_, 5, _, by rw [hcams]; rfl, rfl, (camFinder_seen _ _).2 ⟨rfl, rfl⟩⟩
  have hlen : 2 ≤ cs.length := by
    have : ([1, 2] : List Nat).length ≤ cs.length := List.Subperm.length_le (List.Nodup.subperm (by simp) (by simp [h12]))
    simpa using this
  obtain ⟨v, hv, -⟩ := hcs2 hlen
  refine ⟨W, _, _, rep, cams', _, v, cs, ho, hp, orderly_idCeres _, by rw [hW]; exact camWorld_calm _, ?_, ?_, hk, ?_, hrep, hset, hcs, h0, hv, ?_⟩
  · intro h
    have h1 := (cameraCount_ok_iff _ _).2 h
    rw [(cameraCount_ok_iff _ _).2 hset.count] at h1
    exact hne (List.length_eq_zero_iff.1 (Res.ok.inj h1))
  · intro c path hpath
    rw [hW] at hpath
    obtain ⟨j, rfl⟩ := camWorld_string _ _ (.inl rfl) hpath
    rw [hW]
    show parseFromFile alCodec camFiles _ ≠ _
    have : ["a", "b", "b"].getD j "a" = "a" ∨ ["a", "b", "b"].getD j "a" = "b" := by
      match j with
      | 0 => exact .inl rfl
      | 1 => exact .inr rfl
      | 2 => exact .inr rfl
      | _ + 3 => exact .inl rfl
    rcases this with e | e <;> rw [e]
    · rw [l1]; simp
    · rw [l2]; simp
  · intro cams'' F'' hset'
    obtain ⟨rfl, rfl⟩ := setup_unique hp hset' hset
    exact hsee
  · intro Y p r hY' hprob hr
    have hYY : Y = shiftBy 3 3 3 := by
      have h1 := (needPose_ok_iff hp _ _).2 hY
      rw [(needPose_ok_iff hp _ _).2 hY'] at h1
      exact Res.ok.inj h1
    have hrig : ∀ T ∈ p.baseToCameraGuess, Representable T := by
      rw [hprob.cameraGuess]
      intro T hT
      obtain ⟨q, hq', rfl⟩ := List.mem_map.1 hT
      obtain ⟨x, hx⟩ := (hq q hq').2
      rw [hx]; exact shiftBy_rep _ _ _
    obtain ⟨e1, e2⟩ := multiStatic_id_poses hr hrig (by rw [hprob.targetGuess, hYY]; exact shiftBy_rep _ _ _)
    refine ⟨by rw [e2, hprob.targetGuess, hYY]; exact (shiftBy_rep _ _ _).1, fun T hT => (hrig T (e1 ▸ hT)).1, ?_⟩
    rw [e1, hprob.cameraGuess, hcams]
    have : ∀ a b : ℝ, shiftBy a a a = shiftBy b b b → a = b := fun a b h => congrArg (fun T : Iso => T.t.x) h
    simp only [camCams, List.mapIdx_cons, List.mapIdx_nil, List.map_cons, List.map_nil, List.nodup_cons, List.mem_cons, List.not_mem_nil,
      or_false, not_or, not_false_eq_true, List.nodup_nil, and_true]
    refine ⟨⟨fun h => ?_, fun h => ?_⟩, fun h => ?_⟩ <;> (have := this _ _ h; norm_num at this)

/-- The same cameras: the hypotheses of `C186_multi_step`, `C187_multi_step` and `C188_multi_step_partial` hold and one image was seen
by all cameras; so do those of `C186_multi_pnp` and `C188_multi_pnp_partial`. -/
example : ∃ (W : ToolWorld Nat) (junk : Nat → Nat → Nat) (s : Ceres Pose6) (rep : MultiStepReport Nat) (rep' : List (Iso × View Nat))
    (cams : List (CameraParams Nat)) (F : Finder Nat) (e : Iso × List (List Corr2)), OrderlyWorld W ∧ ProperParams W.param ∧
    ¬ FinderCrash W ∧ ¬ CountParam (W.param "num_of_cameras") 0 ∧
    (∀ (c : Nat) d, DataParam W (W.param ("camera_" ++ toString c ++ "/data_path")) d → d.images.length = 2) ∧
    multiStepMain W junk s = .ok (some rep) ∧ multiPnpMain W junk s = .ok (some rep') ∧
    CamerasSetup W "base_to_camera_guess" cams 2 F ∧ CamerasSetup W "base_to_camera" cams 2 F ∧ JointItem F cams 0 e := by
  obtain ⟨l1, l2, l3, l4⟩ := camFiles_loads
  have hf2 : List.Forall₂ (fun r d => parseFromFile alCodec camFiles r = .ok (some d) ∧ d.images.length = 2) ["a", "b", "b"]
      [camData 5 7, camData 5 5, camData 5 5] := .cons ⟨l1, rfl⟩ (.cons ⟨l2, rfl⟩ (.cons ⟨l2, rfl⟩ .nil))
  obtain ⟨W, hW⟩ : ∃ W, W = camWorld ["a", "b", "b"] camRight := ⟨_, rfl⟩
  obtain ⟨cams, hcams⟩ : ∃ cams, cams = camCams [camData 5 7, camData 5 5, camData 5 5] := ⟨_, rfl⟩
  have hset : CamerasSetup W "base_to_camera_guess" cams 2 camFinder := by
    rw [hW, hcams]; exact camWorld_setup _ (.inl rfl) (by simp) hf2
  have hset' : CamerasSetup W "base_to_camera" cams 2 camFinder := by
    rw [hW, hcams]; exact camWorld_setup _ (.inr rfl) (by simp) hf2
  have ho : OrderlyWorld W := by rw [hW]; exact camWorld_orderly _ _
  have hp : ProperParams W.param := by rw [hW]; exact camWorld_proper _ _ (.inl rfl)
  have hne : cams ≠ [] := by rw [hcams]; simp [camCams, List.mapIdx_cons]
  have hY : PoseParam (W.param "wrist_to_target_guess") (shiftBy 3 3 3) := by rw [hW]; exact camWorld_target _ _
  have hfix : W.param "fix_first_camera" = some (.bool true) := by rw [hW]; exact camWorld_fix _ _
  obtain ⟨rep, hrep⟩ := multiStep_tail (orderlyFinder_of ho hset.finder) (fun _ _ => 7) (idCeres Pose6) true (shiftBy 3 3 3) hne hset.images
    (setup_poses hset.camera)
  obtain ⟨rep', hrep'⟩ := multiPnp_tail (orderlyFinder_of ho hset.finder) (fun _ _ => 7) (idCeres Pose6) hne hset.images
    (setup_poses hset.camera)
  refine ⟨W, fun _ _ => 7, idCeres Pose6, rep, rep', cams, camFinder, (alIso, List.replicate 3 [⟨⟨0, 0⟩, ⟨0, 0, 1⟩⟩]), ho, hp, by rw [hW]; exact camWorld_calm _, ?_,
    by rw [hW]; exact camWorld_images _ _ (.inl rfl) (by simp), ?_, ?_, hset, hset', ?_⟩
  · intro h
    have h1 := (cameraCount_ok_iff _ _).2 h
    rw [(cameraCount_ok_iff _ _).2 hset.count] at h1
    exact hne (List.length_eq_zero_iff.1 (Res.ok.inj h1))
  · unfold multiStepMain
    rw [toolExit_ok, (cameraCount_ok_iff _ _).2 hset.count, Res.ok_bind,
      (loadCameras_ok_iff W hp _ (C106_partial W.codec W.fs · |>.2) _ _ _).2 ⟨rfl, hset.camera⟩, Res.ok_bind,
      (getBool_ok_iff _ _).2 hfix, Res.ok_bind, (loadFinder_ok_iff W _).2 hset.finder, Res.ok_bind, (needPose_ok_iff hp _ _).2 hY,
      Res.ok_bind]
    exact hrep
  · unfold multiPnpMain
    rw [toolExit_ok, (cameraCount_ok_iff _ _).2 hset'.count, Res.ok_bind,
      (loadCameras_ok_iff W hp _ (C106_partial W.codec W.fs · |>.2) _ _ _).2 ⟨rfl, hset'.camera⟩, Res.ok_bind,
      (loadFinder_ok_iff W _).2 hset'.finder, Res.ok_bind]
    exact hrep'
  · have hseen : Seen camFinder.find camFinder.create camFinder.draw 5 _ := (camFinder_seen 5 _).2 ⟨rfl, rfl⟩
    rw [hcams]
    exact ⟨⟨_, rfl, rfl⟩, .cons ⟨5, rfl, hseen⟩ (.cons ⟨5, rfl, hseen⟩ (.cons ⟨5, rfl, hseen⟩ .nil))⟩

/-- No camera at all: the hypotheses of `C188_zero_negation`. -/
example : ∃ (W : ToolWorld Nat) (F : Finder Nat) (Y : Iso) (fix : Bool), ProperParams W.param ∧ CountParam (W.param "num_of_cameras") 0 ∧
    FinderParam W F ∧ PoseParam (W.param "wrist_to_target_guess") Y ∧ W.param "fix_first_camera" = some (.bool fix) :=
  ⟨camWorld [] camRight, camFinder, _, _, camWorld_proper _ _ (.inl rfl), camWorld_count _ _, camWorld_finder _, camWorld_target _ _,
    camWorld_fix _ _⟩

/-- The data set of the second camera is missing: the hypotheses of `C188_unreadable_negation`. -/
example : ∃ (W : ToolWorld Nat) (n c : Nat) (path : String), ProperParams W.param ∧ CountParam (W.param "num_of_cameras") n ∧ c < n ∧ 0 < c ∧
    W.param ("camera_" ++ toString c ++ "/data_path") = some (.string path) ∧ parseFromFile W.codec W.fs path = .ok none ∧
    ∀ c' < c, ∃ q, CameraSetup W "base_to_camera_guess" c' q := by
  refine ⟨camWorld ["a", "x", "b"] camRight, 3, 1, "x", camWorld_proper _ _ (.inl rfl), camWorld_count _ _, by norm_num, by norm_num, rfl, ?_, ?_⟩
  · have : camFiles.files "x" = none := by simp [camFiles]
    show parseFromFile alCodec camFiles "x" = _
    unfold parseFromFile loadYaml
    rw [this]
    rfl
  · intro c' hc'
    rw [show c' = 0 by omega]
    exact ⟨_, camWorld_camera _ _ (.inl rfl) (by norm_num) rfl camFiles_loads.1⟩

/-- The second camera never sees the target: the hypotheses of `C188_blind_negation`. -/
example : ∃ (W : ToolWorld Nat) (cams : List (CameraParams Nat)) (F : Finder Nat) (Y : Iso) (q : CameraParams Nat), OrderlyWorld W ∧
    ProperParams W.param ∧ CamerasSetup W "base_to_camera_guess" cams 2 F ∧ PoseParam (W.param "wrist_to_target_guess") Y ∧ q ∈ cams ∧
    ∀ m ∈ q.data.images, ∀ cs, Seen F.find F.create F.draw m cs → cs = [] := by
  obtain ⟨l1, l2, l3, l4⟩ := camFiles_loads
  have hf2 : List.Forall₂ (fun r d => parseFromFile alCodec camFiles r = .ok (some d) ∧ d.images.length = 2) ["a", "d"]
      [camData 5 7, camData 7 7] := .cons ⟨l1, rfl⟩ (.cons ⟨l4, rfl⟩ .nil)
  refine ⟨camWorld ["a", "d"] camRight, camCams [camData 5 7, camData 7 7], camFinder, _, ⟨camData 7 7, ⟨1, 1, 0, 0⟩, shiftBy (1 : Nat) (1 : Nat) (1 : Nat)⟩,
    camWorld_orderly _ _, camWorld_proper _ _ (.inl rfl), camWorld_setup _ (.inl rfl) (by simp) hf2, camWorld_target _ _, ?_, ?_⟩
  · simp [camCams, List.mapIdx_cons]
  · intro m hm cs hs
    have := ((camFinder_seen _ _).1 hs).1
    simp only [camData, List.mem_cons, List.not_mem_nil, or_false, or_self] at hm
    omega

/-- A parameter for the finder that is a number: the hypotheses of `C188_finder_negation`. -/
example : ∃ (W : ToolWorld Nat) (cams : List (CameraParams Nat)) (Y : Iso) (fix : Bool), OrderlyWorld W ∧ ProperParams W.param ∧
    CountParam (W.param "num_of_cameras") cams.length ∧ FinderCrash W ∧
    (∀ (c : Nat) q, cams[c]? = some q → CameraSetup W "base_to_camera" c q ∧ CameraSetup W "base_to_camera_guess" c q) ∧
    PoseParam (W.param "wrist_to_target_guess") Y ∧ W.param "fix_first_camera" = some (.bool fix) ∧ cams ≠ [] := by
  refine ⟨camWorld ["a"] (.int 3), [⟨camData 5 7, ⟨1, 1, 0, 0⟩, shiftBy (0 : Nat) (0 : Nat) (0 : Nat)⟩], _, _, camWorld_orderly _ _,
    camWorld_proper _ _ (.inr rfl), camWorld_count _ _, ⟨.int 3, rfl, by simp, .inl (by simp)⟩, fun c q hq => ?_, camWorld_target _ _,
    camWorld_fix _ _, by simp⟩
  have hc : c = 0 := by
    have := (List.getElem?_eq_some_iff.1 hq).1
    simpa using this
  subst hc
  cases hq
  exact ⟨camWorld_camera _ _ (.inr rfl) (by norm_num) rfl camFiles_loads.1, camWorld_camera _ _ (.inl rfl) (by norm_num) rfl camFiles_loads.1⟩

/-- Two cameras that see the target, but never at the same time: the hypotheses of `C188_multi_step_negation` and
`C188_multi_pnp_negation`. -/
example : ∃ (W : ToolWorld Nat) (s : Ceres Pose6) (cams : List (CameraParams Nat)) (F : Finder Nat) (Y : Iso) (fix : Bool), OrderlyWorld W ∧
    ProperParams W.param ∧ s.WF ∧ cams.length = 2 ∧
    (∀ (c : Nat) d, DataParam W (W.param ("camera_" ++ toString c ++ "/data_path")) d → d.images.length = 2) ∧
    CamerasSetup W "base_to_camera_guess" cams 2 F ∧ CamerasSetup W "base_to_camera" cams 2 F ∧
    PoseParam (W.param "wrist_to_target_guess") Y ∧ W.param "fix_first_camera" = some (.bool fix) ∧
    (∀ i < 2, ∀ e, ¬ JointItem F cams i e) := by
  obtain ⟨l1, l2, l3, l4⟩ := camFiles_loads
  have hf2 : List.Forall₂ (fun r d => parseFromFile alCodec camFiles r = .ok (some d) ∧ d.images.length = 2) ["a", "c"]
      [camData 5 7, camData 7 5] := .cons ⟨l1, rfl⟩ (.cons ⟨l3, rfl⟩ .nil)
  refine ⟨camWorld ["a", "c"] camRight, idCeres Pose6, camCams [camData 5 7, camData 7 5], camFinder, _, _, camWorld_orderly _ _,
    camWorld_proper _ _ (.inl rfl), idCeres_wf _, rfl, camWorld_images _ _ (.inl rfl) (by simp), camWorld_setup _ (.inl rfl) (by simp) hf2,
    camWorld_setup _ (.inr rfl) (by simp) hf2, camWorld_target _ _, camWorld_fix _ _, ?_⟩
  rintro i hi ⟨T, ls⟩ ⟨-, h⟩
  simp only [camCams, List.mapIdx_cons, List.mapIdx_nil] at h
  cases h with
  | cons h1 h2 =>
    cases h2 with
    | cons h2 h3 =>
      obtain ⟨m, e1, e2⟩ := h1
      obtain ⟨m', e3, e4⟩ := h2
      have r1 := ((camFinder_seen _ _).1 e2).1
      have r2 := ((camFinder_seen _ _).1 e4).1
      interval_cases i <;> cases e1 <;> cases e3 <;> omega

end RCT
