import Verif.Spec.Mains
import Verif.Props.EndToEnd
import Verif.Props.Loaders
import Verif.Props.Gate
import Verif.Props.Alignment
import Verif.Props.Analysis

/-!
# C183-C185 The extrinsic tools for one camera as programs
-/

namespace RCT

open Spec

variable {Img : Type}

/-! ### Parameters -/

theorem getDouble_ok_iff (v : Option XVal) (x : ℝ) : getDouble v = .ok x ↔ NumberParam v x := by
  unfold NumberParam
  match v with
  | none => simp [getDouble]
  | some .invalid | some (.bool _) | some (.string _) | some (.other _) | some (.array _) | some (.struct _) => simp [getDouble]
  | some (.double y) => simp [getDouble, eq_comm]
  | some (.int i) => simp [getDouble, eq_comm]

theorem getString_ok_iff (v : Option XVal) (s : String) : getString v = .ok s ↔ v = some (.string s) := by
  match v with
  | none => simp [getString]
  | some .invalid | some (.bool _) | some (.int _) | some (.other _) | some (.array _) | some (.struct _) | some (.double _) =>
    simp [getString]
  | some (.string t) => simp [getString]

theorem intrParam_ok_iff {param : String → Option XVal} (hp : ProperParams param) (k : String) (i : Intr) :
    loadIntrParam (param k) = .ok i ↔ IntrinsicsParam (param k) i := by
  unfold IntrinsicsParam
  cases h : param k with
  | none => simp [loadIntrParam]
  | some xml => rw [C83_partial xml (hp k xml h)]; simp

theorem poseParam_ok_iff {param : String → Option XVal} (hp : ProperParams param) (k : String) (T : Iso) :
    loadPoseParam (param k) = .ok T ↔ PoseParam (param k) T := by
  unfold PoseParam
  cases h : param k with
  | none => simp [loadPoseParam]
  | some xml =>
    constructor
    · intro hT
      obtain ⟨h1, q, h2, h3⟩ := C82_parameter_values xml (hp k xml h) T hT
      exact ⟨xml, q, rfl, h1, h2, h3⟩
    · rintro ⟨xml', q, he, ⟨hx, hy, hz⟩, ⟨qw, qx, qy, qz⟩, h0, h1⟩
      cases he
      have hd : ∀ k x, HasDouble xml k x → needDouble xml k = .ok x := fun k' x hk => (needDouble_ok_iff xml k' x (hp k xml h k')).2 hk
      unfold loadPoseParam
      simp only [hd _ _ hx, hd _ _ hy, hd _ _ hz, hd _ _ qw, hd _ _ qx, hd _ _ qy, hd _ _ qz, Res.ok_bind]
      obtain ⟨R, t⟩ := T
      simp only at h0 h1
      congr 2
      by_cases hq : q.normSq = 0
      · rw [h0 hq]
        have hv : q.vec.norm = 0 := by
          have : q.vec.normSq = 0 := by
            simp only [Quat.normSq] at hq
            simp only [V3.normSq, V3.dot, Quat.vec]
            nlinarith [mul_self_nonneg q.w, mul_self_nonneg q.x, mul_self_nonneg q.y, mul_self_nonneg q.z]
          unfold V3.norm
          rw [this, Real.sqrt_zero]
        simp only [Quat.toAngleAxis, hv, ne_eq, not_true_eq_false, if_false]
        exact AngleAxis.toMat_zero_angle _
      · rw [h1 hq]
        exact toAngleAxis_normalized hq

theorem loadFinder_ok_iff (W : ToolWorld Img) (F : Finder Img) : loadFinder W = .ok F ↔ FinderParam W F := by
  unfold loadFinder FinderParam
  cases h : W.param "target_finder" with
  | none => simp [getAny]
  | some v =>
    simp only [getAny, Res.ok_bind]
    cases v with
    | struct l =>
      cases ht : l.lookup "type" with
      | none => simp [finderType, ht]
      | some u =>
        cases u with
        | string s =>
          simp only [finderType, ht, Res.ok_bind]
          cases hpl : W.plugin s with
          | none => simp [hpl, ht]
          | some init =>
            simp only [Res.bind_ok_iff]
            have hy : ∀ y, toYAMLorDie W.printer (.struct l) = .ok y ↔ toYAML W.printer (.struct l) = .ok y := by
              intro y
              unfold toYAMLorDie
              split <;> simp_all
            simp only [hy]
            constructor
            · rintro ⟨y, h1, h2⟩
              exact ⟨l, s, init, y, rfl, ht, hpl, h1, h2⟩
            · rintro ⟨l', s', init', y, h1, h2, h3, h4, h5⟩
              cases h1
              rw [ht] at h2
              cases h2
              rw [hpl] at h3
              cases h3
              exact ⟨y, h4, h5⟩
        | _ => simp [finderType, ht]
    | _ => simp [finderType]

theorem dataParam_ok_iff (W : ToolWorld Img) (v : Option XVal) (d : DataSet Img) :
    ((getString v).bind fun path => loadChecked W.codec W.fs path) = .ok d ↔ DataParam W v d := by
  unfold DataParam
  simp only [Res.bind_ok_iff, getString_ok_iff, (C106_partial W.codec W.fs _).2]

theorem toolExit_ok {α : Type} (r : Res α) (a : α) : toolExit r = .ok (some a) ↔ r = .ok a := by
  unfold toolExit
  cases r <;> simp [Res.bind, Res.tryCatch]

/-! ## C183 What the extrinsic tools for one camera compute -/

theorem handEyeReport_ok_iff (s : Ceres Pose6) (s3 : Ceres V3) (p : HandEyeProblem Corr2) (images : List Img) (rep : HandEyeReport) :
    handEyeReport s s3 p images = .ok rep ↔ ∃ r, handEye2 s p = .ok r ∧
      analyze3D p.observations p.intr r.cameraMountToCamera r.targetMountToTarget = .ok rep.proj3 ∧
      analyzeResults s3 p.intr p.observations images r.cameraMountToCamera r.targetMountToTarget = .ok rep.pnp ∧
      rep = ⟨printOpt r.converged r.initialCost r.finalCost, rep.proj3, printTransform r.cameraMountToCamera,
        printTransform r.targetMountToTarget, r.covariance.correlation_coeffs.filter fun c => decide (|c.value| > 1 / 2), rep.pnp⟩ := by
  unfold handEyeReport
  simp only [Res.bind_ok_iff, Res.ok.injEq]
  constructor
  · rintro ⟨r, h1, a, h2, b, h3, rfl⟩
    exact ⟨r, h1, h2, h3, rfl⟩
  · rintro ⟨r, h1, h2, h3, h4⟩
    exact ⟨r, h1, _, h2, _, h3, h4.symm⟩

theorem reports_of {rep : HandEyeReport} {r : HandEyeResult}
    (h : rep = ⟨printOpt r.converged r.initialCost r.finalCost, rep.proj3, printTransform r.cameraMountToCamera,
      printTransform r.targetMountToTarget, r.covariance.correlation_coeffs.filter fun c => decide (|c.value| > 1 / 2), rep.pnp⟩) :
    Reports rep r := by
  constructor
  · rw [h]; rfl
  · rw [h]; rfl
  · rw [h]; rfl
  · rw [h]
  · rw [h]
  · rw [h]
    intro c
    simp only [List.mem_filter, decide_eq_true_eq, gt_iff_lt]

/-- The steps of the wrist tool up to its optimisation. -/
theorem wristMain_ok_iff (W : ToolWorld Img) (hp : ProperParams W.param) (s : Ceres Pose6) (s3 : Ceres V3) (rep : HandEyeReport) :
    wristMain W s s3 = .ok (some rep) ↔ ∃ threshold intr d F X Y found,
      ExtrinsicSetup W "wrist_to_camera_guess" "base_to_target_guess" threshold intr d F X Y ∧
      wristCollect (W.env F threshold) d = .ok found ∧
      handEyeReport s s3 (toolProblem intr X Y found.observations) found.images = .ok rep := by
  unfold wristMain
  rw [toolExit_ok]
  simp only [Res.bind_ok_iff, getDouble_ok_iff, getString_ok_iff, (C106_partial W.codec W.fs _).2, loadFinder_ok_iff,
    intrParam_ok_iff hp, poseParam_ok_iff hp]
  constructor
  · rintro ⟨t, h1, i, h2, path, h3, d, h4, F, h5, Y, h6, X, h7, found, h8, h9⟩
    exact ⟨t, i, d, F, X, Y, found, ⟨h1, h2, ⟨path, h3, h4⟩, h5, h7, h6⟩, h8, h9⟩
  · rintro ⟨t, i, d, F, X, Y, found, ⟨h1, h2, ⟨path, h3, h4⟩, h5, h7, h6⟩, h8, h9⟩
    exact ⟨t, h1, i, h2, path, h3, d, h4, F, h5, Y, h6, X, h7, found, h8, h9⟩

/-- The steps of the static camera tool up to its optimisation. -/
theorem staticMain_ok_iff (W : ToolWorld Img) (hp : ProperParams W.param) (s : Ceres Pose6) (s3 : Ceres V3) (rep : HandEyeReport) :
    staticMain W s s3 = .ok (some rep) ↔ ∃ threshold intr d F X Y found,
      ExtrinsicSetup W "base_to_camera_guess" "wrist_to_target_guess" threshold intr d F X Y ∧
      staticCollect (W.env F threshold) d = .ok found ∧
      handEyeReport s s3 (toolProblem intr X Y found.observations) found.images = .ok rep := by
  unfold staticMain
  rw [toolExit_ok]
  simp only [Res.bind_ok_iff, getDouble_ok_iff, getString_ok_iff, (C106_partial W.codec W.fs _).2, loadFinder_ok_iff,
    intrParam_ok_iff hp, poseParam_ok_iff hp]
  constructor
  · rintro ⟨t, h1, path, h3, d, h4, F, h5, i, h2, X, h7, Y, h6, found, h8, h9⟩
    exact ⟨t, i, d, F, X, Y, found, ⟨h1, h2, ⟨path, h3, h4⟩, h5, h7, h6⟩, h8, h9⟩
  · rintro ⟨t, i, d, F, X, Y, found, ⟨h1, h2, ⟨path, h3, h4⟩, h5, h7, h6⟩, h8, h9⟩
    exact ⟨t, h1, path, h3, d, h4, F, h5, i, h2, X, h7, Y, h6, found, h8, h9⟩

/-- Whenever the wrist tool ends with success, what it prints is the result of the calibration of exactly the accepted images of
the data set (numbers `js`), each with the wrist pose recorded with it, with the intrinsic parameters and the guesses of the
parameters that are named so; the analyses printed below are those of this result. -/
theorem C183_wrist (W : ToolWorld Img) (hp : ProperParams W.param) (s : Ceres Pose6) (s3 : Ceres V3) (rep : HandEyeReport)
    (h : wristMain W s s3 = .ok (some rep)) :
    ∃ threshold intr d F X Y js items, ∃ p : HandEyeProblem Corr2, ∃ r,
      ExtrinsicSetup W "wrist_to_camera_guess" "base_to_target_guess" threshold intr d F X Y ∧
      SelectedAt d.images.length (WristItem (W.env F threshold) d) js items ∧
      p.observations = items.map Prod.fst ∧ p.intr = intr ∧ p.cameraGuess = X ∧ p.targetGuess = Y ∧
      handEye2 s p = .ok r ∧ Reports rep r ∧
      analyze3D (items.map Prod.fst) intr r.cameraMountToCamera r.targetMountToTarget = .ok rep.proj3 ∧
      analyzeResults s3 intr (items.map Prod.fst) (items.map Prod.snd) r.cameraMountToCamera r.targetMountToTarget = .ok rep.pnp := by
  obtain ⟨t, i, d, F, X, Y, found, hset, hf, hrep⟩ := (wristMain_ok_iff W hp s s3 rep).1 h
  obtain ⟨js, items, hs, ho, hi⟩ := C84_wrist _ _ _ hf
  obtain ⟨r, h1, h2, h3, h4⟩ := (handEyeReport_ok_iff _ _ _ _ _).1 hrep
  refine ⟨t, i, d, F, X, Y, js, items, _, r, hset, hs, ho, rfl, rfl, rfl, h1, reports_of h4, ?_, ?_⟩
  · rw [← ho]; exact h2
  · rw [← ho, ← hi]; exact h3

/-- The same for the static camera tool. -/
theorem C183_static (W : ToolWorld Img) (hp : ProperParams W.param) (s : Ceres Pose6) (s3 : Ceres V3) (rep : HandEyeReport)
    (h : staticMain W s s3 = .ok (some rep)) :
    ∃ threshold intr d F X Y js items, ∃ p : HandEyeProblem Corr2, ∃ r,
      ExtrinsicSetup W "base_to_camera_guess" "wrist_to_target_guess" threshold intr d F X Y ∧
      SelectedAt d.images.length (StaticItem (W.env F threshold) d) js items ∧
      p.observations = items.map Prod.fst ∧ p.intr = intr ∧ p.cameraGuess = X ∧ p.targetGuess = Y ∧
      handEye2 s p = .ok r ∧ Reports rep r ∧
      analyze3D (items.map Prod.fst) intr r.cameraMountToCamera r.targetMountToTarget = .ok rep.proj3 ∧
      analyzeResults s3 intr (items.map Prod.fst) (items.map Prod.snd) r.cameraMountToCamera r.targetMountToTarget = .ok rep.pnp := by
  obtain ⟨t, i, d, F, X, Y, found, hset, hf, hrep⟩ := (staticMain_ok_iff W hp s s3 rep).1 h
  obtain ⟨js, items, hs, ho, hi⟩ := C84_static _ _ _ hf
  obtain ⟨r, h1, h2, h3, h4⟩ := (handEyeReport_ok_iff _ _ _ _ _).1 hrep
  refine ⟨t, i, d, F, X, Y, js, items, _, r, hset, hs, ho, rfl, rfl, rfl, h1, reports_of h4, ?_, ?_⟩
  · rw [← ho]; exact h2
  · rw [← ho, ← hi]; exact h3

/-- Which images are accepted in C183: those in which the finder finds the target and makes at least twelve correspondences whose
mean homography error, for the sample of a third of them drawn for this image, is at most the threshold. -/
theorem C183_accepted (W : ToolWorld Img) (i : Nat) (hd : (W.draws i).WF) (cs : List Corr2) (hlen : cs.length < 2 ^ 64) :
    (cs.length < 12 → ∀ F threshold m, ¬ ImageAccepted (W.env F threshold) i m cs) ∧
    (12 ≤ cs.length → ∃ sample errs, sample.length = cs.length / 3 ∧ (∀ j ∈ sample, j < cs.length) ∧
      homographyError W.lu cs (.ok sample) = .ok errs ∧ errs.length = cs.length ∧
      ∀ F threshold m, ImageAccepted (W.env F threshold) i m cs ↔
        (∃ fs, F.find m = .ok fs ∧ fs ≠ [] ∧ F.create fs = .ok cs) ∧ errs.sum / cs.length ≤ threshold) := by
  constructor
  · rintro h F threshold m ⟨fs, -, -, -, hc⟩
    have : homographyCheck W.lu (W.draws i) threshold cs = .ok () := hc
    rw [(C108_gate W.lu (W.draws i) hd threshold cs hlen).1 h] at this
    cases this
  · intro h
    obtain ⟨sm, hs⟩ := (C51_construct cs.length (cs.length / 3)).1 (by omega)
    obtain ⟨l, hl, hll, -, hlt⟩ := C51_sample (W.draws i) hd _ _ hlen sm hs
    obtain ⟨errs, he, hel⟩ := C53_count W.lu cs l (by omega) hlt
    have hmean : accMean errs = some (errs.sum / cs.length) := by
      unfold accMean
      rw [if_neg (by omega), hel]
    refine ⟨l, errs, hll, hlt, he, hel, fun F threshold m => ?_⟩
    have hcheck : homographyCheck W.lu (W.draws i) threshold cs = .ok () ↔ errs.sum / cs.length ≤ threshold := by
      unfold homographyCheck
      rw [hs, Res.ok_bind, hl, he, Res.ok_bind, hmean]
      constructor
      · intro hok
        by_contra hgt
        rw [if_pos (show costAbove (some _) _ from not_le.1 hgt)] at hok
        cases hok
      · intro hle
        rw [if_neg]
        simpa [costAbove] using hle
    constructor
    · rintro ⟨fs, h1, h2, h3, h4⟩
      exact ⟨⟨fs, h1, h2, h3⟩, hcheck.1 h4⟩
    · rintro ⟨⟨fs, h1, h2, h3⟩, h4⟩
      exact ⟨fs, h1, h2, h3, hcheck.2 h4⟩

/-- Twelve correspondences and a generator that always draws the lower bound. -/
example : UniformInt.WF (fun a _ _ => a) ∧ (List.replicate 12 (⟨⟨0, 0⟩, ⟨0, 0, 0⟩⟩ : Corr2)).length < 2 ^ 64 :=
  ⟨fun _ _ _ h => ⟨Nat.le_refl _, h⟩, by norm_num⟩

/-! ## C184 How the extrinsic tools for one camera end -/

theorem Spec.Orderly.bind {α β : Type} {x : Res α} {f : α → Res β} (h : Orderly x) (hf : ∀ a, x = .ok a → Orderly (f a)) :
    Orderly (x.bind f) := by
  rcases h with ⟨a, rfl⟩ | ⟨e, rfl⟩
  · exact hf a rfl
  · exact .inr ⟨e, rfl⟩

theorem orderly_ok {α : Type} (a : α) : Orderly (.ok a) := .inl ⟨a, rfl⟩

theorem orderly_throw {α : Type} (e : Exc) : Orderly (.throw e : Res α) := .inr ⟨e, rfl⟩

theorem Spec.Orderly.catch {α : Type} {x : Res α} (h : Orderly x) (p : Exc → Bool) (a : α) : Orderly (x.tryCatch p a) := by
  rcases h with ⟨b, rfl⟩ | ⟨e, rfl⟩
  · exact .inl ⟨b, rfl⟩
  · unfold Res.tryCatch
    simp only
    split_ifs
    · exact orderly_ok _
    · exact orderly_throw _

theorem orderly_mapList {α β : Type} {f : α → Res β} {l : List α} (h : ∀ a ∈ l, Orderly (f a)) : Orderly (Res.mapList f l) := by
  induction l with
  | nil => exact orderly_ok _
  | cons a l ih =>
    exact (h a (by simp)).bind fun b _ => (ih fun c hc => h c (by simp [hc])).bind fun _ _ => orderly_ok _

theorem orderly_foldList {α σ : Type} {f : σ → α → Res σ} {l : List α} (h : ∀ s, ∀ a ∈ l, Orderly (f s a)) (s : σ) :
    Orderly (Res.foldList f s l) := by
  induction l generalizing s with
  | nil => exact orderly_ok _
  | cons a l ih => exact (h s a (by simp)).bind fun s' _ => ih (fun s c hc => h s c (by simp [hc])) s'

theorem orderly_toolExit {α : Type} {r : Res α} (h : Orderly r) : ∃ o, toolExit r = .ok o := by
  rcases h with ⟨a, rfl⟩ | ⟨e, rfl⟩
  · exact ⟨some a, rfl⟩
  · exact ⟨none, rfl⟩

theorem orderly_getDouble (v : Option XVal) : Orderly (getDouble v) := by
  unfold getDouble
  split <;> first | exact orderly_ok _ | exact orderly_throw _

theorem orderly_getString (v : Option XVal) : Orderly (getString v) := by
  unfold getString
  split <;> first | exact orderly_ok _ | exact orderly_throw _

theorem orderly_needDouble (v : XVal) (k : String) : Orderly (needDouble v k) := by
  rcases needDouble_outcome v k with ⟨x, h⟩ | h <;> rw [h]
  · exact orderly_ok _
  · exact orderly_throw _

theorem orderly_loadIntrParam (v : Option XVal) : Orderly (loadIntrParam v) := by
  rcases loadIntrParam_outcome v with ⟨x, h⟩ | h <;> rw [h]
  · exact orderly_ok _
  · exact orderly_throw _

theorem orderly_loadPoseParam (v : Option XVal) : Orderly (loadPoseParam v) := by
  unfold loadPoseParam
  cases v with
  | none => exact orderly_throw _
  | some xml =>
    exact (orderly_needDouble _ _).bind fun _ _ => (orderly_needDouble _ _).bind fun _ _ => (orderly_needDouble _ _).bind fun _ _ =>
      (orderly_needDouble _ _).bind fun _ _ => (orderly_needDouble _ _).bind fun _ _ => (orderly_needDouble _ _).bind fun _ _ =>
      (orderly_needDouble _ _).bind fun _ _ => orderly_ok _

theorem orderly_loadYaml (fs : FS Img) (path : String) : Orderly (loadYaml fs path) := by
  unfold loadYaml
  split <;> first | exact orderly_ok _ | exact orderly_throw _

theorem orderly_field {α : Type} (n : Yaml) (k : String) {dec : Yaml → Res α} (h : ∀ m, Orderly (dec m)) : Orderly (n.field k dec) := by
  unfold Yaml.field
  refine Spec.Orderly.bind ?_ fun o _ => ?_
  · unfold Yaml.key
    split <;> first | exact orderly_ok _ | exact orderly_throw _
  · unfold Yaml.asNode
    split
    · exact h _
    · exact orderly_throw _

theorem orderly_asReal (n : Yaml) : Orderly n.asReal := by
  unfold Yaml.asReal
  refine Spec.Orderly.bind ?_ fun o _ => ?_
  · unfold Yaml.asRealN
    split
    · split <;> first | exact orderly_ok _ | exact orderly_throw _
    · exact orderly_throw _
  · split <;> first | exact orderly_ok _ | exact orderly_throw _

theorem orderly_asString (n : Yaml) : Orderly n.asString := by
  unfold Yaml.asString
  split <;> first | exact orderly_ok _ | exact orderly_throw _

theorem orderly_decIso (n : Yaml) : Orderly (decIso n) := by
  unfold decIso
  have hr : ∀ k, Orderly (n.field k Yaml.asReal) := fun k => orderly_field n k orderly_asReal
  exact (hr _).bind fun _ _ => (hr _).bind fun _ _ => (hr _).bind fun _ _ => (hr _).bind fun _ _ => (hr _).bind fun _ _ =>
    (hr _).bind fun _ _ => (hr _).bind fun _ _ => orderly_ok _

theorem orderly_tryLoadPoseFile (fs : FS Img) (path : String) : Orderly (tryLoadPoseFile fs path) := by
  unfold tryLoadPoseFile
  refine (Spec.Orderly.bind ?_ fun _ _ => orderly_ok _).catch _ _
  have h : Orderly ((loadYaml fs path).bind decIso) := (orderly_loadYaml fs path).bind fun n _ => orderly_decIso n
  unfold loadPoseFile
  rcases h with ⟨a, h⟩ | ⟨e, h⟩ <;> rw [h]
  · exact orderly_ok _
  · cases e <;> exact orderly_throw _

theorem orderly_parseFromFile (C : Codec Img) (fs : FS Img) (path : String) : Orderly (parseFromFile C fs path) := by
  unfold parseFromFile
  refine ((orderly_loadYaml fs path).bind fun root _ => Spec.Orderly.bind (orderly_foldList (fun d i _ => ?_) _) fun _ _ =>
    orderly_ok _).catch _ _
  have he : ∀ k, Orderly (entryString root i k) := by
    intro k
    unfold entryString
    refine Spec.Orderly.bind ?_ fun o _ => ?_
    · unfold Yaml.idx
      split <;> first | exact orderly_ok _ | exact orderly_throw _
    · unfold Yaml.asNode
      split
      · exact orderly_field _ _ orderly_asString
      · exact orderly_throw _
  unfold parseStep
  refine (he _).bind fun _ _ => (he _).bind fun _ _ => ?_
  split
  · exact orderly_ok _
  · refine (orderly_tryLoadPoseFile _ _).bind fun p _ => ?_
    cases p <;> exact orderly_ok _

theorem orderly_loadChecked (C : Codec Img) (fs : FS Img) (path : String) : Orderly (loadChecked C fs path) := by
  unfold loadChecked
  refine (orderly_parseFromFile C fs path).bind fun o _ => ?_
  cases o
  · exact orderly_throw _
  · exact orderly_ok _

theorem orderly_memberNode (P : XPrinter) (v : XVal) : Orderly (memberNode P v) := by
  have harr : ∀ l, Orderly (arrayNode P l) := by
    intro l
    rcases arrayNode_outcome P l with ⟨x, h⟩ | ⟨e, h⟩ <;> rw [h]
    · exact orderly_ok _
    · exact orderly_throw _
  have hmem : ∀ (N : Nat) (v : XVal), sizeOf v ≤ N → Orderly (memberNode P v) := by
    intro N
    induction N with
    | zero => intro v hv; exfalso; cases v <;> simp at hv
    | succ N ih =>
      intro v hv
      cases v with
      | struct l =>
        rw [memberNode, membersNode_eq]
        refine Spec.Orderly.bind (orderly_mapList fun e he => Spec.Orderly.bind (ih _ ?_) fun _ _ => orderly_ok _) fun _ _ => orderly_ok _
        have h1 := List.sizeOf_lt_of_mem he
        obtain ⟨k, u⟩ := e
        simp only [XVal.struct.sizeOf_spec, Prod.mk.sizeOf_spec] at h1 hv
        simp only
        omega
      | array l => rw [memberNode]; exact harr l
      | _ => rw [memberNode]; first | exact orderly_ok _ | exact orderly_throw _
  exact hmem _ v (Nat.le_refl _)

theorem orderly_toYAML (P : XPrinter) (v : XVal) : Orderly (toYAML P v) := by
  unfold toYAML
  split
  · exact orderly_memberNode _ _
  · exact orderly_throw _

/-- Loading the finder returns or throws, unless an exception of XmlRpc ends the process. -/
theorem loadFinder_outcome (W : ToolWorld Img) (hW : OrderlyWorld W) :
    (¬ FinderCrash W → Orderly (loadFinder W)) ∧ (FinderCrash W → loadFinder W = .abort) := by
  unfold loadFinder FinderCrash
  cases h : W.param "target_finder" with
  | none => exact ⟨fun _ => orderly_throw _, fun ⟨v, hv, _⟩ => (by cases hv)⟩
  | some v =>
    simp only [getAny, Res.ok_bind]
    cases v with
    | invalid =>
      refine ⟨fun _ => orderly_throw _, ?_⟩
      rintro ⟨v, hv, hne, -⟩
      cases hv
      exact absurd rfl hne
    | struct l =>
      have hy := orderly_toYAML W.printer (.struct l)
      cases ht : l.lookup "type" with
      | none =>
        simp only [finderType, ht]
        refine ⟨fun _ => orderly_throw _, ?_⟩
        rintro ⟨v, hv, -, h1 | ⟨l', hl, ⟨u, hu, -⟩ | ⟨t, i, hu, -⟩⟩⟩
        · cases hv; exact absurd rfl (h1 l)
        · cases hv; cases hl; rw [ht] at hu; cases hu
        · cases hv; cases hl; rw [ht] at hu; cases hu
      | some u =>
        have crash : u ≠ .invalid → (∀ s, u ≠ .string s) → ∃ v, some (XVal.struct l) = some v ∧ v ≠ .invalid ∧ ((∀ l, v ≠ .struct l) ∨
            ∃ l, v = .struct l ∧ ((∃ u, l.lookup "type" = some u ∧ u ≠ .invalid ∧ ∀ s, u ≠ .string s) ∨
            ∃ type init, l.lookup "type" = some (.string type) ∧ W.plugin type = some init ∧ toYAML W.printer v = .throw .other)) :=
          fun h1 h2 => ⟨_, rfl, by simp, .inr ⟨l, rfl, .inl ⟨u, ht, h1, h2⟩⟩⟩
        cases u with
        | invalid =>
          simp only [finderType, ht]
          refine ⟨fun _ => orderly_throw _, ?_⟩
          rintro ⟨v, hv, -, h1 | ⟨l', hl, ⟨u, hu, h2, -⟩ | ⟨t, i, hu, -⟩⟩⟩
          · cases hv; exact absurd rfl (h1 l)
          · cases hv; cases hl; rw [ht] at hu; cases hu; exact absurd rfl h2
          · cases hv; cases hl; rw [ht] at hu; cases hu
        | string s =>
          simp only [finderType, ht, Res.ok_bind]
          cases hpl : W.plugin s with
          | none =>
            refine ⟨fun _ => orderly_throw _, ?_⟩
            rintro ⟨v, hv, -, h1 | ⟨l', hl, ⟨u, hu, h2, h3⟩ | ⟨t, i, hu, h2, -⟩⟩⟩
            · cases hv; exact absurd rfl (h1 l)
            · cases hv; cases hl; rw [ht] at hu; cases hu; exact absurd rfl (h3 s)
            · cases hv; cases hl; rw [ht] at hu; cases hu; rw [hpl] at h2; cases h2
          | some init =>
            simp only
            refine ⟨fun hn => ?_, ?_⟩
            · unfold toYAMLorDie
              rcases hy with ⟨y, hy⟩ | ⟨e, hy⟩
              · rw [hy]
                exact hW.init s init y hpl
              · rw [hy]
                have he : e ≠ .other := by
                  rintro rfl
                  exact hn ⟨_, rfl, by simp, .inr ⟨l, rfl, .inr ⟨s, init, ht, hpl, hy⟩⟩⟩
                cases e <;> first | exact orderly_throw _ | exact absurd rfl he
            · rintro ⟨v, hv, -, h1 | ⟨l', hl, ⟨u, hu, h2, h3⟩ | ⟨t, i, hu, h2, h3⟩⟩⟩
              · cases hv; exact absurd rfl (h1 l)
              · cases hv; cases hl; rw [ht] at hu; cases hu; exact absurd rfl (h3 s)
              · cases hv; cases hl
                unfold toYAMLorDie
                rw [h3]
                rfl
        | _ =>
          simp only [finderType, ht]
          exact ⟨fun hn => absurd (crash (by simp) (by simp)) hn, fun _ => rfl⟩
    | _ =>
      simp only [finderType]
      exact ⟨fun hn => absurd ⟨_, rfl, by simp, .inl (by simp)⟩ hn, fun _ => rfl⟩

theorem orderly_homographyCheck (solve : LuSolve) (draws : UniformInt) (hd : draws.WF) (threshold : ℝ) (cs : List Corr2)
    (hlen : cs.length < 2 ^ 64) : Orderly (homographyCheck solve draws threshold cs) := by
  obtain ⟨h1, h2⟩ := C108_gate solve draws hd threshold cs hlen
  by_cases h : cs.length < 12
  · rw [h1 h]; exact orderly_throw _
  · obtain ⟨-, errs, -, -, -, -, h3, h4⟩ := h2 (by omega)
    by_cases h5 : errs.sum / cs.length ≤ threshold
    · rw [h3 h5]; exact orderly_ok _
    · rw [h4 (not_le.1 h5)]; exact orderly_throw _

theorem orderly_collect {E : ToolEnv Img} {d : DataSet Img} (mkObs : Iso → List Corr2 → Obs Corr2)
    (hlen : d.images.length ≤ d.poses.length) (hfind : ∀ m, Orderly (E.find m)) (hcreate : ∀ fs, Orderly (E.create fs))
    (hcheck : ∀ i fs cs, E.create fs = .ok cs → Orderly (E.check i cs)) (hdraw : ∀ m fs, Orderly (E.draw m fs)) :
    Orderly (Res.foldList (collectStep E mkObs d) {} (List.range d.images.length)) := by
  refine orderly_foldList (fun s i hi => ?_) _
  have hi : i < d.images.length := by simpa using hi
  unfold collectStep
  rw [collectIdx_lt hi, Res.ok_bind]
  have hacc : Orderly (acceptImage E mkObs d i d.images[i]) := by
    unfold acceptImage
    refine (hfind _).bind fun fs _ => ?_
    split_ifs
    · exact orderly_throw _
    · rw [collectIdx_lt (by omega : i < d.poses.length), Res.ok_bind]
      exact (hcreate fs).bind fun cs hcs => (hcheck i fs cs hcs).bind fun _ _ => orderly_ok _
  rcases hacc with ⟨⟨fs, o⟩, ha⟩ | ⟨e, ha⟩ <;> rw [ha]
  · simp only
    rcases hdraw d.images[i] fs with ⟨u, hd⟩ | ⟨e, hd⟩ <;> rw [hd]
    · exact orderly_ok _
    · simp only
      split_ifs
      · exact orderly_ok _
      · exact orderly_throw _
  · simp only
    split_ifs
    · exact orderly_ok _
    · exact orderly_throw _

theorem orderly_covariance {cs : CovSolver} {blocks : List Nat} (names : SMap Nat (List String)) (masks : SMap Nat (List Int))
    (hin : ∀ b ∈ blocks, (cs.blockSize b).isSome) (hc : ∃ good, cs.compute blocks = .ok good) :
    Orderly (computeCovariance cs blocks names masks) := by
  obtain ⟨good, hc⟩ := hc
  have ht := C26_throws_iff cs blocks names masks hin good hc
  by_cases h : (computeCovariance cs blocks names masks).Throws
  · exact .inr h
  · left
    rw [ht] at h
    push Not at h
    obtain ⟨h1, h2, h3, h4⟩ := h
    refine computeCovariance_returns h1 h2 ?_ (Option.ne_none_iff_isSome.1 h4)
    rw [hc]
    cases good <;> simp_all

theorem orderly_handEye2 {s : Ceres Pose6} (hs : OrderlyCeres s) (p : HandEyeProblem Corr2) : Orderly (handEye2 s p) := by
  unfold handEye2
  refine Spec.Orderly.bind ?_ fun pb _ => ?_
  · rcases heBuild2_cases p with ⟨-, h⟩ | ⟨-, h⟩ <;> rw [h]
    · exact orderly_ok _
    · exact orderly_throw _
  · unfold heFinish
    have hmem : ∀ b, b ∈ s.order pb ↔ b ∈ usedBlocks pb := fun b => (hs.order_perm pb).mem_iff
    refine Spec.Orderly.bind (orderly_covariance _ _ (fun b hb => ?_) (hs.compute _ _ _ ?_ fun a ha => (hmem a).1 ha)) fun _ _ => orderly_ok _
    · simp [Ceres.covSolver, (hmem b).1 hb]
    · exact (hs.order_perm pb).nodup_iff.2 (List.nodup_dedup _)

theorem orderly_pnp2 {s : Ceres V3} (hs : OrderlyCeres s) (p : PnPProblem Corr2) (hne : p.correspondences ≠ []) :
    Orderly (pnp2 s p) := by
  unfold pnp2 pnpFinish
  have hmem : ∀ b ∈ [pnpTrans, pnpRot], b ∈ usedBlocks (pnpBuild2 p) := by
    intro b hb
    obtain ⟨c, hc⟩ := List.exists_mem_of_ne_nil _ hne
    rw [mem_usedBlocks]
    refine ⟨_, List.mem_map_of_mem hc, ?_⟩
    simp only [List.mem_cons, List.not_mem_nil, or_false] at hb ⊢
    exact hb.symm
  refine Spec.Orderly.bind (orderly_covariance _ _ (fun b hb => ?_) (hs.compute _ _ _ (by decide) hmem)) fun _ _ => orderly_ok _
  simp [Ceres.covSolver, hmem b hb]

theorem orderly_analyze3D {obs : List (Obs Corr2)} (hne : features obs ≠ []) (intr : Intr) (cam tgt : Iso) :
    Orderly (analyze3D obs intr cam tgt) := by
  unfold analyze3D
  refine Spec.Orderly.bind ?_ fun e he => ?_
  · unfold projErr3Set
    refine orderly_foldList (fun e o _ => Spec.Orderly.bind ?_ fun _ _ => orderly_ok _) _
    unfold projErr3 project3D
    refine Spec.Orderly.bind (Spec.Orderly.bind (orderly_mapList fun r _ => ?_) fun _ _ => orderly_ok _) fun _ _ => orderly_ok _
    unfold linePlane
    simp only
    split_ifs
    · exact orderly_throw _
    · exact orderly_ok _
  · have := C56_count _ _ _ _ _ he
    cases e with
    | nil => exact absurd (List.length_eq_zero_iff.1 (by simpa using this.symm)) hne
    | cons a l => exact orderly_ok _

theorem orderly_analyzeResults {s : Ceres V3} (hs : OrderlyCeres s) (intr : Intr) {obs : List (Obs Corr2)} {images : List Img}
    (hlen : images.length = obs.length) (hne : ∀ o ∈ obs, o.corrs ≠ []) (cam tgt : Iso) :
    Orderly (analyzeResults s intr obs images cam tgt) := by
  unfold analyzeResults
  refine Spec.Orderly.bind (orderly_mapList fun i hi => ?_) fun _ _ => orderly_ok _
  have hi : i < images.length := by simpa using hi
  unfold analyzeOne
  rw [atList_lt (by omega : i < obs.length), Res.ok_bind]
  simp only
  rw [collectIdx_lt hi, Res.ok_bind]
  exact (orderly_pnp2 hs _ (hne _ (List.getElem_mem _))).bind fun _ _ => orderly_ok _

/-- Accepted images have at least twelve correspondences. -/
theorem accepted_many {W : ToolWorld Img} (hW : OrderlyWorld W) {F : Finder Img} (hF : OrderlyFinder F) {threshold : ℝ} {i : Nat}
    {m : Img} {cs : List Corr2} (h : ImageAccepted (W.env F threshold) i m cs) : 12 ≤ cs.length := by
  obtain ⟨fs, -, -, hc, hk⟩ := h
  by_contra hlt
  have := (C108_gate W.lu (W.draws i) (hW.draws i) threshold cs (hF.size fs cs hc)).1 (by omega)
  change homographyCheck W.lu (W.draws i) threshold cs = .ok () at hk
  rw [this] at hk
  cases hk

theorem handEye2_no_features {s : Ceres Pose6} (hs : OrderlyCeres s) (p : HandEyeProblem Corr2) (h : features p.observations = []) :
    handEye2 s p = .throw .covariance := by
  unfold handEye2
  rcases heBuild2_cases p with ⟨-, h'⟩ | ⟨⟨f, hf, -⟩, -⟩
  · rw [h', h, List.map_nil, Res.ok_bind]
    unfold heFinish computeCovariance
    have : s.order [] = [] := by
      have := hs.order_perm []
      simpa [usedBlocks] using this
    rw [this]
    rfl
  · rw [h] at hf; cases hf

/-- From the accepted images on, both tools return or throw. -/
theorem orderly_report {W : ToolWorld Img} (hW : OrderlyWorld W) {F : Finder Img} (hF : OrderlyFinder F) {threshold : ℝ}
    {s : Ceres Pose6} (hs : OrderlyCeres s) {s3 : Ceres V3} (hs3 : OrderlyCeres s3) (intr : Intr) (X Y : Iso) {n : Nat}
    {P : Nat → Obs Corr2 × Img → Prop} (hP : ∀ i e, P i e → ImageAccepted (W.env F threshold) i e.2 e.1.corrs) {js : List Nat}
    {items : List (Obs Corr2 × Img)} (hsel : SelectedAt n P js items) :
    Orderly (handEyeReport s s3 (toolProblem intr X Y (items.map Prod.fst)) (items.map Prod.snd)) := by
  have hmany : ∀ o ∈ items.map Prod.fst, o.corrs ≠ [] := by
    intro o ho h0
    obtain ⟨e, he, rfl⟩ := List.mem_map.1 ho
    obtain ⟨j, -, hj⟩ := Forall₂.mem_right hsel.2.2 he
    have := accepted_many hW hF (hP j e hj)
    rw [h0] at this
    simp at this
  unfold handEyeReport
  by_cases hit : items = []
  · subst hit
    rw [handEye2_no_features hs _ rfl]
    exact orderly_throw _
  · have hfe : features (items.map Prod.fst) ≠ [] := by
      intro h0
      obtain ⟨e, he⟩ := List.exists_mem_of_ne_nil _ hit
      have ho := List.mem_map_of_mem (f := Prod.fst) he
      obtain ⟨c, hc⟩ := List.exists_mem_of_ne_nil _ (hmany _ ho)
      have hf : (e.1, c) ∈ features (items.map Prod.fst) := feature_mem ho hc
      rw [h0] at hf
      cases hf
    refine (orderly_handEye2 hs _).bind fun r _ => (orderly_analyze3D hfe _ _ _).bind fun _ _ =>
      (orderly_analyzeResults hs3 _ (by simp [toolProblem]) hmany _ _).bind fun _ _ => orderly_ok _

/- C184, full statement: for all parameters and files, with plugins that only return or throw and a solver whose covariance
computation reports success or failure, the wrist tool and the static camera tool end with exit code 0 or -1; they end with -1
if no image is accepted. A parameter `target_finder` of the wrong shape ends the process instead: `C184_wrist_negation`,
`C184_static_negation`. -/
/-- The wrist tool ends with an exit code if reading `target_finder` raises no exception of XmlRpc. Missing: parameters
`target_finder` that do. -/
theorem C184_wrist_partial (W : ToolWorld Img) (hW : OrderlyWorld W) (s : Ceres Pose6) (hs : OrderlyCeres s) (s3 : Ceres V3)
    (hs3 : OrderlyCeres s3) (hf : ¬ FinderCrash W) : ∃ o, wristMain W s s3 = .ok o := by
  unfold wristMain
  refine orderly_toolExit ((orderly_getDouble _).bind fun t _ => (orderly_loadIntrParam _).bind fun i _ =>
    (orderly_getString _).bind fun path _ => (orderly_loadChecked _ _ _).bind fun d hd => ((loadFinder_outcome W hW).1 hf).bind fun F hF =>
    (orderly_loadPoseParam _).bind fun Y _ => (orderly_loadPoseParam _).bind fun X _ => ?_)
  have hd' := ((C106_partial _ _ _).2 d).1 hd
  obtain ⟨-, h1, h2⟩ := loaded_records hd'
  obtain ⟨l, type, init, y, -, -, hpl, -, hinit⟩ := (loadFinder_ok_iff W F).1 hF
  have hof := hW.finder type init y F hpl hinit
  refine Spec.Orderly.bind (orderly_collect _ (by omega) hof.find hof.create (fun j fs cs hcs =>
    orderly_homographyCheck _ _ (hW.draws j) _ _ (hof.size fs cs hcs)) hof.draw) fun found hfound => ?_
  obtain ⟨js, items, hsel, ho, hi⟩ := C84_wrist _ _ _ hfound
  rw [ho, hi]
  exact orderly_report hW hof hs hs3 i X Y (fun j e hj => hj.2.1) hsel

/-- The same for the static camera tool. Missing: parameters `target_finder` that raise exceptions of XmlRpc. -/
theorem C184_static_partial (W : ToolWorld Img) (hW : OrderlyWorld W) (s : Ceres Pose6) (hs : OrderlyCeres s) (s3 : Ceres V3)
    (hs3 : OrderlyCeres s3) (hf : ¬ FinderCrash W) : ∃ o, staticMain W s s3 = .ok o := by
  unfold staticMain
  refine orderly_toolExit ((orderly_getDouble _).bind fun t _ =>
    (orderly_getString _).bind fun path _ => (orderly_loadChecked _ _ _).bind fun d hd => ((loadFinder_outcome W hW).1 hf).bind fun F hF =>
    (orderly_loadIntrParam _).bind fun i _ => (orderly_loadPoseParam _).bind fun X _ => (orderly_loadPoseParam _).bind fun Y _ => ?_)
  have hd' := ((C106_partial _ _ _).2 d).1 hd
  obtain ⟨-, h1, h2⟩ := loaded_records hd'
  obtain ⟨l, type, init, y, -, -, hpl, -, hinit⟩ := (loadFinder_ok_iff W F).1 hF
  have hof := hW.finder type init y F hpl hinit
  refine Spec.Orderly.bind (orderly_collect _ (by omega) hof.find hof.create (fun j fs cs hcs =>
    orderly_homographyCheck _ _ (hW.draws j) _ _ (hof.size fs cs hcs)) hof.draw) fun found hfound => ?_
  obtain ⟨js, items, hsel, ho, hi⟩ := C84_static _ _ _ hfound
  rw [ho, hi]
  exact orderly_report hW hof hs hs3 i X Y (fun j e hj => hj.2.1) hsel

/-- If threshold, intrinsic parameters and data set can be loaded, a parameter `target_finder` of the wrong shape ends the
process of the wrist tool. -/
theorem C184_wrist_negation (W : ToolWorld Img) (hW : OrderlyWorld W) (hp : ProperParams W.param) (s : Ceres Pose6) (s3 : Ceres V3)
    (threshold : ℝ) (ht : NumberParam (W.param "homography_threshold") threshold) (intr : Intr)
    (hi : IntrinsicsParam (W.param "intrinsics") intr) (d : DataSet Img) (hd : DataParam W (W.param "data_path") d)
    (hf : FinderCrash W) : wristMain W s s3 = .abort := by
  obtain ⟨path, h1, h2⟩ := hd
  unfold wristMain
  rw [(getDouble_ok_iff _ _).2 ht, Res.ok_bind, (intrParam_ok_iff hp _ _).2 hi, Res.ok_bind, (getString_ok_iff _ _).2 h1, Res.ok_bind,
    ((C106_partial _ _ _).2 d).2 h2, Res.ok_bind, (loadFinder_outcome W hW).2 hf]
  rfl

/-- The same for the static camera tool, which loads the finder before the intrinsic parameters. -/
theorem C184_static_negation (W : ToolWorld Img) (hW : OrderlyWorld W) (s : Ceres Pose6) (s3 : Ceres V3)
    (threshold : ℝ) (ht : NumberParam (W.param "homography_threshold") threshold)
    (d : DataSet Img) (hd : DataParam W (W.param "data_path") d) (hf : FinderCrash W) : staticMain W s s3 = .abort := by
  obtain ⟨path, h1, h2⟩ := hd
  unfold staticMain
  rw [(getDouble_ok_iff _ _).2 ht, Res.ok_bind, (getString_ok_iff _ _).2 h1, Res.ok_bind,
    ((C106_partial _ _ _).2 d).2 h2, Res.ok_bind, (loadFinder_outcome W hW).2 hf]
  rfl

/-- An empty list among the members of `target_finder` is such a parameter if it is converted first. -/
theorem C184_empty_list (W : ToolWorld Img) (k : String) (l : List (String × XVal)) (type : String) (init : Yaml → Res (Finder Img))
    (h : W.param "target_finder" = some (.struct ((k, .array []) :: l))) (ht : k ≠ "type") (hl : l.lookup "type" = some (.string type))
    (hp : W.plugin type = some init) : FinderCrash W := by
  refine ⟨_, h, by simp, .inr ⟨_, rfl, .inr ⟨type, init, ?_, hp, ?_⟩⟩⟩
  · have hk : ("type" == k) = false := by simpa using fun h : "type" = k => ht h.symm
    rw [List.lookup_cons, hk]
    exact hl
  · simp [toYAML, memberNode, membersNode, arrayNode, getArrayType]

/-- If the wrist tool ends with success, at least one image was accepted. -/
theorem C184_wrist_none (W : ToolWorld Img) (hp : ProperParams W.param) (s : Ceres Pose6) (hs : OrderlyCeres s) (s3 : Ceres V3)
    (rep : HandEyeReport) (h : wristMain W s s3 = .ok (some rep)) : ∃ threshold d F i m cs,
      NumberParam (W.param "homography_threshold") threshold ∧ DataParam W (W.param "data_path") d ∧ FinderParam W F ∧
      d.images[i]? = some m ∧ ImageAccepted (W.env F threshold) i m cs ∧ cs ≠ [] := by
  obtain ⟨t, i, d, F, X, Y, js, items, p, r, hset, hsel, ho, -, -, -, hr, -⟩ := C183_wrist W hp s s3 rep h
  have hne : features p.observations ≠ [] := by
    intro h0
    rw [handEye2_no_features hs p h0] at hr
    cases hr
  obtain ⟨f, hf⟩ := List.exists_mem_of_ne_nil _ hne
  have hf' := mem_features.1 hf
  rw [ho] at hf'
  obtain ⟨e, he, hfe⟩ := List.mem_map.1 hf'.1
  obtain ⟨j, -, hj⟩ := Forall₂.mem_right hsel.2.2 he
  refine ⟨t, d, F, j, e.2, e.1.corrs, hset.threshold, hset.data, hset.finder, hj.1, hj.2.1, ?_⟩
  rw [hfe]
  exact List.ne_nil_of_mem hf'.2

/-- The same for the static camera tool. -/
theorem C184_static_none (W : ToolWorld Img) (hp : ProperParams W.param) (s : Ceres Pose6) (hs : OrderlyCeres s) (s3 : Ceres V3)
    (rep : HandEyeReport) (h : staticMain W s s3 = .ok (some rep)) : ∃ threshold d F i m cs,
      NumberParam (W.param "homography_threshold") threshold ∧ DataParam W (W.param "data_path") d ∧ FinderParam W F ∧
      d.images[i]? = some m ∧ ImageAccepted (W.env F threshold) i m cs ∧ cs ≠ [] := by
  obtain ⟨t, i, d, F, X, Y, js, items, p, r, hset, hsel, ho, -, -, -, hr, -⟩ := C183_static W hp s s3 rep h
  have hne : features p.observations ≠ [] := by
    intro h0
    rw [handEye2_no_features hs p h0] at hr
    cases hr
  obtain ⟨f, hf⟩ := List.exists_mem_of_ne_nil _ hne
  have hf' := mem_features.1 hf
  rw [ho] at hf'
  obtain ⟨e, he, hfe⟩ := List.mem_map.1 hf'.1
  obtain ⟨j, -, hj⟩ := Forall₂.mem_right hsel.2.2 he
  refine ⟨t, d, F, j, e.2, e.1.corrs, hset.threshold, hset.data, hset.finder, hj.1, hj.2.1, ?_⟩
  rw [hfe]
  exact List.ne_nil_of_mem hf'.2

/-! ## C185 From captures to the printed calibration -/

theorem printed_zero {p : HandEyeProblem Corr2} {s : Ceres Pose6} {r : HandEyeResult} (h : handEye2 s p = .ok r) :
    r.finalCost.map Real.sqrt = some 0 ↔ r.finalCost = some 0 := by
  unfold handEye2 at h
  rw [Res.bind_ok_iff] at h
  obtain ⟨pb, -, h⟩ := h
  unfold heFinish at h
  simp only [Res.bind_ok_iff] at h
  obtain ⟨cov, -, h⟩ := h
  cases h
  simp only
  unfold costPerObs
  split_ifs
  · simp
  · have hn : 0 ≤ cost pb (s.solve pb (heInit p)) / ((residuals pb (s.solve pb (heInit p))).length : ℝ) :=
      div_nonneg (cost_nonneg _ _) (Nat.cast_nonneg _)
    simp only [Option.map_some, Option.some.injEq, Real.sqrt_eq_zero hn]

theorem poseParam_unique {param : String → Option XVal} (hp : ProperParams param) {k : String} {A B : Iso}
    (h1 : PoseParam (param k) A) (h2 : PoseParam (param k) B) : A = B :=
  Res.ok.inj (((poseParam_ok_iff hp k A).2 h1).symm.trans ((poseParam_ok_iff hp k B).2 h2))

theorem Spec.Representable.plain {T : Iso} (h : Representable T) : PlainPose (poseEigenToCal T) :=
  (poseCalToEigen_rigid_iff _).1 (by rw [h.roundtrip]; exact h.rigid)

theorem Spec.PlainPose.rigid {p : Pose6} (h : PlainPose p) : (poseCalToEigen p).IsRigid := (poseCalToEigen_rigid_iff _).2 h

theorem handEye2_rigid {p : HandEyeProblem Corr2} {s : Ceres Pose6} {r : HandEyeResult} (h : handEye2 s p = .ok r)
    (hs : KeepsPlain s) (hc : Representable p.cameraGuess) (ht : Representable p.targetGuess) :
    RigidMotion r.cameraMountToCamera ∧ RigidMotion r.targetMountToTarget := by
  unfold handEye2 at h
  rw [Res.bind_ok_iff] at h
  obtain ⟨pb, -, h⟩ := h
  obtain ⟨-, h1, h2⟩ := heFinish_ok h
  have hst : ∀ a, PlainPose (heInit p a) := by
    intro a
    unfold heInit
    split_ifs
    exacts [ht.plain, hc.inv.plain]
  rw [h1, h2]
  exact ⟨(rigid_iff _).1 (hs _ _ hst _).rigid.inv, (rigid_iff _).1 (hs _ _ hst _).rigid⟩

/-- An operator collects images and wrist poses, saves them and starts the wrist tool with these files. If the detections are
true and the usable captures include two turns of the wrist about different axes, the tool prints the error zero exactly if the
transforms it prints are the true poses of camera and target. `A` and `B` are the printed transforms. -/
theorem C185_wrist (P : YamlPrinter) (hP : P.WF) (D : Disk) (hD : ∀ p, ¬ D.fail p) (fs : FS Img)
    (path : String) (hdir : fs.dirs path ∨ fs.dirs (parentDir path)) (es : List (CollectEvent Img)) (col : Collector Img)
    (saved : List (DataSet Img)) (hcol : ({} : Collector Img).run (es ++ [.save]) = .ok (col, saved))
    (stored : DataSet Img) (hstored : saved.getLast? = some stored) (W : ToolWorld Img) (hp : ProperParams W.param)
    (hfs : W.fs = (saveToDirectory P D fs path stored).1) (hpath : W.param "data_path" = some (.string (indexFile path)))
    (himg : ∀ e ∈ captures es, W.codec.empty e.2 = false ∧ W.codec.reread e.2 = e.2)
    (hq : ∀ e ∈ captures es, e.1.q.IsUnit ∧ Representable (poseOf e.1))
    (threshold : ℝ) (ht : NumberParam (W.param "homography_threshold") threshold) (F : Finder Img) (hF : FinderParam W F)
    (intr : Intr) (hi : IntrinsicsParam (W.param "intrinsics") intr) (hfx : intr.fx ≠ 0) (hfy : intr.fy ≠ 0)
    (hX0 : ∀ X, PoseParam (W.param "wrist_to_camera_guess") X → Representable X) (hY0 : ∀ Y, PoseParam (W.param "base_to_target_guess") Y → Representable Y)
    (s : Ceres Pose6) (hs : KeepsPlain s)
    (s3 : Ceres V3) (rep : HandEyeReport) (h : wristMain W s s3 = .ok (some rep))
    (X Y : Iso) (hX : RigidMotion X) (hY : RigidMotion Y)
    (htrue : ∀ i e cs, (captures es)[i]? = some e → ImageAccepted (W.env F threshold) i e.2 cs →
      TrueDetection intr (seenFromWrist X Y (poseOf e.1)) cs)
    (a b c d : Nat) (Ta Tb Tc Td : Iso) (ha : UsableCapture (W.env F threshold) (captures es) (seenFromWrist X Y) a Ta)
    (hb : UsableCapture (W.env F threshold) (captures es) (seenFromWrist X Y) b Tb)
    (hc : UsableCapture (W.env F threshold) (captures es) (seenFromWrist X Y) c Tc)
    (hd : UsableCapture (W.env F threshold) (captures es) (seenFromWrist X Y) d Td)
    (hax : AxesDiffer (Ta.inv * Tb).R (Tc.inv * Td).R)
    (A B : Iso) (hA : RigidMotion A) (hB : RigidMotion B) (hcam : rep.camera = printTransform A) (htgt : rep.target = printTransform B)
    (hz : ∀ i e cs, (captures es)[i]? = some e → ImageAccepted (W.env F threshold) i e.2 cs →
      ∀ k ∈ cs, 0 < ((seenFromWrist A B (poseOf e.1)).apply k.inTarget).z) :
    rep.opt.final = some 0 ↔ A = X ∧ B = Y := by
  obtain ⟨t', i', data, F', X', Y', found, ⟨k1, k2, ⟨path', k3, k4⟩, k5, k6, k7⟩, hfound, hrep⟩ := (wristMain_ok_iff W hp s s3 rep).1 h
  rw [← getDouble_ok_iff] at ht k1
  rw [← loadFinder_ok_iff] at hF k5
  rw [← intrParam_ok_iff hp] at hi k2
  rw [ht] at k1; cases k1
  rw [hF] at k5; cases k5
  rw [hi] at k2; cases k2
  rw [hpath] at k3; cases k3
  obtain ⟨r, h1, -, -, h4⟩ := (handEyeReport_ok_iff _ _ _ _ _).1 hrep
  have hr := reports_of h4
  obtain ⟨r1, r2⟩ := handEye2_rigid h1 hs (hX0 _ k6) (hY0 _ k7)
  have e1 := C145_distinct _ _ hA r1 (hcam.symm.trans hr.camera)
  have e2 := C145_distinct _ _ hB r2 (htgt.symm.trans hr.target)
  rw [hr.final, printed_zero h1, e1, e2]
  rw [hfs] at k4
  refine C166_wrist P hP W.codec D hD fs path hdir es col saved hcol himg hq stored hstored data k4 _ found hfound s _ rfl hfx hfy r h1
    X Y hX hY htrue a b c d Ta Tb Tc Td ha hb hc hd hax r1 r2 ?_
  intro f hf
  obtain ⟨dd, hdd, hpar⟩ := C79_saved_loads P hP W.codec D hD fs path hdir es col saved hcol himg (fun e he => (hq e he).1)
  rw [hstored] at hdd
  cases hdd
  rw [hpar] at k4
  cases k4
  obtain ⟨ho, hk⟩ := mem_features.1 hf
  obtain ⟨n, q, m, g1, g2, g3⟩ := (wrist_observations hfound f.1).1 ho
  have := hz n (q, m) _ g1 g2 f.2 hk
  obtain ⟨g4, g5⟩ := Prod.mk.inj g3
  rw [inCamera2, Spec.targetInCamera, ← e1, ← e2, ← g4, ← g5, Iso.one_mul]
  exact this

/-- The same for the static camera tool and a target on the wrist. -/
theorem C185_static (P : YamlPrinter) (hP : P.WF) (D : Disk) (hD : ∀ p, ¬ D.fail p) (fs : FS Img)
    (path : String) (hdir : fs.dirs path ∨ fs.dirs (parentDir path)) (es : List (CollectEvent Img)) (col : Collector Img)
    (saved : List (DataSet Img)) (hcol : ({} : Collector Img).run (es ++ [.save]) = .ok (col, saved))
    (stored : DataSet Img) (hstored : saved.getLast? = some stored) (W : ToolWorld Img) (hp : ProperParams W.param)
    (hfs : W.fs = (saveToDirectory P D fs path stored).1) (hpath : W.param "data_path" = some (.string (indexFile path)))
    (himg : ∀ e ∈ captures es, W.codec.empty e.2 = false ∧ W.codec.reread e.2 = e.2)
    (hq : ∀ e ∈ captures es, e.1.q.IsUnit ∧ Representable (poseOf e.1))
    (threshold : ℝ) (ht : NumberParam (W.param "homography_threshold") threshold) (F : Finder Img) (hF : FinderParam W F)
    (intr : Intr) (hi : IntrinsicsParam (W.param "intrinsics") intr) (hfx : intr.fx ≠ 0) (hfy : intr.fy ≠ 0)
    (hX0 : ∀ X, PoseParam (W.param "base_to_camera_guess") X → Representable X) (hY0 : ∀ Y, PoseParam (W.param "wrist_to_target_guess") Y → Representable Y)
    (s : Ceres Pose6) (hs : KeepsPlain s)
    (s3 : Ceres V3) (rep : HandEyeReport) (h : staticMain W s s3 = .ok (some rep))
    (X Y : Iso) (hX : RigidMotion X) (hY : RigidMotion Y)
    (htrue : ∀ i e cs, (captures es)[i]? = some e → ImageAccepted (W.env F threshold) i e.2 cs →
      TrueDetection intr (seenOnWrist X Y (poseOf e.1)) cs)
    (a b c d : Nat) (Ta Tb Tc Td : Iso) (ha : UsableCapture (W.env F threshold) (captures es) (seenOnWrist X Y) a Ta)
    (hb : UsableCapture (W.env F threshold) (captures es) (seenOnWrist X Y) b Tb)
    (hc : UsableCapture (W.env F threshold) (captures es) (seenOnWrist X Y) c Tc)
    (hd : UsableCapture (W.env F threshold) (captures es) (seenOnWrist X Y) d Td)
    (hax : AxesDiffer (Ta * Tb.inv).R (Tc * Td.inv).R)
    (A B : Iso) (hA : RigidMotion A) (hB : RigidMotion B) (hcam : rep.camera = printTransform A) (htgt : rep.target = printTransform B)
    (hz : ∀ i e cs, (captures es)[i]? = some e → ImageAccepted (W.env F threshold) i e.2 cs →
      ∀ k ∈ cs, 0 < ((seenOnWrist A B (poseOf e.1)).apply k.inTarget).z) :
    rep.opt.final = some 0 ↔ A = X ∧ B = Y := by
  obtain ⟨t', i', data, F', X', Y', found, ⟨k1, k2, ⟨path', k3, k4⟩, k5, k6, k7⟩, hfound, hrep⟩ := (staticMain_ok_iff W hp s s3 rep).1 h
  rw [← getDouble_ok_iff] at ht k1
  rw [← loadFinder_ok_iff] at hF k5
  rw [← intrParam_ok_iff hp] at hi k2
  rw [ht] at k1; cases k1
  rw [hF] at k5; cases k5
  rw [hi] at k2; cases k2
  rw [hpath] at k3; cases k3
  obtain ⟨r, h1, -, -, h4⟩ := (handEyeReport_ok_iff _ _ _ _ _).1 hrep
  have hr := reports_of h4
  obtain ⟨r1, r2⟩ := handEye2_rigid h1 hs (hX0 _ k6) (hY0 _ k7)
  have e1 := C145_distinct _ _ hA r1 (hcam.symm.trans hr.camera)
  have e2 := C145_distinct _ _ hB r2 (htgt.symm.trans hr.target)
  rw [hr.final, printed_zero h1, e1, e2]
  rw [hfs] at k4
  refine C166_static P hP W.codec D hD fs path hdir es col saved hcol himg hq stored hstored data k4 _ found hfound s _ rfl hfx hfy r h1
    X Y hX hY htrue a b c d Ta Tb Tc Td ha hb hc hd hax r1 r2 ?_
  intro f hf
  obtain ⟨dd, hdd, hpar⟩ := C79_saved_loads P hP W.codec D hD fs path hdir es col saved hcol himg (fun e he => (hq e he).1)
  rw [hstored] at hdd
  cases hdd
  rw [hpar] at k4
  cases k4
  obtain ⟨ho, hk⟩ := mem_features.1 hf
  obtain ⟨n, q, m, g1, g2, g3⟩ := (static_observations hfound f.1).1 ho
  have := hz n (q, m) _ g1 g2 f.2 hk
  obtain ⟨g4, g5⟩ := Prod.mk.inj g3
  rw [inCamera2, Spec.targetInCamera, ← e1, ← e2, ← g4, ← g5, Iso.inv_one, Iso.one_mul]
  exact this

/-! ### A world in which both tools succeed -/

theorem orderly_idCeres (β : Type) : OrderlyCeres (idCeres β) := ⟨fun _ => List.Perm.refl _, fun _ _ _ _ _ => ⟨true, rfl⟩⟩

theorem keepsPlain_idCeres : KeepsPlain (idCeres Pose6) := fun _ _ h => h

/-- The square seen three times in one image. -/
noncomputable def tripleView (A B : Iso) : Obs Corr2 :=
  ⟨(squareView A B).corrs ++ ((squareView A B).corrs ++ (squareView A B).corrs), A, B⟩

theorem mem_tripleView {A B : Iso} {c : Corr2} : c ∈ (tripleView A B).corrs ↔ c ∈ (squareView A B).corrs := by
  simp [tripleView]

/-- The gate of the tools opens if the threshold is large enough. -/
theorem gate_opens (lu : LuSolve) (draws : UniformInt) (hd : draws.WF) (cs : List Corr2) (h1 : 12 ≤ cs.length)
    (h2 : cs.length < 2 ^ 64) : ∃ t₀, ∀ t, t₀ ≤ t → homographyCheck lu draws t cs = .ok () := by
  obtain ⟨s, hs⟩ := (C51_construct cs.length (cs.length / 3)).1 ⟨by omega, by omega⟩
  obtain ⟨l, hl, hl1, -, hl2⟩ := C51_sample draws hd _ _ h2 s hs
  obtain ⟨errs, he, hlen⟩ := C53_count lu cs l (by omega) hl2
  have hne : errs ≠ [] := by rintro rfl; simp at hlen; omega
  obtain ⟨m, hm⟩ : ∃ m, accMean errs = some m := ⟨_, if_neg (by simpa using hne)⟩
  refine ⟨m, fun t ht => ?_⟩
  unfold homographyCheck
  rw [hs, Res.ok_bind, hl, he, Res.ok_bind, hm, if_neg]
  exact not_lt.2 ht

/-- Three perfect images of a square from three directions, with correct guesses: the tool finishes. -/
theorem triple_report (A B : Nat → Iso) (hA : ∀ n, Representable (A n)) (hB : ∀ n, Representable (B n))
    (h0 : (A 0).inv * B 0 = 1) (h1 : (A 1).inv * B 1 = quarterX) (h2 : (A 2).inv * B 2 = quarterZ) :
    ∃ rep, handEyeReport (idCeres Pose6) (idCeres V3) (toolProblem ⟨1, 1, 0, 0⟩ 1 (shiftBy 10 10 10)
      [tripleView (A 0) (B 0), tripleView (A 1) (B 1), tripleView (A 2) (B 2)]) [0, 1, 2] = .ok rep ∧
      rep.camera = printTransform 1 ∧ rep.target = printTransform (shiftBy 10 10 10) ∧
      (∀ n, n < 3 → ∀ c ∈ (tripleView (A n) (B n)).corrs, 0 < (((A n).inv * (B n * shiftBy 10 10 10)).apply c.inTarget).z ∧
        c.inImage = pinhole ⟨1, 1, 0, 0⟩ (((A n).inv * (B n * shiftBy 10 10 10)).apply c.inTarget)) ∧
      (∀ n, n < 3 → ((A n).inv * (B n * shiftBy 10 10 10)).inv.t.z ≠ 0) := by
  obtain ⟨C, hC⟩ : ∃ C : Nat → Iso, C = fun n => (A n).inv * B n := ⟨_, rfl⟩
  have C0 : C 0 = 1 := by rw [hC]; exact h0
  have C1 : C 1 = quarterX := by rw [hC]; exact h1
  have C2 : C 2 = quarterZ := by rw [hC]; exact h2
  have hsee : ∀ n, (A n).inv * (B n * shiftBy 10 10 10) = C n * shiftBy 10 10 10 := by
    intro n; rw [hC, Iso.mul_assoc]
  obtain ⟨p, hp⟩ : ∃ p, p = toolProblem ⟨1, 1, 0, 0⟩ 1 (shiftBy 10 10 10)
      [tripleView (A 0) (B 0), tripleView (A 1) (B 1), tripleView (A 2) (B 2)] := ⟨_, rfl⟩
  have hpo : p.observations = [tripleView (A 0) (B 0), tripleView (A 1) (B 1), tripleView (A 2) (B 2)] := by rw [hp]; rfl
  have hmem : ∀ o ∈ p.observations, ∃ n, n < 3 ∧ o = tripleView (A n) (B n) := by
    rw [hpo]; intro o ho
    simp only [List.mem_cons, List.not_mem_nil, or_false] at ho
    rcases ho with rfl | rfl | rfl
    · exact ⟨0, by norm_num, rfl⟩
    · exact ⟨1, by norm_num, rfl⟩
    · exact ⟨2, by norm_num, rfl⟩
  have hcorr : ∀ n, ∀ c ∈ (tripleView (A n) (B n)).corrs, ∃ q ∈ squarePoints,
      c = ⟨pinhole ⟨1, 1, 0, 0⟩ (((A n).inv * (B n * shiftBy 10 10 10)).apply q), q⟩ := by
    intro n c hc
    obtain ⟨q, hq, rfl⟩ := List.mem_map.1 (mem_tripleView.1 hc)
    exact ⟨q, hq, rfl⟩
  have hgood : ∀ n, n < 3 → ∀ q ∈ squarePoints, q.z = 0 ∧ 0 < ((C n * shiftBy 10 10 10).apply q).z ∧
      1 ≤ |slope (planeNormal (C n * shiftBy 10 10 10)) ((C n * shiftBy 10 10 10).apply q)| ∧
      ((C n * shiftBy 10 10 10).apply q).normSq ≤ 10 ^ 4 := by
    intro n hn q hq
    simp only [squarePoints, List.mem_cons, List.not_mem_nil, or_false] at hq
    interval_cases n
    · rw [C0]
      rcases hq with rfl | rfl | rfl | rfl <;> norm_num [Iso.apply, M3.mulVec, Iso.one_def, M3.one_def, Iso.mul_def, M3.mul_def, shiftBy, slope, RCT.planeNormal, V3.normSq, V3.dot]
    · rw [C1]
      rcases hq with rfl | rfl | rfl | rfl <;> norm_num [quarterX, Iso.apply, M3.mulVec, Iso.one_def, M3.one_def, Iso.mul_def, M3.mul_def, shiftBy, slope, RCT.planeNormal, V3.normSq, V3.dot]
    · rw [C2]
      rcases hq with rfl | rfl | rfl | rfl <;> norm_num [quarterZ, Iso.apply, M3.mulVec, Iso.one_def, M3.one_def, Iso.mul_def, M3.mul_def, shiftBy, slope, RCT.planeNormal, V3.normSq, V3.dot]
  have hview : ∀ n, n < 3 → ∀ c ∈ (tripleView (A n) (B n)).corrs,
      0 < (((A n).inv * (B n * shiftBy 10 10 10)).apply c.inTarget).z ∧
        c.inImage = pinhole ⟨1, 1, 0, 0⟩ (((A n).inv * (B n * shiftBy 10 10 10)).apply c.inTarget) := by
    intro n hn c hc
    obtain ⟨q, hq, rfl⟩ := hcorr n c hc
    refine ⟨?_, rfl⟩
    rw [hsee]
    exact (hgood n hn q hq).2.1
  have hone : ∀ T : Iso, (1 : Iso).inv * T = T := fun T => by rw [Iso.inv_one, Iso.one_mul]
  have hperf : ∀ o ∈ p.observations, RigidMotion o.toCameraMount ∧ RigidMotion o.toTargetMount ∧
      PerfectPlanar ⟨1, 1, 0, 0⟩ 1 (shiftBy 10 10 10) o := by
    intro o ho
    obtain ⟨n, hn, rfl⟩ := hmem o ho
    refine ⟨(hA n).1, (hB n).1, fun c hc => ?_⟩
    obtain ⟨v1, v2⟩ := hview n hn c hc
    obtain ⟨q, hq, rfl⟩ := hcorr n c hc
    obtain ⟨g1, g2, g3, g4⟩ := hgood n hn q hq
    refine ⟨g1, ?_⟩
    show 0 < (((1 : Iso).inv * ((A n).inv * (B n * shiftBy 10 10 10))).apply q).z ∧ _ =
      pinhole _ (((1 : Iso).inv * ((A n).inv * (B n * shiftBy 10 10 10))).apply q) ∧
      NotGrazing ((1 : Iso).inv * ((A n).inv * (B n * shiftBy 10 10 10)))
        (((1 : Iso).inv * ((A n).inv * (B n * shiftBy 10 10 10))).apply q)
    rw [hone]
    refine ⟨v1, v2, ?_⟩
    rw [hsee, NotGrazing]
    generalize (C n * shiftBy 10 10 10).apply q = w at *
    generalize RCT.planeNormal (C n * shiftBy 10 10 10) = m at *
    have hw : 0 < w.norm := by
      refine Real.sqrt_pos.2 ?_
      simp only [V3.normSq, V3.dot]
      nlinarith [mul_self_nonneg w.x, mul_self_nonneg w.y, mul_pos g2 g2]
    have hw2 : w.norm ≤ 10 ^ 2 := Real.sqrt_le_iff.2 ⟨by norm_num, by norm_num at g4 ⊢; exact g4⟩
    have e : slope m (viewDir w) = slope m w / w.norm := by
      unfold slope viewDir; field_simp
    rw [e, abs_div, abs_of_pos hw, le_div_iff₀ hw]
    calc 1 / 10 ^ 6 * w.norm ≤ 1 / 10 ^ 6 * 10 ^ 2 := by gcongr
      _ ≤ 1 := by norm_num
      _ ≤ _ := g3
  have hz : ∀ f ∈ features p.observations, 0 < (inCamera2 1 (shiftBy 10 10 10) f).z := by
    intro f hf
    obtain ⟨ho, hc⟩ := mem_features.1 hf
    exact ((hperf f.1 ho).2.2 f.2 hc).2.1
  have hm : MountsRepresentable p.observations := by
    intro o ho
    obtain ⟨n, -, rfl⟩ := hmem o ho
    exact ⟨hA n, hB n⟩
  have e0 : heInit p heCam = poseEigenToCal 1 := by rw [hp]; simp [heInit, heCam, heTgt, toolProblem, Iso.inv_one]
  have e1 : heInit p heTgt = poseEigenToCal (shiftBy 10 10 10) := by rw [hp]; simp [heInit, toolProblem]
  have hne : features p.observations ≠ [] := by
    rw [hpo]; simp [features, tripleView, squareView, squareImage, squarePoints]
  obtain ⟨res, h⟩ : ∃ res, handEye2 (idCeres Pose6) p = .ok res := by
    unfold handEye2
    rcases heBuild2_cases p with ⟨-, h'⟩ | ⟨⟨f, hf, hv⟩, -⟩
    · rw [h', Res.ok_bind]
      exact heFinish_id_returns p (by rw [hp]; rfl) _ hne _ (fun _ _ => rfl)
    · exfalso
      apply hv
      unfold heVisible
      have hmf := hm f.1 (mem_features.1 hf).1
      have hzf := hz f hf
      rw [e0, e1, targetPointInCamera_eq hmf.1.inv hmf.2, Representable.one.roundtrip, (shiftBy_rep _ _ _).roundtrip]
      simpa [inCamera2, Spec.targetInCamera, Iso.inv_one, Iso.apply_mul] using hzf
  obtain ⟨r1, r2⟩ := C34_hand_eye_2d (idCeres Pose6) p res (fun _ _ => rfl) (by rw [hp]; exact .one)
    (by rw [hp]; exact shiftBy_rep _ _ _) h
  have r1' : res.cameraMountToCamera = 1 := by rw [r1, hp]; rfl
  have r2' : res.targetMountToTarget = shiftBy 10 10 10 := by rw [r2, hp]; rfl
  have hi : p.intr = ⟨1, 1, 0, 0⟩ := by rw [hp]; rfl
  obtain ⟨p3, h3⟩ : ∃ p3, analyze3D p.observations p.intr 1 (shiftBy 10 10 10) = .ok p3 := by
    obtain ⟨e, he, hl, -⟩ := C56_perfect p.observations ⟨1, 1, 0, 0⟩ (by norm_num) (by norm_num) 1 (shiftBy 10 10 10)
      Representable.one.1 (shiftBy_rep _ _ _).1 hperf
    unfold analyze3D
    rw [hi, he, Res.ok_bind]
    cases e with
    | nil => exact absurd (List.length_eq_zero_iff.1 (by simpa using hl.symm)) hne
    | cons a l => exact ⟨_, rfl⟩
  obtain ⟨pn, h4⟩ : ∃ pn, analyzeResults (idCeres V3) p.intr p.observations [0, 1, 2] 1 (shiftBy 10 10 10) = .ok pn := by
    unfold analyzeResults
    obtain ⟨ds, hds⟩ : ∃ ds, Res.mapList (analyzeOne (idCeres V3) p.intr p.observations [0, 1, 2] 1 (shiftBy 10 10 10))
        (List.range [0, 1, 2].length) = .ok ds := by
      refine Res.mapList_returns fun i hi' => ?_
      have hi' : i < 3 := by simpa using hi'
      have hlen : p.observations.length = 3 := by rw [hpo]; rfl
      unfold analyzeOne
      rw [atList_lt (by omega : i < p.observations.length), Res.ok_bind]
      simp only
      rw [collectIdx_lt (l := [0, 1, 2]) hi', Res.ok_bind]
      obtain ⟨n, -, hn⟩ := hmem _ (List.getElem_mem (by omega : i < p.observations.length))
      obtain ⟨r, hr⟩ := pnp2_id_returns { intr := p.intr, correspondences := (p.observations[i]'(by omega)).corrs, guess := (1 : Iso).inv * (p.observations[i]'(by omega)).toCameraMount.inv * (p.observations[i]'(by omega)).toTargetMount * shiftBy 10 10 10 } (by
        show (p.observations[i]'(by omega)).corrs ≠ []
        rw [hn]; simp [tripleView, squareView, squareImage, squarePoints])
      rw [hr]
      exact ⟨_, rfl⟩
    rw [hds, Res.ok_bind]
    exact ⟨_, rfl⟩
  rw [← r1', ← r2'] at h3 h4
  subst hp
  refine ⟨⟨printOpt res.converged res.initialCost res.finalCost, p3, printTransform res.cameraMountToCamera,
    printTransform res.targetMountToTarget, res.covariance.correlation_coeffs.filter fun c => decide (|c.value| > 1 / 2), pn⟩,
    (handEyeReport_ok_iff _ _ _ _ _).2 ⟨res, h, h3, h4, rfl⟩, ?_, ?_, hview, ?_⟩
  · rw [← r1']
  · rw [← r2']
  · intro n hn
    rw [hsee]
    interval_cases n
    · rw [C0]; norm_num [Iso.inv, M3.tr, M3.mulVec, shiftBy, Iso.mul_def, M3.mul_def, Iso.one_def, M3.one_def]
    · rw [C1]; norm_num [Iso.inv, M3.tr, M3.mulVec, quarterX, shiftBy, Iso.mul_def, M3.mul_def, Iso.one_def, M3.one_def]
    · rw [C2]; norm_num [Iso.inv, M3.tr, M3.mulVec, quarterZ, shiftBy, Iso.mul_def, M3.mul_def, Iso.one_def, M3.one_def]

/-- The parameters of the example. -/
noncomputable def exampleParams (path : String) (threshold : ℝ) : List (String × XVal) :=
  let pose (x : ℝ) : XVal := .struct [("x", .double x), ("y", .double x), ("z", .double x), ("qx", .double 0), ("qy", .double 0),
    ("qz", .double 0), ("qw", .double 1)]
  [("homography_threshold", .double threshold),
   ("intrinsics", .struct [("fx", .double 1), ("fy", .double 1), ("cx", .double 0), ("cy", .double 0)]),
   ("data_path", .string path), ("target_finder", .struct [("type", .string "square"), ("rows", .int 2)]),
   ("wrist_to_camera_guess", pose 0), ("base_to_target_guess", pose 10),
   ("base_to_camera_guess", pose 0), ("wrist_to_target_guess", pose 10),
   ("data_file", .string path), ("image_path", .string path), ("camera_to_target_guess", pose 10)]

/-- The finder of the example: the image `m` shows the features of `view m`. -/
def exampleFinder (view : Nat → List Corr2) : Finder Nat where
  find m := .ok [(m, [])]
  create fs := match fs with
    | (k, _) :: _ => .ok (view k)
    | [] => .ok []
  draw _ _ := .ok ()

/-- A world with these files and images. -/
noncomputable def exampleWorld (C : Codec Nat) (fs : FS Nat) (path : String) (threshold : ℝ) (view : Nat → List Corr2) : ToolWorld Nat where
  param k := (exampleParams path threshold).lookup k
  codec := C
  fs := fs
  printer := { exPrinter with int := fun i => ⟨"", some (some (i : ℝ)), none, none⟩, str := fun t => ⟨t, none, none, none⟩ }
  plugin name := if name = "square" then some fun _ => .ok (exampleFinder view) else none
  lu := fun _ _ => 0
  draws := fun _ a _ _ => a

section
variable (C : Codec Nat) (fs : FS Nat) (path : String) (threshold : ℝ) (view : Nat → List Corr2)

theorem exampleWorld_proper : ProperParams (exampleWorld C fs path threshold view).param := by
  intro name xml h k hk
  have h := lookup_mem h
  simp only [exampleParams, List.mem_cons, Prod.mk.injEq, List.not_mem_nil, or_false] at h
  rcases h with ⟨-, rfl⟩ | ⟨-, rfl⟩ | ⟨-, rfl⟩ | ⟨-, rfl⟩ | ⟨-, rfl⟩ | ⟨-, rfl⟩ | ⟨-, rfl⟩ | ⟨-, rfl⟩ | ⟨-, rfl⟩ | ⟨-, rfl⟩ | ⟨-, rfl⟩ <;>
    first
      | (have hk := lookup_mem hk; simp at hk)
      | simp [XVal.member] at hk

theorem exampleWorld_orderly (hlen : ∀ m, (view m).length < 2 ^ 64) : OrderlyWorld (exampleWorld C fs path threshold view) := by
  refine ⟨fun type init y h => ?_, fun type init y F h hF => ?_, fun i a b k hab => ⟨le_refl _, hab⟩⟩
  · simp only [exampleWorld] at h
    split_ifs at h
    cases h
    exact orderly_ok _
  · simp only [exampleWorld] at h
    split_ifs at h
    cases h
    cases hF
    refine ⟨fun _ => orderly_ok _, fun fs => ?_, fun _ _ => orderly_ok _, fun fs cs h => ?_⟩
    · rcases fs with _ | ⟨⟨k, l⟩, fs⟩ <;> exact orderly_ok _
    · rcases fs with _ | ⟨⟨k, l⟩, fs⟩ <;> cases h
      · simp
      · exact hlen k

theorem exampleWorld_finder : FinderParam (exampleWorld C fs path threshold view) (exampleFinder view) :=
  ⟨_, "square", fun _ => .ok (exampleFinder view), _, rfl, rfl, rfl, rfl, rfl⟩

theorem exampleWorld_setup {camera target : String} (hc : camera = "wrist_to_camera_guess" ∧ target = "base_to_target_guess" ∨
      camera = "base_to_camera_guess" ∧ target = "wrist_to_target_guess") {d : DataSet Nat}
    (hd : parseFromFile C fs path = .ok (some d)) :
    ExtrinsicSetup (exampleWorld C fs path threshold view) camera target threshold ⟨1, 1, 0, 0⟩ d (exampleFinder view) 1
      (shiftBy 10 10 10) := by
  have hpose : ∀ x : ℝ, PoseParam (some (.struct [("x", .double x), ("y", .double x), ("z", .double x), ("qx", .double 0),
      ("qy", .double 0), ("qz", .double 0), ("qw", .double 1)])) (shiftBy x x x) := by
    intro x
    refine ⟨_, ⟨1, 0, 0, 0⟩, rfl, ⟨⟨_, rfl, rfl⟩, ⟨_, rfl, rfl⟩, ⟨_, rfl, rfl⟩⟩, ⟨⟨_, rfl, rfl⟩, ⟨_, rfl, rfl⟩, ⟨_, rfl, rfl⟩, ⟨_, rfl, rfl⟩⟩,
      fun _ => rfl, fun _ => ?_⟩
    ext <;> simp [shiftBy, Quat.toMat, Quat.normSq, M3.one_def]
  have h0 : shiftBy 0 0 0 = 1 := rfl
  refine ⟨.inl rfl, ⟨_, rfl, ⟨_, rfl, rfl⟩, ⟨_, rfl, rfl⟩, ⟨_, rfl, rfl⟩, ⟨_, rfl, rfl⟩⟩, ⟨_, rfl, hd⟩, exampleWorld_finder _ _ _ _ _, ?_, ?_⟩
  · rw [← h0]
    rcases hc with ⟨rfl, rfl⟩ | ⟨rfl, rfl⟩ <;> exact hpose 0
  · rcases hc with ⟨rfl, rfl⟩ | ⟨rfl, rfl⟩ <;> exact hpose 10

end

/-- The hypotheses of the theorems above that concern the data of the example. -/
theorem exampleWorld_tool {es : List (CollectEvent Nat)} {msg : Nat → TfMsg} {T A B : Nat → Iso} {E : ToolEnv Nat} {seen : Iso → Iso}
    (hcap : captures es = [(msg 0, 0), (msg 1, 1), (msg 2, 2)]) (hmsg : ∀ n, poseOf (msg n) = T n)
    (hseen : ∀ n, seen (T n) = (A n).inv * (B n * shiftBy 10 10 10))
    (hE : ∀ i m cs, ImageAccepted E i m cs → cs = (tripleView (A m) (B m)).corrs)
    (hE' : ∀ n, n < 3 → ImageAccepted E n n (tripleView (A n) (B n)).corrs)
    (hv : ∀ n, n < 3 → ∀ c ∈ (tripleView (A n) (B n)).corrs, 0 < (((A n).inv * (B n * shiftBy 10 10 10)).apply c.inTarget).z ∧
        c.inImage = pinhole ⟨1, 1, 0, 0⟩ (((A n).inv * (B n * shiftBy 10 10 10)).apply c.inTarget))
    (hz : ∀ n, n < 3 → ((A n).inv * (B n * shiftBy 10 10 10)).inv.t.z ≠ 0) :
    (∀ i e cs, (captures es)[i]? = some e → ImageAccepted E i e.2 cs → TrueDetection ⟨1, 1, 0, 0⟩ (seen (poseOf e.1)) cs) ∧
    (∀ i : Fin 3, UsableCapture E (captures es) seen i (T i)) ∧
    (∀ i e cs, (captures es)[i]? = some e → ImageAccepted E i e.2 cs → ∀ k ∈ cs, 0 < ((seen (poseOf e.1)).apply k.inTarget).z) := by
  have hget : ∀ i e, (captures es)[i]? = some e → i < 3 ∧ e = (msg i, i) := by
    rw [hcap]; intro i e he
    have hi := (List.getElem?_eq_some_iff.1 he).1
    simp only [List.length_cons, List.length_nil] at hi
    interval_cases i <;> cases he <;> exact ⟨by norm_num, rfl⟩
  refine ⟨fun i e cs he h c hc => ?_, fun i => ?_, fun i e cs he h c hc => ?_⟩
  · obtain ⟨hi, rfl⟩ := hget i e he
    rw [hmsg, hseen]
    exact hv i hi c (hE i i cs h ▸ hc)
  · refine ⟨(msg i, i), _, ?_, hmsg i, hE' i i.2, ?_, by rw [hseen]; exact hz i i.2⟩
    · rw [hcap]; fin_cases i <;> rfl
    · obtain ⟨a, ha, b, hb, c, hc, d, hd, hq⟩ := squareImage_sees ⟨1, 1, 0, 0⟩ ((A i).inv * (B i * shiftBy 10 10 10))
      exact ⟨a, mem_tripleView.2 ha, b, mem_tripleView.2 hb, c, mem_tripleView.2 hc, d, mem_tripleView.2 hd, hq⟩
  · obtain ⟨hi, rfl⟩ := hget i e he
    rw [hmsg, hseen]
    exact (hv i hi c (hE i i cs h ▸ hc)).1

/-- The gate lets the three images of the example pass. -/
theorem exampleWorld_gate (C : Codec Nat) (fs : FS Nat) (path : String) (A B : Nat → Iso) :
    ∃ threshold : ℝ, ∀ n, n < 3 → ImageAccepted ((exampleWorld C fs path threshold fun n => (tripleView (A n) (B n)).corrs).env
      (exampleFinder fun n => (tripleView (A n) (B n)).corrs) threshold) n n (tripleView (A n) (B n)).corrs := by
  have h : ∀ n, ∃ t₀, ∀ t, t₀ ≤ t → homographyCheck (fun _ _ => 0) (fun a _ _ => a) t (tripleView (A n) (B n)).corrs = .ok () :=
    fun n => gate_opens _ _ (fun a b k hab => ⟨le_refl _, hab⟩) _ (by simp [tripleView, squareView, squareImage, squarePoints])
      (by simp [tripleView, squareView, squareImage, squarePoints])
  choose t ht using h
  refine ⟨max (t 0) (max (t 1) (t 2)), fun n hn => ⟨[(n, [])], rfl, by simp, rfl, ht n _ ?_⟩⟩
  interval_cases n <;> simp

/-- The three images of the example are accepted. -/
theorem exampleWorld_collect {E : ToolEnv Nat} {view : Nat → List Corr2} (T : Nat → Iso)
    (hE : ∀ n, n < 3 → E.find n = .ok [(n, [])] ∧ E.create [(n, [])] = .ok (view n) ∧ E.check n (view n) = .ok () ∧
      E.draw n [(n, [])] = .ok ()) (mkObs : Iso → List Corr2 → Obs Corr2) :
    Res.foldList (collectStep E mkObs ⟨[0, 1, 2], [T 0, T 1, T 2]⟩) {} (List.range [0, 1, 2].length) =
      .ok ⟨[mkObs (T 0) (view 0), mkObs (T 1) (view 1), mkObs (T 2) (view 2)], [0, 1, 2]⟩ := by
  obtain ⟨a0, b0, c0, d0⟩ := hE 0 (by norm_num)
  obtain ⟨a1, b1, c1, d1⟩ := hE 1 (by norm_num)
  obtain ⟨a2, b2, c2, d2⟩ := hE 2 (by norm_num)
  show Res.foldList (collectStep E mkObs ⟨[0, 1, 2], [T 0, T 1, T 2]⟩) {} [0, 1, 2] = _
  simp [Res.foldList, collectStep, acceptImage, Res.idxList, a0, a1, a2, b0, b1, b2, c0, c1, c2, d0, d1, d2]

/-- A session that meets all hypotheses of `C183_wrist`, `C184_wrist_partial` and `C185_wrist`; the tool prints a result. -/
example : ∃ (P : YamlPrinter) (D : Disk) (fs : FS Nat) (path : String) (es : List (CollectEvent Nat)) (col : Collector Nat)
    (saved : List (DataSet Nat)) (stored : DataSet Nat) (W : ToolWorld Nat) (threshold : ℝ) (F : Finder Nat) (intr : Intr)
    (s : Ceres Pose6) (s3 : Ceres V3) (rep : HandEyeReport) (X Y : Iso) (T : Nat → Iso) (A B : Iso),
    P.WF ∧ (∀ p, ¬ D.fail p) ∧ fs.dirs path ∧ ({} : Collector Nat).run (es ++ [.save]) = .ok (col, saved) ∧
    saved.getLast? = some stored ∧ ProperParams W.param ∧ W.fs = (saveToDirectory P D fs path stored).1 ∧
    W.param "data_path" = some (.string (indexFile path)) ∧
    (∀ e ∈ captures es, W.codec.empty e.2 = false ∧ W.codec.reread e.2 = e.2) ∧
    (∀ e ∈ captures es, e.1.q.IsUnit ∧ Representable (poseOf e.1)) ∧
    NumberParam (W.param "homography_threshold") threshold ∧ FinderParam W F ∧ IntrinsicsParam (W.param "intrinsics") intr ∧
    intr.fx ≠ 0 ∧ intr.fy ≠ 0 ∧ s.WF ∧ KeepsPlain s ∧
    (∀ X, PoseParam (W.param "wrist_to_camera_guess") X → Representable X) ∧ (∀ Y, PoseParam (W.param "base_to_target_guess") Y → Representable Y) ∧
    wristMain W s s3 = .ok (some rep) ∧ RigidMotion X ∧ RigidMotion Y ∧
    (∀ i e cs, (captures es)[i]? = some e → ImageAccepted (W.env F threshold) i e.2 cs →
      TrueDetection intr (seenFromWrist X Y (poseOf e.1)) cs) ∧
    (∀ i : Fin 3, UsableCapture (W.env F threshold) (captures es) (seenFromWrist X Y) i (T i)) ∧
    AxesDiffer ((T 1).inv * T 0).R ((T 2).inv * T 0).R ∧ RigidMotion A ∧ RigidMotion B ∧
    rep.camera = printTransform A ∧ rep.target = printTransform B ∧
    (∀ i e cs, (captures es)[i]? = some e → ImageAccepted (W.env F threshold) i e.2 cs →
      ∀ k ∈ cs, 0 < ((seenFromWrist A B (poseOf e.1)).apply k.inTarget).z) ∧
    OrderlyWorld W ∧ OrderlyCeres s ∧ OrderlyCeres s3 ∧ ¬ FinderCrash W := by
  obtain ⟨T, hT⟩ : ∃ T : Nat → Iso, T = fun n => if n = 0 then 1 else if n = 1 then quarterX.inv else quarterZ.inv := ⟨_, rfl⟩
  have T0 : T 0 = 1 := by simp [hT]
  have T1 : T 1 = quarterX.inv := by simp [hT]
  have T2 : T 2 = quarterZ.inv := by simp [hT]
  have hrep : ∀ n, Representable (T n) := by
    intro n
    simp only [hT]
    split_ifs
    exacts [.one, quarterX_rep.inv, quarterZ_rep.inv]
  obtain ⟨P, C, D, fs, path, es, col, saved, stored, msg, a1, a2, a3, a4, a5, a6, a7, a8, hcap, hmsg⟩ := example_session T hrep
  obtain ⟨rep, b1, b2, b3, b4, b5⟩ := triple_report T (fun _ => 1) hrep (fun _ => .one) (by rw [T0, Iso.inv_one, Iso.mul_one])
    (by rw [T1, Iso.mul_one, Iso.inv_inv quarterX_rep.rigid]) (by rw [T2, Iso.mul_one, Iso.inv_inv quarterZ_rep.rigid])
  obtain ⟨threshold, ht⟩ := exampleWorld_gate C (saveToDirectory P D fs path stored).1 (indexFile path) T (fun _ => 1)
  obtain ⟨W, hW⟩ : ∃ W, W = exampleWorld C (saveToDirectory P D fs path stored).1 (indexFile path) threshold
    fun n => (tripleView (T n) 1).corrs := ⟨_, rfl⟩
  obtain ⟨F, hF⟩ : ∃ F, F = exampleFinder fun n => (tripleView (T n) 1).corrs := ⟨_, rfl⟩
  have hp : ProperParams W.param := by rw [hW]; exact exampleWorld_proper _ _ _ _ _
  have hset : ExtrinsicSetup W "wrist_to_camera_guess" "base_to_target_guess" threshold ⟨1, 1, 0, 0⟩
      ⟨[0, 1, 2], [T 0, T 1, T 2]⟩ F 1 (shiftBy 10 10 10) := by
    rw [hW, hF]; exact exampleWorld_setup _ _ _ _ _ (.inl ⟨rfl, rfl⟩) a8
  rw [← hW, ← hF] at ht
  have hacc : ∀ i m cs, ImageAccepted (W.env F threshold) i m cs → cs = (tripleView (T m) 1).corrs := by
    rintro i m cs ⟨fs, h1, -, h2, -⟩
    rw [hF] at h1 h2
    cases h1
    cases h2
    rfl
  obtain ⟨c1, c2, c3⟩ := exampleWorld_tool (A := T) (B := fun _ => 1) (seen := seenFromWrist 1 (shiftBy 10 10 10)) hcap hmsg
    (fun n => by rw [seenFromWrist, Iso.inv_one, Iso.one_mul, Iso.one_mul]) hacc ht b4 b5
  refine ⟨P, D, fs, path, es, col, saved, stored, W, threshold, F, _, idCeres Pose6, idCeres V3, rep, 1, shiftBy 10 10 10, T, 1,
    shiftBy 10 10 10, a1, a2, a3, a4, a7, hp, by rw [hW]; rfl, by rw [hW]; rfl, by rw [hW]; exact a5, a6, hset.threshold, hset.finder,
    hset.intrinsics, by norm_num, by norm_num, idCeres_wf _, keepsPlain_idCeres,
    fun X hX => by rw [poseParam_unique hp hX hset.camera]; exact .one,
    fun Y hY => by rw [poseParam_unique hp hY hset.target]; exact shiftBy_rep _ _ _, ?_, Representable.one.1, (shiftBy_rep _ _ _).1, c1, c2, ?_,
    Representable.one.1, (shiftBy_rep _ _ _).1, b2, b3, c3, ?_, orderly_idCeres _, orderly_idCeres _, ?_⟩
  · rw [wristMain_ok_iff W hp]
    refine ⟨_, _, _, _, _, _, ⟨[tripleView (T 0) 1, tripleView (T 1) 1, tripleView (T 2) 1], [0, 1, 2]⟩, hset, ?_, b1⟩
    refine exampleWorld_collect (view := fun n => (tripleView (T n) 1).corrs) T (fun n hn => ?_) wristObs
    obtain ⟨fs, h1, -, h2, h3⟩ := ht n hn
    rw [hF] at h1 h2 ⊢
    cases h1
    refine ⟨rfl, rfl, ?_, rfl⟩
    exact h3
  · rw [T0, T1, T2, Iso.mul_one, Iso.mul_one, Iso.inv_inv quarterX_rep.rigid, Iso.inv_inv quarterZ_rep.rigid]
    intro h
    have := congrArg V3.y h
    norm_num [turnVector, V3.cross, quarterX, quarterZ] at this
  · rw [hW]; exact exampleWorld_orderly _ _ _ _ _ (fun m => by norm_num [tripleView, squareView, squareImage, squarePoints])
  · intro hcr
    have := (loadFinder_ok_iff W F).2 hset.finder
    rw [(loadFinder_outcome W (by rw [hW]; exact exampleWorld_orderly _ _ _ _ _ (fun m => by
      norm_num [tripleView, squareView, squareImage, squarePoints]))).2 hcr] at this
    cases this

/-- A session that meets all hypotheses of `C183_static`, `C184_static_partial` and `C185_static`; the tool prints a result. -/
example : ∃ (P : YamlPrinter) (D : Disk) (fs : FS Nat) (path : String) (es : List (CollectEvent Nat)) (col : Collector Nat)
    (saved : List (DataSet Nat)) (stored : DataSet Nat) (W : ToolWorld Nat) (threshold : ℝ) (F : Finder Nat) (intr : Intr)
    (s : Ceres Pose6) (s3 : Ceres V3) (rep : HandEyeReport) (X Y : Iso) (T : Nat → Iso) (A B : Iso),
    P.WF ∧ (∀ p, ¬ D.fail p) ∧ fs.dirs path ∧ ({} : Collector Nat).run (es ++ [.save]) = .ok (col, saved) ∧
    saved.getLast? = some stored ∧ ProperParams W.param ∧ W.fs = (saveToDirectory P D fs path stored).1 ∧
    W.param "data_path" = some (.string (indexFile path)) ∧
    (∀ e ∈ captures es, W.codec.empty e.2 = false ∧ W.codec.reread e.2 = e.2) ∧
    (∀ e ∈ captures es, e.1.q.IsUnit ∧ Representable (poseOf e.1)) ∧
    NumberParam (W.param "homography_threshold") threshold ∧ FinderParam W F ∧ IntrinsicsParam (W.param "intrinsics") intr ∧
    intr.fx ≠ 0 ∧ intr.fy ≠ 0 ∧ s.WF ∧ KeepsPlain s ∧
    (∀ X, PoseParam (W.param "base_to_camera_guess") X → Representable X) ∧ (∀ Y, PoseParam (W.param "wrist_to_target_guess") Y → Representable Y) ∧
    staticMain W s s3 = .ok (some rep) ∧ RigidMotion X ∧ RigidMotion Y ∧
    (∀ i e cs, (captures es)[i]? = some e → ImageAccepted (W.env F threshold) i e.2 cs →
      TrueDetection intr (seenOnWrist X Y (poseOf e.1)) cs) ∧
    (∀ i : Fin 3, UsableCapture (W.env F threshold) (captures es) (seenOnWrist X Y) i (T i)) ∧
    AxesDiffer (T 1 * (T 0).inv).R (T 2 * (T 0).inv).R ∧ RigidMotion A ∧ RigidMotion B ∧
    rep.camera = printTransform A ∧ rep.target = printTransform B ∧
    (∀ i e cs, (captures es)[i]? = some e → ImageAccepted (W.env F threshold) i e.2 cs →
      ∀ k ∈ cs, 0 < ((seenOnWrist A B (poseOf e.1)).apply k.inTarget).z) ∧
    OrderlyWorld W ∧ OrderlyCeres s ∧ OrderlyCeres s3 ∧ ¬ FinderCrash W := by
  obtain ⟨T, hT⟩ : ∃ T : Nat → Iso, T = fun n => if n = 0 then 1 else if n = 1 then quarterX else quarterZ := ⟨_, rfl⟩
  have T0 : T 0 = 1 := by simp [hT]
  have T1 : T 1 = quarterX := by simp [hT]
  have T2 : T 2 = quarterZ := by simp [hT]
  have hrep : ∀ n, Representable (T n) := by
    intro n
    simp only [hT]
    split_ifs
    exacts [.one, quarterX_rep, quarterZ_rep]
  obtain ⟨P, C, D, fs, path, es, col, saved, stored, msg, a1, a2, a3, a4, a5, a6, a7, a8, hcap, hmsg⟩ := example_session T hrep
  obtain ⟨rep, b1, b2, b3, b4, b5⟩ := triple_report (fun _ => 1) T (fun _ => .one) hrep (by rw [T0, Iso.inv_one, Iso.mul_one])
    (by rw [T1, Iso.inv_one, Iso.one_mul]) (by rw [T2, Iso.inv_one, Iso.one_mul])
  obtain ⟨threshold, ht⟩ := exampleWorld_gate C (saveToDirectory P D fs path stored).1 (indexFile path) (fun _ => 1) T
  obtain ⟨W, hW⟩ : ∃ W, W = exampleWorld C (saveToDirectory P D fs path stored).1 (indexFile path) threshold
    fun n => (tripleView 1 (T n)).corrs := ⟨_, rfl⟩
  obtain ⟨F, hF⟩ : ∃ F, F = exampleFinder fun n => (tripleView 1 (T n)).corrs := ⟨_, rfl⟩
  have hp : ProperParams W.param := by rw [hW]; exact exampleWorld_proper _ _ _ _ _
  have hset : ExtrinsicSetup W "base_to_camera_guess" "wrist_to_target_guess" threshold ⟨1, 1, 0, 0⟩
      ⟨[0, 1, 2], [T 0, T 1, T 2]⟩ F 1 (shiftBy 10 10 10) := by
    rw [hW, hF]; exact exampleWorld_setup _ _ _ _ _ (.inr ⟨rfl, rfl⟩) a8
  rw [← hW, ← hF] at ht
  have hacc : ∀ i m cs, ImageAccepted (W.env F threshold) i m cs → cs = (tripleView 1 (T m)).corrs := by
    rintro i m cs ⟨fs, h1, -, h2, -⟩
    rw [hF] at h1 h2
    cases h1
    cases h2
    rfl
  obtain ⟨c1, c2, c3⟩ := exampleWorld_tool (A := fun _ => 1) (B := T) (seen := seenOnWrist 1 (shiftBy 10 10 10)) hcap hmsg
    (fun n => by rw [seenOnWrist]) hacc ht b4 b5
  refine ⟨P, D, fs, path, es, col, saved, stored, W, threshold, F, _, idCeres Pose6, idCeres V3, rep, 1, shiftBy 10 10 10, T, 1,
    shiftBy 10 10 10, a1, a2, a3, a4, a7, hp, by rw [hW]; rfl, by rw [hW]; rfl, by rw [hW]; exact a5, a6, hset.threshold, hset.finder,
    hset.intrinsics, by norm_num, by norm_num, idCeres_wf _, keepsPlain_idCeres,
    fun X hX => by rw [poseParam_unique hp hX hset.camera]; exact .one,
    fun Y hY => by rw [poseParam_unique hp hY hset.target]; exact shiftBy_rep _ _ _, ?_, Representable.one.1, (shiftBy_rep _ _ _).1, c1, c2, ?_,
    Representable.one.1, (shiftBy_rep _ _ _).1, b2, b3, c3, ?_, orderly_idCeres _, orderly_idCeres _, ?_⟩
  · rw [staticMain_ok_iff W hp]
    refine ⟨_, _, _, _, _, _, ⟨[tripleView 1 (T 0), tripleView 1 (T 1), tripleView 1 (T 2)], [0, 1, 2]⟩, hset, ?_, b1⟩
    refine exampleWorld_collect (view := fun n => (tripleView 1 (T n)).corrs) T (fun n hn => ?_) staticObs
    obtain ⟨fs, h1, -, h2, h3⟩ := ht n hn
    rw [hF] at h1 h2 ⊢
    cases h1
    refine ⟨rfl, rfl, ?_, rfl⟩
    exact h3
  · rw [T0, T1, T2, Iso.inv_one, Iso.mul_one, Iso.mul_one]
    intro h
    have := congrArg V3.y h
    norm_num [turnVector, V3.cross, quarterX, quarterZ] at this
  · rw [hW]; exact exampleWorld_orderly _ _ _ _ _ (fun m => by norm_num [tripleView, squareView, squareImage, squarePoints])
  · intro hcr
    have := (loadFinder_ok_iff W F).2 hset.finder
    rw [(loadFinder_outcome W (by rw [hW]; exact exampleWorld_orderly _ _ _ _ _ (fun m => by
      norm_num [tripleView, squareView, squareImage, squarePoints]))).2 hcr] at this
    cases this

/-- The same files and parameters, apart from an empty list of points in `target_finder`, meet the hypotheses of
`C184_wrist_negation`, `C184_static_negation` and `C184_empty_list`. -/
example : ∃ (W : ToolWorld Nat) (threshold : ℝ) (intr : Intr) (d : DataSet Nat), OrderlyWorld W ∧ ProperParams W.param ∧
    NumberParam (W.param "homography_threshold") threshold ∧ IntrinsicsParam (W.param "intrinsics") intr ∧
    DataParam W (W.param "data_path") d ∧ FinderCrash W := by
  obtain ⟨P, C, D, fs, path, es, col, saved, stored, msg, a1, a2, a3, a4, a5, a6, a7, a8, hcap, hmsg⟩ :=
    example_session (fun _ => 1) (fun _ => .one)
  obtain ⟨W, hW⟩ : ∃ W, W = exampleWorld C (saveToDirectory P D fs path stored).1 (indexFile path) 1 fun _ => [] := ⟨_, rfl⟩
  have hset := exampleWorld_setup C (saveToDirectory P D fs path stored).1 (indexFile path) 1 (fun _ => []) (.inl ⟨rfl, rfl⟩) a8
  have hp := exampleWorld_proper C (saveToDirectory P D fs path stored).1 (indexFile path) 1 (fun _ => [])
  have ho := exampleWorld_orderly C (saveToDirectory P D fs path stored).1 (indexFile path) 1 (fun _ => []) (fun m => by simp)
  rw [← hW] at hset hp ho
  obtain ⟨d, hd⟩ : ∃ d, DataParam W (W.param "data_path") d := ⟨_, hset.data⟩
  obtain ⟨v, hv⟩ : ∃ v, v = XVal.struct [("points", .array []), ("type", .string "square")] := ⟨_, rfl⟩
  obtain ⟨W', hW'⟩ : ∃ W' : ToolWorld Nat, W' = { W with param := fun k => if k = "target_finder" then some v else W.param k } := ⟨_, rfl⟩
  have hk : ∀ k, k ≠ "target_finder" → W'.param k = W.param k := fun k hk => by rw [hW']; exact if_neg hk
  have hq : W'.param "target_finder" = some (.struct [("points", .array []), ("type", .string "square")]) := by rw [hW', ← hv]; rfl
  refine ⟨W', 1, _, d, ?_, ?_, by rw [hk _ (by decide)]; exact hset.threshold, by rw [hk _ (by decide)]; exact hset.intrinsics,
    ?_, ?_⟩
  · rw [hW']; exact ⟨ho.init, ho.finder, ho.draws⟩
  · intro name xml h
    by_cases hn : name = "target_finder"
    · rw [hn, hq] at h
      cases h
      intro k hk
      have hk := lookup_mem hk
      simp at hk
    · rw [hk _ hn] at h
      exact hp name xml h
  · rw [hk _ (by decide)]
    obtain ⟨path, h1, h2⟩ := hd
    exact ⟨path, h1, by rw [hW']; exact h2⟩
  · exact C184_empty_list W' "points" _ "square" (fun _ => .ok (exampleFinder fun _ => [])) hq (by decide) rfl (by rw [hW', hW]; rfl)

end RCT
