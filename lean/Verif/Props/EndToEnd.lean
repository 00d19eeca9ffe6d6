import Mathlib.Tactic.IntervalCases
import Verif.Spec.EndToEnd
import Verif.Props.Collector
import Verif.Props.Tools
import Verif.Props.Identify
import Verif.Props.Serialization

/-!
# C166 From captures to a calibration
-/

namespace RCT

open Spec

variable {Img : Type}

/-! ## C166 Collected data with two turns determine the wrist calibration -/

theorem dataOf_get (l : List (TfMsg × Img)) (i : Nat) (m : Img) (T : Iso) :
    ((dataOf l).images[i]? = some m ∧ (dataOf l).poses[i]? = some T) ↔ ∃ p, l[i]? = some (p, m) ∧ poseOf p = T := by
  simp only [dataOf, List.getElem?_map, Option.map_eq_some_iff]
  constructor
  · rintro ⟨⟨e, he, rfl⟩, ⟨e', he', rfl⟩⟩
    rw [he] at he'
    cases he'
    exact ⟨e.1, he, rfl⟩
  · rintro ⟨p, he, rfl⟩
    exact ⟨⟨_, he, rfl⟩, ⟨_, he, rfl⟩⟩

theorem observations_of {E : ToolEnv Img} {l : List (TfMsg × Img)} {found : Found Img} {js : List Nat} {items : List (Obs Corr2 × Img)}
    (place : Iso → Iso × Iso) (Q : Nat → Obs Corr2 × Img → Prop)
    (hQ : ∀ i o m, Q i (o, m) ↔ (dataOf l).images[i]? = some m ∧ ImageAccepted E i m o.corrs ∧
      ∃ T, (dataOf l).poses[i]? = some T ∧ place T = (o.toCameraMount, o.toTargetMount))
    (hs : SelectedAt (dataOf l).images.length Q js items) (ho : found.observations = items.map Prod.fst) (o : Obs Corr2) :
    o ∈ found.observations ↔ ∃ i p m, l[i]? = some (p, m) ∧ ImageAccepted E i m o.corrs ∧
      place (poseOf p) = (o.toCameraMount, o.toTargetMount) := by
  obtain ⟨-, hjs, hf⟩ := hs
  rw [ho]
  constructor
  · intro hm
    obtain ⟨e, he, rfl⟩ := List.mem_map.1 hm
    obtain ⟨j, -, hj⟩ := Forall₂.mem_right hf he
    obtain ⟨h1, h2, T, h3, h4⟩ := (hQ j e.1 e.2).1 hj
    obtain ⟨p, hp, hT⟩ := (dataOf_get l j e.2 T).1 ⟨h1, h3⟩
    exact ⟨j, p, e.2, hp, h2, by rw [hT]; exact h4⟩
  · rintro ⟨i, p, m, hl, hacc, hT⟩
    obtain ⟨g1, g2⟩ := (dataOf_get l i m (poseOf p)).2 ⟨p, hl, rfl⟩
    have hlt : i < (dataOf l).images.length := (List.getElem?_eq_some_iff.1 g1).1
    have hi : i ∈ js := (hjs i).2 ⟨hlt, (o, m), (hQ _ _ _).2 ⟨g1, hacc, _, g2, hT⟩⟩
    obtain ⟨e, he, hq⟩ := Forall₂.mem_left hf hi
    obtain ⟨k1, ⟨fs, k2, -, k3, -⟩, T, k4, k5⟩ := (hQ i e.1 e.2).1 hq
    refine List.mem_map.2 ⟨e, he, ?_⟩
    rw [g1] at k1
    cases k1
    obtain ⟨fs', l2, -, l3, -⟩ := hacc
    rw [l2] at k2
    cases k2
    rw [l3] at k3
    rw [g2] at k4
    cases k4
    rw [hT] at k5
    obtain ⟨oc, oA, oB⟩ := o
    obtain ⟨⟨ec, eA, eB⟩, em⟩ := e
    simp only [Res.ok.injEq, Prod.mk.injEq] at k3 k5
    obtain ⟨rfl, rfl⟩ := k5
    subst k3
    rfl

/-- The observations the wrist tool makes of the captures. -/
theorem wrist_observations {E : ToolEnv Img} {l : List (TfMsg × Img)} {found : Found Img}
    (h : wristCollect E (dataOf l) = .ok found) (o : Obs Corr2) :
    o ∈ found.observations ↔ ∃ i p m, l[i]? = some (p, m) ∧ ImageAccepted E i m o.corrs ∧
      (poseOf p, (1 : Iso)) = (o.toCameraMount, o.toTargetMount) := by
  obtain ⟨js, items, hs, ho, -⟩ := C84_wrist E _ found h
  refine observations_of (fun T => (T, 1)) _ (fun i o m => ?_) hs ho o
  simp only [WristItem, Prod.mk.injEq]
  constructor
  · rintro ⟨h1, h2, h3, h4⟩; exact ⟨h1, h2, _, h3, rfl, h4.symm⟩
  · rintro ⟨h1, h2, _, h3, rfl, h4⟩; exact ⟨h1, h2, h3, h4.symm⟩

/-- The observations the static camera tool makes of the captures. -/
theorem static_observations {E : ToolEnv Img} {l : List (TfMsg × Img)} {found : Found Img}
    (h : staticCollect E (dataOf l) = .ok found) (o : Obs Corr2) :
    o ∈ found.observations ↔ ∃ i p m, l[i]? = some (p, m) ∧ ImageAccepted E i m o.corrs ∧
      ((1 : Iso), poseOf p) = (o.toCameraMount, o.toTargetMount) := by
  obtain ⟨js, items, hs, ho, -⟩ := C84_static E _ found h
  refine observations_of (fun T => (1, T)) _ (fun i o m => ?_) hs ho o
  simp only [StaticItem, Prod.mk.injEq]
  constructor
  · rintro ⟨h1, h2, h3, h4⟩; exact ⟨h1, h2, _, h3, h4.symm, rfl⟩
  · rintro ⟨h1, h2, _, h3, h4, rfl⟩; exact ⟨h1, h2, h3, h4.symm⟩

/-- The common part of both tools: `place` gives the poses of the mounts, `seen` the pose of the target in the camera. -/
private theorem captured {es : List (TfMsg × Img)} {E : ToolEnv Img} {p : HandEyeProblem Corr2} (place : Iso → Iso × Iso)
    (hplace : ∀ T, Representable T → Representable (place T).1 ∧ Representable (place T).2)
    (hobs : ∀ o, o ∈ p.observations ↔ ∃ i q m, es[i]? = some (q, m) ∧ ImageAccepted E i m o.corrs ∧
      place (poseOf q) = (o.toCameraMount, o.toTargetMount))
    (hq : ∀ e ∈ es, Representable (poseOf e.1))
    (s : Ceres Pose6) (hfx : p.intr.fx ≠ 0)
    (hfy : p.intr.fy ≠ 0) (res : HandEyeResult) (hres : handEye2 s p = .ok res) (X Y : Iso) (hX : RigidMotion X) (hY : RigidMotion Y)
    (htrue : ∀ i e cs, es[i]? = some e → ImageAccepted E i e.2 cs →
      TrueDetection p.intr (X.inv * ((place (poseOf e.1)).1.inv * ((place (poseOf e.1)).2 * Y))) cs)
    (i j k l : Nat) (Ti Tj Tk Tl : Iso) (seen : Iso → Iso) (hseen : ∀ T, seen T = X.inv * ((place T).1.inv * ((place T).2 * Y)))
    (hi : UsableCapture E es seen i Ti) (hj : UsableCapture E es seen j Tj)
    (hk : UsableCapture E es seen k Tk) (hl : UsableCapture E es seen l Tl)
    (hax : AxesDiffer (((place Ti).1.inv * (place Ti).2) * ((place Tj).1.inv * (place Tj).2).inv).R
      (((place Tk).1.inv * (place Tk).2) * ((place Tl).1.inv * (place Tl).2).inv).R)
    (hr : RigidMotion res.cameraMountToCamera) (hr' : RigidMotion res.targetMountToTarget)
    (hz : ∀ f ∈ features p.observations, 0 < (inCamera2 res.cameraMountToCamera res.targetMountToTarget f).z) :
    res.finalCost = some 0 ↔ res.cameraMountToCamera = X ∧ res.targetMountToTarget = Y := by
  have hview : ∀ {n : Nat} {T : Iso}, UsableCapture E es seen n T → ∃ o ∈ p.observations, o.toCameraMount = (place T).1 ∧
      o.toTargetMount = (place T).2 ∧ SeesQuadrangle o.corrs ∧ (poseInCamera X Y o).inv.t.z ≠ 0 := by
    rintro n T ⟨e, cs, h1, rfl, h3, h4, h5⟩
    refine ⟨⟨cs, (place (poseOf e.1)).1, (place (poseOf e.1)).2⟩, (hobs _).2 ⟨n, e.1, e.2, h1, h3, rfl⟩, rfl, rfl, h4, ?_⟩
    unfold poseInCamera
    rwa [hseen] at h5
  have hfeat : ∀ f ∈ features p.observations, ∃ T, f.1.toCameraMount = (place T).1 ∧ f.1.toTargetMount = (place T).2 ∧
      TrueDetection p.intr (X.inv * ((place T).1.inv * ((place T).2 * Y))) f.1.corrs ∧ f.2 ∈ f.1.corrs := by
    intro f hf
    obtain ⟨o, ho, hf⟩ := List.mem_flatMap.1 hf
    obtain ⟨c, hc, rfl⟩ := List.mem_map.1 hf
    obtain ⟨n, q, m, h1, h2, h3⟩ := (hobs o).1 ho
    exact ⟨_, (congrArg Prod.fst h3).symm, (congrArg Prod.snd h3).symm, htrue n (q, m) _ h1 h2, hc⟩
  obtain ⟨a, ha, a1, a2, a3⟩ := hview hi
  obtain ⟨b, hb, b1, b2, b3⟩ := hview hj
  obtain ⟨c, hc, c1, c2, c3⟩ := hview hk
  obtain ⟨d, hd, d1, d2, d3⟩ := hview hl
  refine C152_unique s p res hres ?_ hr hr' hfx hfy X Y hX hY ?_ ?_ hz a b c d ?_ ?_
  · intro o ho
    obtain ⟨n, q, m, h1, h2, h3⟩ := (hobs o).1 ho
    have := hplace _ (hq _ (List.mem_of_getElem? h1))
    rw [h3] at this
    exact this
  · intro f hf
    obtain ⟨T, h1, h2, h3, h4⟩ := hfeat f hf
    rw [(h3 f.2 h4).2, inCamera2, Spec.targetInCamera, h1, h2]
  · intro f hf
    obtain ⟨T, h1, h2, h3, h4⟩ := hfeat f hf
    rw [inCamera2, Spec.targetInCamera, h1, h2]
    exact (h3 f.2 h4).1
  · intro o ho
    simp only [List.mem_cons, List.not_mem_nil, or_false] at ho
    rcases ho with rfl | rfl | rfl | rfl
    · exact ⟨ha, a3⟩
    · exact ⟨hb, b3⟩
    · exact ⟨hc, c3⟩
    · exact ⟨hd, d3⟩
  · unfold mountMotion
    rw [a1, a2, b1, b2, c1, c2, d1, d2]
    exact hax

/-- An operator collects images and wrist poses in any order of events and saves them; the wrist tool loads the files and
calibrates. If the detections are true and the usable captures include two turns of the wrist about different axes, the tool
reports zero error exactly if it reports the true poses of camera and target. -/
theorem C166_wrist (P : YamlPrinter) (hP : P.WF) (C : Codec Img) (D : Disk) (hD : ∀ p, ¬ D.fail p) (fs : FS Img)
    (path : String) (hdir : fs.dirs path ∨ fs.dirs (parentDir path)) (es : List (CollectEvent Img)) (col : Collector Img)
    (saved : List (DataSet Img)) (hcol : ({} : Collector Img).run (es ++ [.save]) = .ok (col, saved))
    (himg : ∀ e ∈ captures es, C.empty e.2 = false ∧ C.reread e.2 = e.2)
    (hq : ∀ e ∈ captures es, e.1.q.IsUnit ∧ Representable (poseOf e.1))
    (stored : DataSet Img) (hstored : saved.getLast? = some stored) (data : DataSet Img)
    (hdata : parseFromFile C (saveToDirectory P D fs path stored).1 (indexFile path) = .ok (some data))
    (E : ToolEnv Img) (found : Found Img) (hfound : wristCollect E data = .ok found)
    (s : Ceres Pose6) (p : HandEyeProblem Corr2) (hp : p.observations = found.observations) (hfx : p.intr.fx ≠ 0)
    (hfy : p.intr.fy ≠ 0) (res : HandEyeResult) (hres : handEye2 s p = .ok res) (X Y : Iso) (hX : RigidMotion X) (hY : RigidMotion Y)
    (htrue : ∀ i e cs, (captures es)[i]? = some e → ImageAccepted E i e.2 cs →
      TrueDetection p.intr (seenFromWrist X Y (poseOf e.1)) cs)
    (i j k l : Nat) (Ti Tj Tk Tl : Iso) (hi : UsableCapture E (captures es) (seenFromWrist X Y) i Ti)
    (hj : UsableCapture E (captures es) (seenFromWrist X Y) j Tj) (hk : UsableCapture E (captures es) (seenFromWrist X Y) k Tk)
    (hl : UsableCapture E (captures es) (seenFromWrist X Y) l Tl)
    (hax : AxesDiffer (Ti.inv * Tj).R (Tk.inv * Tl).R)
    (hr : RigidMotion res.cameraMountToCamera) (hr' : RigidMotion res.targetMountToTarget)
    (hz : ∀ f ∈ features p.observations, 0 < (inCamera2 res.cameraMountToCamera res.targetMountToTarget f).z) :
    res.finalCost = some 0 ↔ res.cameraMountToCamera = X ∧ res.targetMountToTarget = Y := by
  obtain ⟨d, hd, hpar⟩ := C79_saved_loads P hP C D hD fs path hdir es col saved hcol himg (fun e he => (hq e he).1)
  rw [hstored] at hd
  cases hd
  rw [hpar] at hdata
  cases hdata
  have hobs := wrist_observations hfound
  rw [← hp] at hobs
  have hrep : ∀ {n : Nat} {T : Iso}, UsableCapture E (captures es) (seenFromWrist X Y) n T → T.IsRigid := by
    rintro n T ⟨e, cs, h1, rfl, -⟩
    exact (hq e (List.mem_of_getElem? h1)).2.rigid
  refine captured (fun T => (T, 1)) (fun T h => ⟨h, .one⟩) hobs (fun e he => (hq e he).2) s hfx hfy res hres X Y hX hY ?_ i j k l
    Ti Tj Tk Tl (seenFromWrist X Y) ?_ hi hj hk hl ?_ hr hr' hz
  · simpa only [Iso.one_mul, seenFromWrist] using htrue
  · intro T
    rw [Iso.one_mul, seenFromWrist]
  · simpa only [Iso.mul_one, Iso.inv_inv (hrep hj), Iso.inv_inv (hrep hl)] using hax

/-- The same for the static camera tool and a target on the wrist. -/
theorem C166_static (P : YamlPrinter) (hP : P.WF) (C : Codec Img) (D : Disk) (hD : ∀ p, ¬ D.fail p) (fs : FS Img)
    (path : String) (hdir : fs.dirs path ∨ fs.dirs (parentDir path)) (es : List (CollectEvent Img)) (col : Collector Img)
    (saved : List (DataSet Img)) (hcol : ({} : Collector Img).run (es ++ [.save]) = .ok (col, saved))
    (himg : ∀ e ∈ captures es, C.empty e.2 = false ∧ C.reread e.2 = e.2)
    (hq : ∀ e ∈ captures es, e.1.q.IsUnit ∧ Representable (poseOf e.1))
    (stored : DataSet Img) (hstored : saved.getLast? = some stored) (data : DataSet Img)
    (hdata : parseFromFile C (saveToDirectory P D fs path stored).1 (indexFile path) = .ok (some data))
    (E : ToolEnv Img) (found : Found Img) (hfound : staticCollect E data = .ok found)
    (s : Ceres Pose6) (p : HandEyeProblem Corr2) (hp : p.observations = found.observations) (hfx : p.intr.fx ≠ 0)
    (hfy : p.intr.fy ≠ 0) (res : HandEyeResult) (hres : handEye2 s p = .ok res) (X Y : Iso) (hX : RigidMotion X) (hY : RigidMotion Y)
    (htrue : ∀ i e cs, (captures es)[i]? = some e → ImageAccepted E i e.2 cs →
      TrueDetection p.intr (seenOnWrist X Y (poseOf e.1)) cs)
    (i j k l : Nat) (Ti Tj Tk Tl : Iso) (hi : UsableCapture E (captures es) (seenOnWrist X Y) i Ti)
    (hj : UsableCapture E (captures es) (seenOnWrist X Y) j Tj) (hk : UsableCapture E (captures es) (seenOnWrist X Y) k Tk)
    (hl : UsableCapture E (captures es) (seenOnWrist X Y) l Tl)
    (hax : AxesDiffer (Ti * Tj.inv).R (Tk * Tl.inv).R)
    (hr : RigidMotion res.cameraMountToCamera) (hr' : RigidMotion res.targetMountToTarget)
    (hz : ∀ f ∈ features p.observations, 0 < (inCamera2 res.cameraMountToCamera res.targetMountToTarget f).z) :
    res.finalCost = some 0 ↔ res.cameraMountToCamera = X ∧ res.targetMountToTarget = Y := by
  obtain ⟨d, hd, hpar⟩ := C79_saved_loads P hP C D hD fs path hdir es col saved hcol himg (fun e he => (hq e he).1)
  rw [hstored] at hd
  cases hd
  rw [hpar] at hdata
  cases hdata
  have hobs := static_observations hfound
  rw [← hp] at hobs
  refine captured (fun T => (1, T)) (fun T h => ⟨.one, h⟩) hobs (fun e he => (hq e he).2) s hfx hfy res hres X Y hX hY ?_ i j k l
    Ti Tj Tk Tl (seenOnWrist X Y) ?_ hi hj hk hl ?_ hr hr' hz
  · simpa only [Iso.one_mul, Iso.inv_one, seenOnWrist] using htrue
  · intro T
    rw [Iso.inv_one, Iso.one_mul, seenOnWrist]
  · simpa only [Iso.inv_one, Iso.one_mul] using hax

theorem msg_exists {T : Iso} (h : T.IsRigid) : ∃ p : TfMsg, p.q.IsUnit ∧ poseOf p = T := by
  obtain ⟨h1, h2⟩ := M3.IsRot.toQuat h
  exact ⟨⟨T.t, T.R.toQuat⟩, h1, by unfold poseOf; rw [h2]⟩

/-- Finds the target in every image; image `n` shows it as seen with the `n`-th wrist pose. -/
noncomputable def exampleTool (view : Nat → List Corr2) : ToolEnv Nat where
  find m := .ok [(m, [])]
  create fs := match fs with
    | (k, _) :: _ => .ok (view k)
    | [] => .ok []
  draw _ _ := .ok ()
  check _ _ := .ok ()

/-- A session with three captures at the poses `T` of the wrist. -/
theorem example_session (T : Nat → Iso) (hrep : ∀ n, Representable (T n)) :
    ∃ (P : YamlPrinter) (C : Codec Nat) (D : Disk) (fs : FS Nat) (path : String) (es : List (CollectEvent Nat)) (col : Collector Nat)
    (saved : List (DataSet Nat)) (stored : DataSet Nat) (msg : Nat → TfMsg),
    P.WF ∧ (∀ p, ¬ D.fail p) ∧ fs.dirs path ∧ ({} : Collector Nat).run (es ++ [.save]) = .ok (col, saved) ∧
    (∀ e ∈ captures es, C.empty e.2 = false ∧ C.reread e.2 = e.2) ∧
    (∀ e ∈ captures es, e.1.q.IsUnit ∧ Representable (poseOf e.1)) ∧ saved.getLast? = some stored ∧
    parseFromFile C (saveToDirectory P D fs path stored).1 (indexFile path) = .ok (some ⟨[0, 1, 2], [T 0, T 1, T 2]⟩) ∧
    captures es = [(msg 0, 0), (msg 1, 1), (msg 2, 2)] ∧ (∀ n, poseOf (msg n) = T n) := by
  choose msg hu hmsg using fun n => msg_exists (hrep n).rigid
  obtain ⟨es, hes⟩ : ∃ es : List (CollectEvent Nat), es = [.image (some 0) (.ok ()), .trigger (some (msg 0)), .image (some 1) (.ok ()),
    .trigger (some (msg 1)), .image (some 2) (.ok ()), .trigger (some (msg 2))] := ⟨_, rfl⟩
  have hcap : captures es = [(msg 0, 0), (msg 1, 1), (msg 2, 2)] := by rw [hes]; rfl
  obtain ⟨col, saved, hrun⟩ : ∃ col saved, ({} : Collector Nat).run (es ++ [.save]) = .ok (col, saved) := by rw [hes]; exact ⟨_, _, rfl⟩
  have himg : ∀ e ∈ captures es, (fun _ : Nat => false) e.2 = false ∧ id e.2 = e.2 := fun e _ => ⟨rfl, rfl⟩
  have hmem : ∀ e ∈ captures es, ∃ n, e = (msg n, n) := by
    rw [hcap]; intro e he
    simp only [List.mem_cons, List.not_mem_nil, or_false] at he
    rcases he with rfl | rfl | rfl <;> exact ⟨_, rfl⟩
  have hunit : ∀ e ∈ captures es, e.1.q.IsUnit ∧ Representable (poseOf e.1) := by
    intro e he
    obtain ⟨n, rfl⟩ := hmem e he
    exact ⟨hu n, by rw [hmsg]; exact hrep n⟩
  obtain ⟨stored, hs, hl⟩ := C79_saved_loads exPrinter exPrinter_wf ⟨fun _ : Nat => false, id⟩ ⟨fun _ => False⟩ (fun _ h => h)
    ⟨fun _ => True, fun _ => none⟩ "d" (.inl trivial) es col saved hrun himg (fun e he => (hunit e he).1)
  refine ⟨exPrinter, ⟨fun _ => false, id⟩, ⟨fun _ => False⟩, ⟨fun _ => True, fun _ => none⟩, "d", es, col, saved, stored, msg,
    exPrinter_wf, fun _ h => h, trivial, hrun, himg, hunit, hs, ?_, hcap, hmsg⟩
  rw [hl, hcap]
  have e : ∀ n, (⟨(msg n).q.toMat, (msg n).t⟩ : Iso) = T n := hmsg
  simp only [dataOf, List.map_cons, List.map_nil, e]

/-- What the examples below share. -/
private theorem example_captures {es : List (CollectEvent Nat)} {msg : Nat → TfMsg} {T : Nat → Iso} {A B : Nat → Iso}
    {p : HandEyeProblem Corr2} {seen : Iso → Iso} (hcap : captures es = [(msg 0, 0), (msg 1, 1), (msg 2, 2)])
    (hmsg : ∀ n, poseOf (msg n) = T n) (hseen : ∀ n, seen (T n) = (A n).inv * (B n * shiftBy 10 10 10))
    (hdata : ∀ f ∈ features p.observations, f.2.inImage = pinhole p.intr (inCamera2 1 (shiftBy 10 10 10) f))
    (hz : ∀ f ∈ features p.observations, 0 < (inCamera2 1 (shiftBy 10 10 10) f).z)
    (hq : ∀ n, n < 3 → squareView (A n) (B n) ∈ p.observations ∧ SeesQuadrangle (squareView (A n) (B n)).corrs ∧
      (poseInCamera 1 (shiftBy 10 10 10) (squareView (A n) (B n))).inv.t.z ≠ 0) :
    (∀ i e cs, (captures es)[i]? = some e → ImageAccepted (exampleTool fun n => (squareView (A n) (B n)).corrs) i e.2 cs →
      TrueDetection p.intr (seen (poseOf e.1)) cs) ∧
    (∀ i : Fin 3, UsableCapture (exampleTool fun n => (squareView (A n) (B n)).corrs) (captures es) seen i (T i)) := by
  have hget : ∀ i e, (captures es)[i]? = some e → i < 3 ∧ e = (msg i, i) := by
    rw [hcap]; intro i e he
    have hi := (List.getElem?_eq_some_iff.1 he).1
    simp only [List.length_cons, List.length_nil] at hi
    interval_cases i <;> cases he <;> exact ⟨by norm_num, rfl⟩
  constructor
  · rintro i e cs he ⟨fs, h1, -, h2, -⟩ c hc
    obtain ⟨hi, rfl⟩ := hget i e he
    cases h1
    cases h2
    rw [hmsg, hseen]
    have hf := feature_mem (hq i hi).1 (c := c) hc
    have e1 := hdata _ hf
    have e2 := hz _ hf
    simp only [inCamera2, Spec.targetInCamera, squareView, Iso.inv_one, Iso.one_mul] at e1 e2
    exact ⟨e2, e1⟩
  · intro i
    obtain ⟨-, h2, h3⟩ := hq i i.2
    refine ⟨(msg i, i), _, ?_, hmsg i, ⟨[(i.1, [])], rfl, by simp, rfl, rfl⟩, h2, ?_⟩
    · rw [hcap]; fin_cases i <;> rfl
    · rw [hseen]
      simpa only [poseInCamera, squareView, Iso.inv_one, Iso.one_mul] using h3

/-- A session with three captures that meets all hypotheses of `C166_wrist`; the result of the solver, which stays at its
guess, is not the truth. -/
example : ∃ (P : YamlPrinter) (C : Codec Nat) (D : Disk) (fs : FS Nat) (path : String) (es : List (CollectEvent Nat)) (col : Collector Nat)
    (saved : List (DataSet Nat)) (stored data : DataSet Nat) (E : ToolEnv Nat) (found : Found Nat) (p : HandEyeProblem Corr2)
    (res : HandEyeResult) (X Y : Iso) (T : Nat → Iso),
    P.WF ∧ (∀ p, ¬ D.fail p) ∧ fs.dirs path ∧ ({} : Collector Nat).run (es ++ [.save]) = .ok (col, saved) ∧
    (∀ e ∈ captures es, C.empty e.2 = false ∧ C.reread e.2 = e.2) ∧
    (∀ e ∈ captures es, e.1.q.IsUnit ∧ Representable (poseOf e.1)) ∧ saved.getLast? = some stored ∧
    parseFromFile C (saveToDirectory P D fs path stored).1 (indexFile path) = .ok (some data) ∧
    wristCollect E data = .ok found ∧ p.observations = found.observations ∧ p.intr.fx ≠ 0 ∧ p.intr.fy ≠ 0 ∧
    handEye2 (idCeres Pose6) p = .ok res ∧ RigidMotion X ∧ RigidMotion Y ∧
    (∀ i e cs, (captures es)[i]? = some e → ImageAccepted E i e.2 cs →
      TrueDetection p.intr (seenFromWrist X Y (poseOf e.1)) cs) ∧
    (∀ i : Fin 3, UsableCapture E (captures es) (seenFromWrist X Y) i (T i)) ∧
    AxesDiffer ((T 1).inv * T 0).R ((T 2).inv * T 0).R ∧
    RigidMotion res.cameraMountToCamera ∧ RigidMotion res.targetMountToTarget ∧
    (∀ f ∈ features p.observations, 0 < (inCamera2 res.cameraMountToCamera res.targetMountToTarget f).z) := by
  obtain ⟨T, hT⟩ : ∃ T : Nat → Iso, T = fun n => if n = 0 then 1 else if n = 1 then quarterX.inv else quarterZ.inv := ⟨_, rfl⟩
  have T0 : T 0 = 1 := by simp [hT]
  have T1 : T 1 = quarterX.inv := by simp [hT]
  have T2 : T 2 = quarterZ.inv := by simp [hT]
  have hrep : ∀ n, Representable (T n) := by
    intro n
    simp only [hT]
    split_ifs
    exacts [.one, quarterX_rep.inv, quarterZ_rep.inv]
  obtain ⟨p, res, ho, hi, h, hm, r1, r2, hd, hz, hz', hq, hax⟩ := square_hand_eye T (fun _ => 1) hrep (fun _ => .one)
    (by rw [T0, Iso.inv_one, Iso.mul_one]) (by rw [T1, Iso.mul_one, Iso.inv_inv quarterX_rep.rigid])
    (by rw [T2, Iso.mul_one, Iso.inv_inv quarterZ_rep.rigid])
  obtain ⟨P, C, D, fs, path, es, col, saved, stored, msg, a1, a2, a3, a4, a5, a6, a7, a8, hcap, hmsg⟩ := example_session T hrep
  obtain ⟨b1, b2⟩ := example_captures (p := p) (seen := seenFromWrist 1 (shiftBy 10 10 10)) (A := T) (B := fun _ => 1) hcap hmsg
    (fun n => by rw [seenFromWrist, Iso.inv_one, Iso.one_mul, Iso.one_mul]) hd hz hq
  refine ⟨P, C, D, fs, path, es, col, saved, stored, _, _, ⟨p.observations, [0, 1, 2]⟩, p, res, 1, shiftBy 10 10 10, T, a1, a2, a3, a4,
    a5, a6, a7, a8, ?_, rfl, by rw [hi]; norm_num, by rw [hi]; norm_num, h, Representable.one.1, (shiftBy_rep _ _ _).1, b1, b2, ?_,
    r1, r2, hz'⟩
  · rw [ho]; rfl
  · rw [T0, T1, T2, Iso.mul_one, Iso.mul_one, Iso.inv_inv quarterX_rep.rigid, Iso.inv_inv quarterZ_rep.rigid]
    intro h
    have := congrArg V3.y h
    norm_num [turnVector, V3.cross, quarterX, quarterZ] at this

/-- The same for `C166_static`. -/
example : ∃ (P : YamlPrinter) (C : Codec Nat) (D : Disk) (fs : FS Nat) (path : String) (es : List (CollectEvent Nat)) (col : Collector Nat)
    (saved : List (DataSet Nat)) (stored data : DataSet Nat) (E : ToolEnv Nat) (found : Found Nat) (p : HandEyeProblem Corr2)
    (res : HandEyeResult) (X Y : Iso) (T : Nat → Iso),
    P.WF ∧ (∀ p, ¬ D.fail p) ∧ fs.dirs path ∧ ({} : Collector Nat).run (es ++ [.save]) = .ok (col, saved) ∧
    (∀ e ∈ captures es, C.empty e.2 = false ∧ C.reread e.2 = e.2) ∧
    (∀ e ∈ captures es, e.1.q.IsUnit ∧ Representable (poseOf e.1)) ∧ saved.getLast? = some stored ∧
    parseFromFile C (saveToDirectory P D fs path stored).1 (indexFile path) = .ok (some data) ∧
    staticCollect E data = .ok found ∧ p.observations = found.observations ∧ p.intr.fx ≠ 0 ∧ p.intr.fy ≠ 0 ∧
    handEye2 (idCeres Pose6) p = .ok res ∧ RigidMotion X ∧ RigidMotion Y ∧
    (∀ i e cs, (captures es)[i]? = some e → ImageAccepted E i e.2 cs →
      TrueDetection p.intr (seenOnWrist X Y (poseOf e.1)) cs) ∧
    (∀ i : Fin 3, UsableCapture E (captures es) (seenOnWrist X Y) i (T i)) ∧
    AxesDiffer (T 1 * (T 0).inv).R (T 2 * (T 0).inv).R ∧
    RigidMotion res.cameraMountToCamera ∧ RigidMotion res.targetMountToTarget ∧
    (∀ f ∈ features p.observations, 0 < (inCamera2 res.cameraMountToCamera res.targetMountToTarget f).z) := by
  obtain ⟨T, hT⟩ : ∃ T : Nat → Iso, T = fun n => if n = 0 then 1 else if n = 1 then quarterX else quarterZ := ⟨_, rfl⟩
  have T0 : T 0 = 1 := by simp [hT]
  have T1 : T 1 = quarterX := by simp [hT]
  have T2 : T 2 = quarterZ := by simp [hT]
  have hrep : ∀ n, Representable (T n) := by
    intro n
    simp only [hT]
    split_ifs
    exacts [.one, quarterX_rep, quarterZ_rep]
  obtain ⟨p, res, ho, hi, h, hm, r1, r2, hd, hz, hz', hq, hax⟩ := square_hand_eye (fun _ => 1) T (fun _ => .one) hrep
    (by rw [T0, Iso.inv_one, Iso.mul_one]) (by rw [T1, Iso.inv_one, Iso.one_mul])
    (by rw [T2, Iso.inv_one, Iso.one_mul])
  obtain ⟨P, C, D, fs, path, es, col, saved, stored, msg, a1, a2, a3, a4, a5, a6, a7, a8, hcap, hmsg⟩ := example_session T hrep
  obtain ⟨b1, b2⟩ := example_captures (p := p) (seen := seenOnWrist 1 (shiftBy 10 10 10)) (A := fun _ => 1) (B := T) hcap hmsg
    (fun n => by rw [seenOnWrist]) hd hz hq
  refine ⟨P, C, D, fs, path, es, col, saved, stored, _, _, ⟨p.observations, [0, 1, 2]⟩, p, res, 1, shiftBy 10 10 10, T, a1, a2, a3, a4,
    a5, a6, a7, a8, ?_, rfl, by rw [hi]; norm_num, by rw [hi]; norm_num, h, Representable.one.1, (shiftBy_rep _ _ _).1, b1, b2, ?_,
    r1, r2, hz'⟩
  · rw [ho]; rfl
  · rw [T0, T1, T2, Iso.inv_one, Iso.mul_one, Iso.mul_one]
    intro h
    have := congrArg V3.y h
    norm_num [turnVector, V3.cross, quarterX, quarterZ] at this

end RCT
