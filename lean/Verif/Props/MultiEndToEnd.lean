import Verif.Props.MultiExit
import Verif.Props.IdentifyStatic
import Verif.Spec.MultiTrue

/-!
# What a zero error of the tools for several cameras means (C189)
-/

namespace RCT

open Spec

variable {Img : Type}

theorem sqrt_cost_zero {β : Type} (pb : List (ResBlock β)) (st : Nat → β) :
    (costPerObs pb st).map Real.sqrt = some 0 ↔ costPerObs pb st = some 0 := by
  unfold costPerObs
  split_ifs
  · simp
  · have hn : 0 ≤ cost pb st / ((residuals pb st).length : ℝ) := div_nonneg (cost_nonneg _ _) (Nat.cast_nonneg _)
    simp only [Option.map_some, Option.some.injEq]
    exact Real.sqrt_eq_zero hn

theorem plain_zero : PlainPose ⟨0, 0, 0, 0, 0, 0⟩ := .inl rfl

theorem msInit_plain {p : MsProblem} (hg : ∀ g ∈ p.baseToCameraGuess, Representable g) (ht : Representable p.wristToTargetGuess) (a : Nat) :
    PlainPose (msInit p a) := by
  unfold msInit
  split_ifs
  · exact ht.plain
  · split
    · rename_i g hg'
      exact (hg g (List.mem_of_getElem? hg')).inv.plain
    · exact plain_zero

theorem coInit_plain {p : CoProblem} (hg : ∀ g ∈ p.baseToCameraGuess, Representable g) (ht : ∀ g ∈ p.baseToTargetGuess, Representable g)
    (a : Nat) : PlainPose (coInit p a) := by
  unfold coInit
  split_ifs
  · split
    · rename_i g hg'
      exact (ht g (List.mem_of_getElem? hg')).plain
    · exact plain_zero
  · exact plain_zero
  · split
    · rename_i g hg'
      exact (hg g (List.mem_of_getElem? hg')).inv.plain
    · exact plain_zero

theorem woInit_plain {p : WoProblem} (ht : Representable p.wristToTargetGuess) (a : Nat) : PlainPose (woInit p a) := by
  unfold woInit
  split_ifs
  exacts [ht.plain, Representable.one.plain]

theorem multiStatic_ends {s : Ceres Pose6} {p : MsProblem} {r : MsResult} (h : multiStatic s p = .ok r)
    (hk : KeepsPlain s) (hg : ∀ g ∈ p.baseToCameraGuess, Representable g) (ht : Representable p.wristToTargetGuess) :
    RigidMotion r.wristToTarget ∧ (∀ c ∈ r.baseToCamera, RigidMotion c) ∧
    (r.finalCost.map Real.sqrt = some 0 ↔ r.finalCost = some 0) := by
  unfold multiStatic at h
  simp only [Res.bind_ok_iff] at h
  obtain ⟨pb, -, cov, -, h⟩ := h
  cases h
  refine ⟨(rigid_iff _).1 (hk _ _ (msInit_plain hg ht) _).rigid, fun c hc => ?_, sqrt_cost_zero _ _⟩
  obtain ⟨n, -, rfl⟩ := List.mem_map.1 hc
  exact (rigid_iff _).1 (hk _ _ (msInit_plain hg ht) _).rigid.inv

theorem reportsCameras_distinct {out : List (PrintedTransform × PrintedTransform)} {A B : List Iso} (hA : ReportsCameras out A)
    (hB : ReportsCameras out B) (rA : ∀ a ∈ A, RigidMotion a) (rB : ∀ b ∈ B, RigidMotion b) : A = B := by
  unfold ReportsCameras at hA hB
  rw [List.forall₂_iff_get] at hA hB
  refine List.ext_getElem (hA.1.trans hB.1.symm) fun n h1 h2 => ?_
  have h3 : n < out.length := hA.1 ▸ h1
  exact C145_distinct _ _ (rA _ (List.getElem_mem h1)) (rB _ (List.getElem_mem h2)) ((hA.2 n h1 h3).1.symm.trans (hB.2 n h2 h3).1)

theorem seen_unique {F : Finder Img} {m : Img} {a b : List Corr2} (h : Seen F.find F.create F.draw m a) (h' : Seen F.find F.create F.draw m b) : a = b := by
  obtain ⟨f, h1, -, h2, -⟩ := h
  obtain ⟨f', h1', -, h2', -⟩ := h'
  rw [h1] at h1'
  cases h1'
  rw [h2] at h2'
  exact Res.ok.inj h2'

theorem seenItem_unique {F : Finder Img} {d : DataSet Img} {i : Nat} {a b : Iso × List Corr2} (h : SeenItem F d i a)
    (h' : SeenItem F d i b) : a = b := by
  obtain ⟨m, h1, h2, h3⟩ := h
  obtain ⟨m', h1', h2', h3'⟩ := h'
  rw [h1] at h1'
  cases h1'
  rw [h3] at h3'
  exact Prod.ext (Option.some.inj h3') (seen_unique h2 h2')

theorem jointItem_unique {F : Finder Img} {cams : List (CameraParams Img)} {i : Nat} {a b : Iso × List (List Corr2)}
    (h : JointItem F cams i a) (h' : JointItem F cams i b) : a = b := by
  obtain ⟨⟨q, h1, h2⟩, h3⟩ := h
  obtain ⟨⟨q', h1', h2'⟩, h3'⟩ := h'
  rw [h1] at h1'
  cases h1'
  rw [h2] at h2'
  refine Prod.ext (Option.some.inj h2') ?_
  rw [List.forall₂_iff_get] at h3 h3'
  refine List.ext_getElem (h3.1.symm.trans h3'.1) fun n e1 e2 => ?_
  have e3 : n < cams.length := h3.1 ▸ e1
  obtain ⟨m, g1, g2⟩ := h3.2 n e3 e1
  obtain ⟨m', g1', g2'⟩ := h3'.2 n e3 e2
  rw [g1] at g1'
  cases g1'
  exact seen_unique g2 g2'

/-- The place of an item in the selection. -/
theorem Spec.SelectedAt.place {A : Type} {n : Nat} {P : Nat → A → Prop} {js : List Nat} {as : List A} (h : SelectedAt n P js as)
    (hu : ∀ j a b, P j a → P j b → a = b) {i : Nat} (hi : i < n) {a : A} (ha : P i a) : ∃ m : Nat, as[m]? = some a := by
  obtain ⟨-, h2, h3⟩ := h
  obtain ⟨m, hm, he⟩ := List.getElem_of_mem ((h2 i).2 ⟨hi, a, ha⟩)
  rw [List.forall₂_iff_get] at h3
  have h4 : m < as.length := h3.1 ▸ hm
  have := h3.2 m hm h4
  simp only [List.get_eq_getElem] at this
  rw [he] at this
  exact ⟨m, by rw [List.getElem?_eq_getElem h4, hu _ _ _ this ha]⟩

theorem Spec.SelectedAt.item {A : Type} {n : Nat} {P : Nat → A → Prop} {js : List Nat} {as : List A} (h : SelectedAt n P js as) {m : Nat}
    {a : A} (ha : as[m]? = some a) : ∃ j, P j a := by
  obtain ⟨-, -, h3⟩ := h
  obtain ⟨j, -, hj⟩ := Forall₂.mem_right h3 (List.mem_of_getElem? ha)
  exact ⟨j, hj⟩

/-! ## C189 All parameters at once -/

/-- The tool for several static cameras. If the detections are true, one camera has usable images between which the wrist turned
about two different axes, and every camera has a usable image, the tool prints the error zero exactly if the poses it prints, `A`
for the cameras and `B` for the target, are the true ones. -/
theorem C189_multi_static (W : ToolWorld Img) (hp : ProperParams W.param) (junk : Nat → Nat → Nat) (s : Ceres Pose6)
    (hk0 : KeepsPlain s)
    (rep : MultiStaticReport Img) (h : multiStaticMain W junk s = .ok (some rep)) (k : Nat) (cams : List (CameraParams Img)) (F : Finder Img)
    (hk : ∀ (c : Nat) d, DataParam W (W.param ("camera_" ++ toString c ++ "/data_path")) d → d.images.length = k)
    (hset : CamerasSetup W "base_to_camera_guess" cams k F) (hw : ∀ q ∈ cams, ∀ w ∈ q.data.poses, Representable w)
    (hg0 : ∀ q ∈ cams, Representable q.pose) (hY0 : ∀ Y, PoseParam (W.param "wrist_to_target_guess") Y → Representable Y)
    (T : List Iso) (Y : Iso) (hT : ∀ t ∈ T, RigidMotion t) (hY : RigidMotion Y) (hlen : T.length = cams.length)
    (htrue : TrueSets F cams T Y) (x : Nat) (q : CameraParams Img) (P : Iso) (hq : cams[x]? = some q) (hP : T[x]? = some P)
    (a b c d : Nat) (Ta Tb Tc Td : Iso) (ha : UsableImage F q P Y a Ta) (hb : UsableImage F q P Y b Tb) (hc : UsableImage F q P Y c Tc)
    (hd : UsableImage F q P Y d Td) (hax : AxesDiffer (wristMotion Ta Tb).R (wristMotion Tc Td).R)
    (hone : ∀ (y : Nat) q P, cams[y]? = some q → T[y]? = some P → ∃ i w, UsableImage F q P Y i w)
    (A : List Iso) (B : Iso) (hA : ∀ t ∈ A, RigidMotion t) (hB : RigidMotion B) (hcam : ReportsCameras rep.cameras A)
    (htgt : rep.wristToTarget = printTransform B) (hz : InFront F cams A B) :
    rep.opt.final = some 0 ↔ A = T ∧ B = Y := by
  obtain ⟨cams', F', Y', p, r, hset', hpY, hprob, hr, -, hopt, h1, h2⟩ := C186_multi_static W hp junk s rep h k hk
  obtain ⟨rfl, rfl⟩ := setup_unique hp hset hset'
  obtain ⟨r1, r2, r3⟩ := multiStatic_ends hr hk0 (by rw [hprob.cameraGuess]; simpa using hg0) (hprob.targetGuess ▸ hY0 _ hpY)
  obtain rfl := C145_distinct _ _ hB r1 (htgt.symm.trans h1)
  obtain rfl := reportsCameras_distinct hcam h2 hA r2
  rw [hopt.final, r3, and_comm]
  -- the lists of one camera
  have key : ∀ (c : Nat), c < cams.length → ∃ q P, cams[c]? = some q ∧ T[c]? = some P ∧ T.getD c 1 = P ∧
      p.intr.getD c ⟨0, 0, 0, 0⟩ = q.intr ∧ ∃ js items, SelectedAt k (SeenItem F q.data) js items ∧
      p.wristPoses[c]? = some (items.map Prod.fst) ∧
      p.wristPoses.getD c [] = items.map Prod.fst ∧ p.observations.getD c [] = items.map Prod.snd := by
    intro c hc
    have hq : cams[c]? = some cams[c] := List.getElem?_eq_getElem hc
    have hP : T[c]? = some (T[c]'(by omega)) := List.getElem?_eq_getElem (by omega)
    obtain ⟨js, items, g1, g2, g3⟩ := hprob.images c _ hq
    refine ⟨_, _, hq, hP, getD_of_some hP, getD_of_some ?_, js, items, g1, g2, getD_of_some g2, getD_of_some g3⟩
    rw [hprob.intr, List.getElem?_map, hq]; rfl
  have hgl : p.baseToCameraGuess.length = cams.length := by rw [hprob.cameraGuess, List.length_map]
  have feat : ∀ f ∈ byCamera p.observations p.baseToCameraGuess.length (fun c => (p.wristPoses.getD c []).length),
      ∃ q P i e, cams[f.cam]? = some q ∧ T[f.cam]? = some P ∧ T.getD f.cam 1 = P ∧ p.intr.getD f.cam ⟨0, 0, 0, 0⟩ = q.intr ∧
        SeenItem F q.data i e ∧ (p.wristPoses.getD f.cam []).getD f.img 1 = e.1 ∧ f.corr ∈ e.2 := by
    intro f hf
    obtain ⟨m1, m2, m3⟩ := mem_byCamera hf
    rw [hgl] at m1
    obtain ⟨q, P, g1, g2, g3, g4, js, items, g5, -, g6, g7⟩ := key f.cam m1
    rw [g6, List.length_map] at m2
    have hi : items[f.img]? = some items[f.img] := List.getElem?_eq_getElem m2
    obtain ⟨j, hj⟩ := g5.item hi
    refine ⟨q, P, j, _, g1, g2, g3, g4, hj, ?_, ?_⟩
    · rw [g6]; exact getD_of_some (by rw [List.getElem?_map, hi]; rfl)
    · rw [g7] at m3
      rwa [getD_of_some (l := items.map Prod.snd) (a := items[f.img].2) (by rw [List.getElem?_map, hi]; rfl)] at m3
  have place : ∀ (y : Nat) q P, cams[y]? = some q → T[y]? = some P → ∀ i w, UsableImage F q P Y i w →
      ∃ n, n < (p.wristPoses.getD y []).length ∧ (p.wristPoses.getD y []).getD n 1 = w ∧
        GoodView (p.intr.getD y ⟨0, 0, 0, 0⟩) (T.getD y 1) (w * Y) ((p.observations.getD y []).getD n []) := by
    intro y q P hq hP i w ⟨cs, hs, hv⟩
    have hy : y < cams.length := (List.getElem?_eq_some_iff.1 hq).1
    obtain ⟨q', P', g1, g2, g3, g4, js, items, g5, -, g6, g7⟩ := key y hy
    rw [hq] at g1; cases g1
    rw [hP] at g2; cases g2
    have hi : i < k := by
      obtain ⟨m, hm, -⟩ := hs
      rw [← hset.images q (List.mem_of_getElem? hq)]
      exact (List.getElem?_eq_some_iff.1 hm).1
    obtain ⟨n, hn⟩ := g5.place (fun _ _ _ => seenItem_unique) hi hs
    have hn' : n < items.length := (List.getElem?_eq_some_iff.1 hn).1
    rw [g3, g4, g6, g7, List.length_map]
    refine ⟨n, hn', getD_of_some (by rw [List.getElem?_map, hn]; rfl), ?_⟩
    rwa [getD_of_some (l := items.map Prod.snd) (a := cs) (by rw [List.getElem?_map, hn]; rfl)]
  obtain ⟨na, a1, a2, a3⟩ := place x q P hq hP a Ta ha
  obtain ⟨nb, b1, b2, b3⟩ := place x q P hq hP b Tb hb
  obtain ⟨nc, c1, c2, c3⟩ := place x q P hq hP c Tc hc
  obtain ⟨nd, d1, d2, d3⟩ := place x q P hq hP d Td hd
  refine C177_unique s p r hr ?_ r2 r1 T Y hT hY (hlen.trans hgl.symm) ?_ ?_ ?_ x na nb nc nd
    (hgl ▸ (List.getElem?_eq_some_iff.1 hq).1) ?_ (by rw [a2, b2, c2, d2]; exact hax) ?_
  · intro wp hwp w hw'
    obtain ⟨c, hc⟩ := List.mem_iff_getElem?.1 hwp
    have hc' : c < cams.length := hprob.length.1 ▸ (List.getElem?_eq_some_iff.1 hc).1
    obtain ⟨q, P, g1, -, -, -, js, items, g5, g6, -⟩ := key c hc'
    rw [hc] at g6; cases g6
    obtain ⟨e, he, rfl⟩ := List.mem_map.1 hw'
    obtain ⟨j, -, m, -, -, hpose⟩ := Forall₂.mem_right g5.2.2 he
    exact hw q (List.mem_of_getElem? g1) _ (List.mem_of_getElem? hpose)
  · intro f hf
    obtain ⟨q, P, i, e, g1, g2, g3, g4, g5, g6, g7⟩ := feat f hf
    rw [g3, g4, g6]
    exact (htrue f.cam q P i e g1 g2 g5 _ g7).2
  · intro f hf
    obtain ⟨q, P, i, e, g1, g2, g3, g4, g5, g6, g7⟩ := feat f hf
    rw [g3, g6]
    exact (htrue f.cam q P i e g1 g2 g5 _ g7).1
  · intro f hf
    obtain ⟨q, P, i, e, g1, -, -, -, g5, g6, g7⟩ := feat f hf
    have hl : f.cam < r.baseToCamera.length := by
      rw [multiStatic_poses hr]; exact (mem_byCamera hf).1
    have hP : r.baseToCamera[f.cam]? = some r.baseToCamera[f.cam] := List.getElem?_eq_getElem hl
    rw [getD_of_some hP, g6]
    exact hz f.cam q _ i e g1 hP g5 _ g7
  · intro i hi
    simp only [List.mem_cons, List.not_mem_nil, or_false] at hi
    rcases hi with rfl | rfl | rfl | rfl
    · exact ⟨a1, by rw [a2]; exact a3⟩
    · exact ⟨b1, by rw [b2]; exact b3⟩
    · exact ⟨c1, by rw [c2]; exact c3⟩
    · exact ⟨d1, by rw [d2]; exact d3⟩
  · intro y hy
    rw [hgl] at hy
    obtain ⟨q, P, g1, g2, -⟩ := key y hy
    obtain ⟨i, w, hu⟩ := hone y q P g1 g2
    obtain ⟨n, n1, n2, n3⟩ := place y q P g1 g2 i w hu
    exact ⟨n, n1, by rw [n2]; exact n3⟩

/-! ## C189 In two steps -/

theorem cameraOnly_ends {s : Ceres Pose6} {p : CoProblem} {r : CoResult} (h : cameraOnly s p = .ok r)
    (hk : KeepsPlain s) (hg : ∀ g ∈ p.baseToCameraGuess, Representable g) (ht : ∀ g ∈ p.baseToTargetGuess, Representable g) :
    (∀ c ∈ r.baseToCamera, RigidMotion c) ∧ (∀ c ∈ r.baseToTarget, RigidMotion c) ∧ r.baseToTarget.length = p.baseToTargetGuess.length ∧
    (r.finalCost.map Real.sqrt = some 0 ↔ r.finalCost = some 0) := by
  unfold cameraOnly at h
  simp only [Res.bind_ok_iff] at h
  obtain ⟨pb, -, h⟩ := h
  cases h
  refine ⟨fun c hc => ?_, fun c hc => ?_, by simp, sqrt_cost_zero _ _⟩
  · obtain ⟨n, -, rfl⟩ := List.mem_map.1 hc
    exact (rigid_iff _).1 (hk _ _ (coInit_plain hg ht) _).rigid.inv
  · obtain ⟨n, -, rfl⟩ := List.mem_map.1 hc
    exact (rigid_iff _).1 (hk _ _ (coInit_plain hg ht) _).rigid

theorem wristOnly_ends {s : Ceres Pose6} {p : WoProblem} {r : WoResult} (h : wristOnly s p = .ok r)
    (hk : KeepsPlain s) (ht : Representable p.wristToTargetGuess)
    (hg : ∀ g ∈ p.baseToCameraGuess, RigidMotion g) :
    RigidMotion r.wristToTarget ∧ (∀ c ∈ r.baseToCamera, RigidMotion c) ∧
    (r.finalCost.map Real.sqrt = some 0 ↔ r.finalCost = some 0) := by
  unfold wristOnly at h
  simp only [Res.bind_ok_iff] at h
  obtain ⟨pb, -, h⟩ := h
  cases h
  refine ⟨(rigid_iff _).1 (hk _ _ (woInit_plain ht) _).rigid, fun c hc => ?_, sqrt_cost_zero _ _⟩
  obtain ⟨g, hg', rfl⟩ := List.mem_map.1 hc
  exact (rigid_iff _).1 ((hk _ _ (woInit_plain ht) _).rigid.inv.mul ((rigid_iff _).2 (hg g hg')))

theorem mem_byImage {obs : List (List (List Corr2))} {cams images : Nat} {f : Feature} (h : f ∈ byImage obs cams images) :
    f.cam < cams ∧ f.img < images ∧ f.corr ∈ (obs.getD f.cam []).getD f.img [] := by
  obtain ⟨i, hi, h⟩ := List.mem_flatMap.1 h
  obtain ⟨c, hc, h⟩ := List.mem_flatMap.1 h
  obtain ⟨k, hk, rfl⟩ := List.mem_map.1 h
  exact ⟨List.mem_range.1 hc, List.mem_range.1 hi, hk⟩

/-- What camera `c` saw in item `m`. -/
theorem joint_obs {cams : List (CameraParams Img)} {F : Finder Img} {k : Nat} {js : List Nat} {items : List (Iso × List (List Corr2))}
    (hsel : SelectedAt k (JointItem F cams) js items) {obs : List (List (List Corr2))}
    (hobs : ∀ (c : Nat), c < cams.length → obs[c]? = some (items.map fun e => e.2.getD c [])) {c m : Nat} (hc : c < cams.length)
    (hm : m < items.length) : ∃ i e cs, items[m]? = some e ∧ JointItem F cams i e ∧ e.2[c]? = some cs ∧
      (obs.getD c []).getD m [] = cs := by
  have hi : items[m]? = some items[m] := List.getElem?_eq_getElem hm
  obtain ⟨j, hj⟩ := hsel.item hi
  have hl : c < items[m].2.length := by rw [← hj.2.length_eq]; exact hc
  have hcs : items[m].2[c]? = some items[m].2[c] := List.getElem?_eq_getElem hl
  refine ⟨j, _, _, hi, hj, hcs, ?_⟩
  rw [getD_of_some (hobs c hc), getD_of_some (l := items.map fun e => e.2.getD c []) (by rw [List.getElem?_map, hi]; rfl)]
  exact getD_of_some hcs

theorem joint_lt {cams : List (CameraParams Img)} {F : Finder Img} {k i : Nat} {e : Iso × List (List Corr2)}
    (hk : ∀ q ∈ cams, q.data.images.length = k) (h : JointItem F cams i e) : i < k := by
  obtain ⟨⟨q, h1, -⟩, h2⟩ := h
  obtain ⟨cs, -, m, hm, -⟩ := Forall₂.mem_left h2 (List.mem_of_getElem? h1)
  rw [← hk q (List.mem_of_getElem? h1)]
  exact (List.getElem?_eq_some_iff.1 hm).1

/-- The place of a usable image. -/
theorem joint_place {cams : List (CameraParams Img)} {F : Finder Img} {k : Nat} {js : List Nat} {items : List (Iso × List (List Corr2))}
    (hk : ∀ q ∈ cams, q.data.images.length = k) (hsel : SelectedAt k (JointItem F cams) js items) {obs : List (List (List Corr2))}
    (hobs : ∀ (c : Nat), c < cams.length → obs[c]? = some (items.map fun e => e.2.getD c [])) {T : List Iso} {Y : Iso} {c i : Nat} {w : Iso}
    (h : UsableJoint F cams T Y c i w) : c < cams.length ∧ ∃ e, JointItem F cams i e ∧ e.1 = w ∧ (∃ m : Nat, items[m]? = some e) ∧
      ∀ m : Nat, items[m]? = some e → GoodView ((cams.map fun q => q.intr).getD c ⟨0, 0, 0, 0⟩) (T.getD c 1) (w * Y) ((obs.getD c []).getD m []) := by
  obtain ⟨e, q, P, cs, hj, he, hq, hP, hcs, hv⟩ := h
  have hc : c < cams.length := (List.getElem?_eq_some_iff.1 hq).1
  refine ⟨hc, e, hj, he, hsel.place (fun _ _ _ => jointItem_unique) (joint_lt hk hj) hj, fun m hm => ?_⟩
  obtain ⟨-, e', cs', h1, -, h2, h3⟩ := joint_obs hsel hobs hc (List.getElem?_eq_some_iff.1 hm).1
  rw [hm] at h1; cases h1
  rw [hcs] at h2; cases h2
  rw [h3, getD_of_some hP, getD_of_some (l := cams.map fun q => q.intr) (a := q.intr) (by rw [List.getElem?_map, hq]; rfl)]
  exact hv

/-- The first step of the tool with two steps. If the detections are true and each camera shares a usable image with the first
camera, the error of the first step is zero only if the poses of the cameras `A` it prints are right relative to each other -
provided that the target is in front of the cameras, in the poses found. -/
theorem C189_first_step (W : ToolWorld Img) (hp : ProperParams W.param) (junk : Nat → Nat → Nat) (s : Ceres Pose6) (hs : s.WF)
    (hk0 : KeepsPlain s)
    (rep : MultiStepReport Img) (h : multiStepMain W junk s = .ok (some rep)) (k : Nat) (cams : List (CameraParams Img)) (F : Finder Img)
    (hk : ∀ (c : Nat) d, DataParam W (W.param ("camera_" ++ toString c ++ "/data_path")) d → d.images.length = k)
    (hset : CamerasSetup W "base_to_camera_guess" cams k F)
    (hw : ∀ q, cams[0]? = some q → ∀ w ∈ q.data.poses, RigidMotion w)
    (hg0 : ∀ q ∈ cams, Representable q.pose)
    (hY0 : ∀ Y, PoseParam (W.param "wrist_to_target_guess") Y → ∀ i e, JointItem F cams i e → Representable (e.1 * Y))
    (T : List Iso) (Y : Iso) (hT : ∀ t ∈ T, RigidMotion t) (hY : RigidMotion Y) (hlen : T.length = cams.length)
    (htrue : TrueJoint F cams T Y)
    (hone : ∀ c, c < cams.length → ∃ i w, UsableJoint F cams T Y 0 i w ∧ UsableJoint F cams T Y c i w)
    (A : List Iso) (hA : ∀ t ∈ A, RigidMotion t) (hcam : ReportsCameras rep.cameras A) :
    ∃ js items p r, SelectedAt k (JointItem F cams) js items ∧ (∃ fix Y, CameraStep cams fix Y items p) ∧ cameraOnly s p = .ok r ∧
      ((∀ (c m : Nat) P G e cs, A[c]? = some P → r.baseToTarget[m]? = some G → items[m]? = some e → e.2[c]? = some cs →
        ∀ f ∈ cs, 0 < ((P.inv * G).apply f.inTarget).z) → rep.camerasOpt.final = some 0 → SameRelative A T) := by
  obtain ⟨cams', F', fix, Y', js, items, pc, rc, pw, rw', hset', h2, h3, hsel, hstep, hr, hl, hopt, hrc, -⟩ := C186_multi_step W hp junk s rep h k hk
  obtain ⟨rfl, rfl⟩ := setup_unique hp hset hset'
  obtain ⟨r1, r2, r3, r4⟩ := cameraOnly_ends hr hk0 (by rw [hstep.cameraGuess]; simpa using hg0) (by
    rw [hstep.targetGuess]
    intro g hg
    obtain ⟨e, he, rfl⟩ := List.mem_map.1 hg
    obtain ⟨j, -, hj⟩ := Forall₂.mem_right hsel.2.2 he
    exact hY0 _ h3 j e hj)
  obtain rfl := reportsCameras_distinct hcam hrc hA r1
  refine ⟨js, items, pc, rc, hsel, ⟨fix, Y', hstep⟩, hr, fun hz hc0 => ?_⟩
  rw [hopt.final, r4] at hc0
  have hgl : pc.baseToCameraGuess.length = cams.length := by rw [hstep.cameraGuess, List.length_map]
  have htl : pc.baseToTargetGuess.length = items.length := by rw [hstep.targetGuess, List.length_map]
  have feat : ∀ f ∈ byImage pc.observations pc.baseToCameraGuess.length pc.baseToTargetGuess.length,
      ∃ q P i e cs, cams[f.cam]? = some q ∧ T[f.cam]? = some P ∧ items[f.img]? = some e ∧ JointItem F cams i e ∧ e.2[f.cam]? = some cs ∧
        f.corr ∈ cs := by
    intro f hf
    obtain ⟨m1, m2, m3⟩ := mem_byImage hf
    rw [hgl] at m1
    rw [htl] at m2
    obtain ⟨i, e, cs, g1, g2, g3, g4⟩ := joint_obs hsel hstep.images m1 m2
    exact ⟨_, _, i, e, cs, List.getElem?_eq_getElem m1, List.getElem?_eq_getElem (hlen ▸ m1), g1, g2, g3, g4 ▸ m3⟩
  obtain ⟨tgts, htgts⟩ : ∃ l, l = items.map fun e => e.1 * Y := ⟨_, rfl⟩
  have tgt : ∀ (m : Nat) (e : Iso × List (List Corr2)), items[m]? = some e → tgts.getD m 1 = e.1 * Y := fun m e he =>
    getD_of_some (by rw [htgts, List.getElem?_map, he]; rfl)
  have hdep : ∀ f ∈ byImage pc.observations pc.baseToCameraGuess.length pc.baseToTargetGuess.length,
      0 < staticDepth (T.getD f.cam 1) (tgts.getD f.img 1) f.corr ∧
      f.corr.inImage = pinhole (pc.intr.getD f.cam ⟨0, 0, 0, 0⟩)
        (((T.getD f.cam 1).inv * tgts.getD f.img 1).apply f.corr.inTarget) := by
    intro f hf
    obtain ⟨q, P, i, e, cs, g1, g2, g3, g4, g5, g6⟩ := feat f hf
    rw [tgt _ _ g3, getD_of_some g2, hstep.intr, getD_of_some (l := cams.map fun q => q.intr) (a := q.intr) (by rw [List.getElem?_map, g1]; rfl)]
    exact htrue i e g4 f.cam q P cs g1 g2 g5 _ g6
  have hrel : ∀ c, c < cams.length → (rc.baseToCamera.getD 0 1).inv * rc.baseToCamera.getD c 1 = (T.getD 0 1).inv * T.getD c 1 := by
    intro c hc
    obtain ⟨i, w, hu0, huc⟩ := hone c hc
    obtain ⟨p0, e0, j0, rfl, ⟨m, hm⟩, v0⟩ := joint_place hset.images hsel hstep.images hu0
    obtain ⟨p1, e1, j1, -, -, v1⟩ := joint_place hset.images hsel hstep.images huc
    obtain rfl := jointItem_unique j0 j1
    have hml : m < items.length := (List.getElem?_eq_some_iff.1 hm).1
    refine (C154_relative s hs pc rc hr ?_ ?_ r1 r2 T tgts hT ?_ ?_ (fun f hf => (hdep f hf).1) ?_ 0 c m
      (htl ▸ hml) hc0 ?_).1
    · intro _ g hg
      rw [hstep.cameraGuess, List.getElem?_map] at hg
      obtain ⟨q, hq, rfl⟩ := Option.map_eq_some_iff.1 hg
      exact hg0 q (List.mem_of_getElem? hq)
    · intro h0
      rw [h0] at htl
      simp at htl
      omega
    · intro t ht
      rw [htgts] at ht
      obtain ⟨e, he, rfl⟩ := List.mem_map.1 ht
      obtain ⟨j, -, ⟨q, hq, hpose⟩, -⟩ := Forall₂.mem_right hsel.2.2 he
      exact (rigid_iff _).1 (((rigid_iff _).2 (hw q hq _ (List.mem_of_getElem? hpose))).mul ((rigid_iff _).2 hY))
    · unfold staticErrors
      rw [flatMap_zero]
      exact fun f hf => diff2_zero.2 (hdep f hf).2.symm
    · intro f hf
      obtain ⟨q, P, i, e, cs, g1, g2, g3, g4, g5, g6⟩ := feat f hf
      have hc' : f.cam < rc.baseToCamera.length := by rw [hl]; exact (List.getElem?_eq_some_iff.1 g1).1
      have hm' : f.img < rc.baseToTarget.length := by rw [r3, htl]; exact (List.getElem?_eq_some_iff.1 g3).1
      rw [getD_of_some (List.getElem?_eq_getElem hc'), getD_of_some (List.getElem?_eq_getElem hm')]
      exact hz f.cam f.img _ _ e cs (List.getElem?_eq_getElem hc') (List.getElem?_eq_getElem hm') g3 g5 _ g6
    · intro x hx
      simp only [List.mem_cons, List.not_mem_nil, or_false] at hx
      rw [tgt m _ hm, hstep.intr, hgl]
      rcases hx with rfl | rfl
      · exact ⟨p0, v0 m hm⟩
      · exact ⟨p1, v1 m hm⟩
  unfold SameRelative
  rw [List.forall₂_iff_get]
  refine ⟨hl.trans hlen.symm, fun c h1 h2 a0 t0 ha0 ht0 => ?_⟩
  have := hrel c (hlen ▸ h2)
  rwa [getD_of_some ha0, getD_of_some ht0, getD_of_some (List.getElem?_eq_getElem h1), getD_of_some (List.getElem?_eq_getElem h2)] at this

/-- The second step. If the detections are true, the poses `A'` of the cameras printed after the first step are right relative to
each other, and the usable images include two turns of the wrist about different axes, the tool prints the error zero after the
second step exactly if the poses it prints then, `A` for the cameras and `B` for the target, are the true ones. -/
theorem C189_second_step (W : ToolWorld Img) (hp : ProperParams W.param) (junk : Nat → Nat → Nat) (s : Ceres Pose6)
    (hk0 : KeepsPlain s)
    (rep : MultiStepReport Img) (h : multiStepMain W junk s = .ok (some rep)) (k : Nat) (cams : List (CameraParams Img)) (F : Finder Img)
    (hk : ∀ (c : Nat) d, DataParam W (W.param ("camera_" ++ toString c ++ "/data_path")) d → d.images.length = k)
    (hset : CamerasSetup W "base_to_camera_guess" cams k F)
    (hw : ∀ q, cams[0]? = some q → ∀ w ∈ q.data.poses, Representable w)
    (hg0 : ∀ q ∈ cams, Representable q.pose)
    (hY0 : ∀ Y, PoseParam (W.param "wrist_to_target_guess") Y → Representable Y ∧ ∀ i e, JointItem F cams i e → Representable (e.1 * Y))
    (T : List Iso) (Y : Iso) (hT : ∀ t ∈ T, RigidMotion t) (hY : RigidMotion Y) (hlen : T.length = cams.length)
    (htrue : TrueJoint F cams T Y)
    (A' : List Iso) (hA' : ∀ t ∈ A', Representable t) (hcam' : ReportsCameras rep.cameras A') (hrel : SameRelative A' T)
    (xa a xb b xc c xd d : Nat) (Ta Tb Tc Td : Iso) (ha : UsableJoint F cams T Y xa a Ta) (hb : UsableJoint F cams T Y xb b Tb)
    (hc : UsableJoint F cams T Y xc c Tc) (hd : UsableJoint F cams T Y xd d Td)
    (hax : AxesDiffer (wristMotion Ta Tb).R (wristMotion Tc Td).R)
    (A : List Iso) (B : Iso) (hA : ∀ t ∈ A, RigidMotion t) (hB : RigidMotion B) (hcam : ReportsCameras rep.corrected A)
    (htgt : rep.wristToTarget = printTransform B) (hz : InFrontJoint F cams A B) :
    rep.wristOpt.final = some 0 ↔ A = T ∧ B = Y := by
  obtain ⟨cams', F', fix, Y', js, items, pc, rc, pw, rw', hset', h2, h3, hsel, hfirst, hr, hl, -, hrc, hstep, hr', hl', hopt, h4, h5⟩ :=
    C186_multi_step W hp junk s rep h k hk
  obtain ⟨rfl, rfl⟩ := setup_unique hp hset hset'
  obtain rfl := reportsCameras_distinct hcam' hrc (fun t ht => (hA' t ht).1) (cameraOnly_ends hr hk0 (by rw [hfirst.cameraGuess]; simpa using hg0) (by
    rw [hfirst.targetGuess]
    intro g hg
    obtain ⟨e, he, rfl⟩ := List.mem_map.1 hg
    obtain ⟨j, -, hj⟩ := Forall₂.mem_right hsel.2.2 he
    exact (hY0 _ h3).2 j e hj)).1
  obtain ⟨r1, r2, r3⟩ := wristOnly_ends hr' hk0 (hstep.targetGuess ▸ (hY0 _ h3).1) (by rw [hstep.cameraGuess]; exact fun t ht => (hA' t ht).1)
  obtain rfl := C145_distinct _ _ hB r1 (htgt.symm.trans h4)
  obtain rfl := reportsCameras_distinct hcam h5 hA r2
  rw [hopt.final, r3, and_comm]
  -- the common correction
  obtain ⟨M, hM, hTM⟩ : ∃ M, RigidMotion M ∧ T = rc.baseToCamera.map (M * ·) := by
    have hx : 0 < cams.length := by
      have := (joint_place hset.images hsel hstep.images ha).1
      omega
    have e0 : rc.baseToCamera[0]? = some (rc.baseToCamera[0]'(by omega)) := List.getElem?_eq_getElem (by omega)
    have t0 : T[0]? = some (T[0]'(by omega)) := List.getElem?_eq_getElem (by omega)
    have ra := (rigid_iff _).2 (hA' _ (List.mem_of_getElem? e0)).1
    have rt := (rigid_iff _).2 (hT _ (List.mem_of_getElem? t0))
    refine ⟨T[0]'(by omega) * (rc.baseToCamera[0]'(by omega)).inv, (rigid_iff _).1 (rt.mul ra.inv), ?_⟩
    unfold SameRelative at hrel
    rw [List.forall₂_iff_get] at hrel
    refine List.ext_getElem (by simp [hrel.1]) fun n n1 n2 => ?_
    have n3 : n < rc.baseToCamera.length := by simpa using n2
    have := hrel.2 n n3 n1 _ _ e0 t0
    simp only [List.get_eq_getElem] at this
    rw [List.getElem_map, Iso.mul_assoc, this, Iso.mul_inv_cancel_left rt]
  have hcT : ∀ (c : Nat), c < cams.length → M * pw.baseToCameraGuess.getD c 1 = T.getD c 1 := by
    intro c hc
    have e0 : rc.baseToCamera[c]? = some (rc.baseToCamera[c]'(by omega)) := List.getElem?_eq_getElem (by omega)
    rw [hstep.cameraGuess, hTM, getD_of_some e0, getD_of_some (l := rc.baseToCamera.map (M * ·)) (a := M * rc.baseToCamera[c]) (by rw [List.getElem?_map, e0]; rfl)]
  have hgl : pw.baseToCameraGuess.length = cams.length := by rw [hstep.cameraGuess, hl]
  have hwl : pw.wristPoses.length = items.length := by rw [hstep.poses, List.length_map]
  have wrist : ∀ (m : Nat) (e : Iso × List (List Corr2)), items[m]? = some e → pw.wristPoses.getD m 1 = e.1 := fun m e he => by
    rw [hstep.poses]; exact getD_of_some (by rw [List.getElem?_map, he]; rfl)
  have feat : ∀ f ∈ byCamera pw.observations pw.baseToCameraGuess.length fun _ => pw.wristPoses.length,
      ∃ q P i e cs, cams[f.cam]? = some q ∧ T[f.cam]? = some P ∧ items[f.img]? = some e ∧ JointItem F cams i e ∧ e.2[f.cam]? = some cs ∧
        f.corr ∈ cs := by
    intro f hf
    obtain ⟨m1, m2, m3⟩ := mem_byCamera hf
    rw [hgl] at m1
    rw [hwl] at m2
    obtain ⟨i, e, cs, g1, g2, g3, g4⟩ := joint_obs hsel hstep.images m1 m2
    exact ⟨_, _, i, e, cs, List.getElem?_eq_getElem m1, List.getElem?_eq_getElem (hlen ▸ m1), g1, g2, g3, g4 ▸ m3⟩
  have hdep : ∀ f ∈ byCamera pw.observations pw.baseToCameraGuess.length fun _ => pw.wristPoses.length,
      0 < staticDepth (M * pw.baseToCameraGuess.getD f.cam 1) (pw.wristPoses.getD f.img 1 * Y) f.corr ∧
      f.corr.inImage = pinhole (pw.intr.getD f.cam ⟨0, 0, 0, 0⟩)
        (((M * pw.baseToCameraGuess.getD f.cam 1).inv * (pw.wristPoses.getD f.img 1 * Y)).apply f.corr.inTarget) := by
    intro f hf
    obtain ⟨q, P, i, e, cs, g1, g2, g3, g4, g5, g6⟩ := feat f hf
    rw [hcT _ (List.getElem?_eq_some_iff.1 g1).1, wrist _ _ g3, getD_of_some g2, hstep.intr,
      getD_of_some (l := cams.map fun q => q.intr) (a := q.intr) (by rw [List.getElem?_map, g1]; rfl)]
    exact htrue i e g4 f.cam q P cs g1 g2 g5 _ g6
  have place : ∀ x i w, UsableJoint F cams T Y x i w → ∃ n, x < pw.baseToCameraGuess.length ∧ n < pw.wristPoses.length ∧
      pw.wristPoses.getD n 1 = w ∧ GoodView (pw.intr.getD x ⟨0, 0, 0, 0⟩) (M * pw.baseToCameraGuess.getD x 1) (pw.wristPoses.getD n 1 * Y)
        ((pw.observations.getD x []).getD n []) := by
    intro x i w hu
    obtain ⟨p0, e0, j0, rfl, ⟨m, hm⟩, v0⟩ := joint_place hset.images hsel hstep.images hu
    refine ⟨m, hgl ▸ p0, by rw [hwl]; exact (List.getElem?_eq_some_iff.1 hm).1, wrist _ _ hm, ?_⟩
    rw [wrist _ _ hm, hcT _ p0, hstep.intr]
    exact v0 m hm
  obtain ⟨na, a1, a2, a3, a4⟩ := place _ _ _ ha
  obtain ⟨nb, b1, b2, b3, b4⟩ := place _ _ _ hb
  obtain ⟨nc, c1, c2, c3, c4⟩ := place _ _ _ hc
  obtain ⟨nd, d1, d2, d3, d4⟩ := place _ _ _ hd
  rw [show T = pw.baseToCameraGuess.map (M * ·) by rw [hstep.cameraGuess]; exact hTM]
  refine C178_unique s pw rw' hr' ?_ (by rw [hstep.cameraGuess]; exact hA') r2 r1 M Y hM hY (fun f hf => (hdep f hf).2)
    (fun f hf => (hdep f hf).1) ?_ xa na xb nb xc nc xd nd ?_ (by rw [a3, b3, c3, d3]; exact hax)
  · intro w hw'
    rw [hstep.poses] at hw'
    obtain ⟨e, he, rfl⟩ := List.mem_map.1 hw'
    obtain ⟨j, -, ⟨q, hq, hpose⟩, -⟩ := Forall₂.mem_right hsel.2.2 he
    exact hw q hq _ (List.mem_of_getElem? hpose)
  · intro f hf
    obtain ⟨q, P, i, e, cs, g1, g2, g3, g4, g5, g6⟩ := feat f hf
    have hc' : f.cam < rw'.baseToCamera.length := by rw [hl']; exact (List.getElem?_eq_some_iff.1 g1).1
    rw [getD_of_some (List.getElem?_eq_getElem hc'), wrist _ _ g3]
    exact hz i e g4 f.cam _ cs (List.getElem?_eq_getElem hc') g5 _ g6
  · intro v hv
    simp only [List.mem_cons, List.not_mem_nil, or_false] at hv
    rcases hv with rfl | rfl | rfl | rfl
    · exact ⟨a1, a2, a4⟩
    · exact ⟨b1, b2, b4⟩
    · exact ⟨c1, c2, c4⟩
    · exact ⟨d1, d2, d4⟩

/-! ### Examples

Two cameras on the z axis of the base saw a square mounted on the wrist in three poses each. -/

def dualIndex : Yaml := .seq [.map [("image", alText "i0"), ("pose", alText "p0")], .map [("image", alText "i1"), ("pose", alText "p1")],
  .map [("image", alText "i2"), ("pose", alText "p2")]]

noncomputable def dualPose (q : Quat) (t : V3) : Yaml :=
  .map [("x", alNum t.x), ("y", alNum t.y), ("z", alNum t.z), ("qw", alNum q.w), ("qx", alNum q.x), ("qy", alNum q.y), ("qz", alNum q.z)]

theorem dualPose_dec (q : Quat) (t : V3) : decIso (dualPose q t) = .ok ⟨Quat.toMat q, t⟩ := rfl

theorem half_sq : √(1 / 2 : ℝ) * √(1 / 2 : ℝ) = 1 / 2 := Real.mul_self_sqrt (by norm_num)

theorem dualPose_one : decIso (dualPose ⟨1, 0, 0, 0⟩ ⟨0, 0, 0⟩) = .ok 1 := by
  rw [dualPose_dec]
  congr 1
  ext <;> simp [Quat.toMat, Iso.one_def, M3.one_def]

theorem dualPose_x : decIso (dualPose ⟨√(1 / 2), √(1 / 2), 0, 0⟩ ⟨1, 2, 3⟩) = .ok quarterX := by
  rw [dualPose_dec]
  congr 1
  have := half_sq
  ext <;> simp only [Quat.toMat, quarterX] <;> linarith

theorem dualPose_z : decIso (dualPose ⟨√(1 / 2), 0, 0, √(1 / 2)⟩ ⟨3, 1, 2⟩) = .ok quarterZ := by
  rw [dualPose_dec]
  congr 1
  have := half_sq
  ext <;> simp only [Quat.toMat, quarterZ] <;> linarith

noncomputable def dualFiles : FS Nat := ⟨fun _ => True, fun p =>
  if p ∈ ["a", "b"] then some (.yaml dualIndex)
  else if p ∈ ["a/p0", "b/p0"] then some (.yaml (dualPose ⟨1, 0, 0, 0⟩ ⟨0, 0, 0⟩))
  else if p ∈ ["a/p1", "b/p1"] then some (.yaml (dualPose ⟨√(1 / 2), √(1 / 2), 0, 0⟩ ⟨1, 2, 3⟩))
  else if p ∈ ["a/p2", "b/p2"] then some (.yaml (dualPose ⟨√(1 / 2), 0, 0, √(1 / 2)⟩ ⟨3, 1, 2⟩))
  else (["a/i0", "a/i1", "a/i2", "b/i0", "b/i1", "b/i2"].findIdx? (· = p)).map .image⟩

/-- The poses of the wrist. -/
def dualWrists : List Iso := [1, quarterX, quarterZ]

theorem dualFiles_load (r : String) (m : Nat) (h0 : rootPath r = r) (hf : dualFiles.files r = some (.yaml dualIndex))
    (hi0 : dualFiles.files (combine r "i0") = some (.image m)) (hi1 : dualFiles.files (combine r "i1") = some (.image (m + 1)))
    (hi2 : dualFiles.files (combine r "i2") = some (.image (m + 2)))
    (hp0 : dualFiles.files (combine r "p0") = some (.yaml (dualPose ⟨1, 0, 0, 0⟩ ⟨0, 0, 0⟩)))
    (hp1 : dualFiles.files (combine r "p1") = some (.yaml (dualPose ⟨√(1 / 2), √(1 / 2), 0, 0⟩ ⟨1, 2, 3⟩)))
    (hp2 : dualFiles.files (combine r "p2") = some (.yaml (dualPose ⟨√(1 / 2), 0, 0, √(1 / 2)⟩ ⟨3, 1, 2⟩))) :
    parseFromFile alCodec dualFiles r = .ok (some ⟨[m, m + 1, m + 2], dualWrists⟩) := by
  have hr : (List.range dualIndex.size) = [0, 1, 2] := rfl
  have e1 : entryString dualIndex 0 "image" = .ok "i0" := rfl
  have e2 : entryString dualIndex 0 "pose" = .ok "p0" := rfl
  have e3 : entryString dualIndex 1 "image" = .ok "i1" := rfl
  have e4 : entryString dualIndex 1 "pose" = .ok "p1" := rfl
  have e5 : entryString dualIndex 2 "image" = .ok "i2" := rfl
  have e6 : entryString dualIndex 2 "pose" = .ok "p2" := rfl
  have r0 : readImage alCodec dualFiles (combine r "i0") = some m := by unfold readImage; rw [hi0]; rfl
  have r1 : readImage alCodec dualFiles (combine r "i1") = some (m + 1) := by unfold readImage; rw [hi1]; rfl
  have r2 : readImage alCodec dualFiles (combine r "i2") = some (m + 2) := by unfold readImage; rw [hi2]; rfl
  have t0 : tryLoadPoseFile dualFiles (combine r "p0") = .ok (some 1) := (tryLoadPoseFile_some_iff dualFiles _ _).2 ⟨_, hp0, dualPose_one⟩
  have t1 : tryLoadPoseFile dualFiles (combine r "p1") = .ok (some quarterX) := (tryLoadPoseFile_some_iff dualFiles _ _).2 ⟨_, hp1, dualPose_x⟩
  have t2 : tryLoadPoseFile dualFiles (combine r "p2") = .ok (some quarterZ) := (tryLoadPoseFile_some_iff dualFiles _ _).2 ⟨_, hp2, dualPose_z⟩
  unfold parseFromFile loadYaml parse
  simp only [hf, Res.ok_bind, h0, hr, Res.foldList_cons, Res.foldList_nil, parseStep, e1, e2, e3, e4, e5, e6, r0, r1, r2, t0, t1, t2]
  rfl

theorem dualFiles_loads : parseFromFile alCodec dualFiles "a" = .ok (some ⟨[0, 1, 2], dualWrists⟩) ∧
    parseFromFile alCodec dualFiles "b" = .ok (some ⟨[3, 4, 5], dualWrists⟩) := by
  refine ⟨dualFiles_load _ 0 (by decide) ?_ ?_ ?_ ?_ ?_ ?_ ?_, dualFiles_load _ 3 (by decide) ?_ ?_ ?_ ?_ ?_ ?_ ?_⟩ <;>
    simp [dualFiles, combine, List.findIdx?_cons]

/-- What image `m` shows. -/
noncomputable def dualView (m : Nat) : List Corr2 := stImage (m / 3 : Nat) (dualWrists.getD (m % 3) 1)

noncomputable def dualGuess (x y z : ℝ) : XVal := .struct [("x", .double x), ("y", .double y), ("z", .double z), ("qx", .double 0),
  ("qy", .double 0), ("qz", .double 0), ("qw", .double 1)]

theorem dualGuess_param (x y z : ℝ) : PoseParam (some (dualGuess x y z)) (shiftBy x y z) := by
  refine ⟨_, ⟨1, 0, 0, 0⟩, rfl, ⟨⟨_, rfl, rfl⟩, ⟨_, rfl, rfl⟩, ⟨_, rfl, rfl⟩⟩, ⟨⟨_, rfl, rfl⟩, ⟨_, rfl, rfl⟩, ⟨_, rfl, rfl⟩, ⟨_, rfl, rfl⟩⟩,
    fun _ => rfl, fun _ => ?_⟩
  ext <;> simp [shiftBy, Quat.toMat, Quat.normSq, M3.one_def]

noncomputable def dualParams : List (String × XVal) :=
  let intr : XVal := .struct [("fx", .double 1), ("fy", .double 1), ("cx", .double 0), ("cy", .double 0)]
  [("num_of_cameras", .int 2), ("target_finder", .struct [("type", .string "square"), ("rows", .int 2)]),
   ("wrist_to_target_guess", dualGuess 10 10 10), ("fix_first_camera", .bool true),
   ("camera_0/data_path", .string "a"), ("camera_0/intrinsics", intr), ("camera_0/base_to_camera_guess", dualGuess 0 0 (-0)),
   ("camera_1/data_path", .string "b"), ("camera_1/intrinsics", intr), ("camera_1/base_to_camera_guess", dualGuess 0 0 (-1)),
   ("camera_0/base_to_camera", dualGuess 0 0 (-0)), ("camera_1/base_to_camera", dualGuess 0 0 (-1))]

noncomputable def dualWorld : ToolWorld Nat where
  param k := dualParams.lookup k
  codec := alCodec
  fs := dualFiles
  printer := { exPrinter with int := fun i => ⟨"", some (some (i : ℝ)), none, none⟩, str := fun t => ⟨t, none, none, none⟩ }
  plugin name := if name = "square" then some fun _ => .ok (exampleFinder dualView) else none
  lu := fun _ _ => 0
  draws := fun _ a _ _ => a

noncomputable def dualCams : List (CameraParams Nat) :=
  [⟨⟨[0, 1, 2], dualWrists⟩, ⟨1, 1, 0, 0⟩, stCam 0⟩, ⟨⟨[3, 4, 5], dualWrists⟩, ⟨1, 1, 0, 0⟩, stCam 1⟩]

theorem dualWorld_orderly : OrderlyWorld dualWorld := by
  refine ⟨fun type init y h => ?_, fun type init y F h hF => ?_, fun i a b k hab => ⟨le_refl _, hab⟩⟩
  · simp only [dualWorld] at h
    split_ifs at h
    cases h
    exact orderly_ok _
  · simp only [dualWorld] at h
    split_ifs at h
    cases h
    cases hF
    refine ⟨fun _ => orderly_ok _, fun fs => ?_, fun _ _ => orderly_ok _, fun fs cs h => ?_⟩
    · rcases fs with _ | ⟨⟨k, l⟩, fs⟩ <;> exact orderly_ok _
    · rcases fs with _ | ⟨⟨k, l⟩, fs⟩ <;> cases h <;> simp [dualView, stImage, squareImage, squarePoints]

theorem dualWorld_proper : ProperParams dualWorld.param := by
  intro name xml h k hk
  have h := lookup_mem h
  simp only [dualParams, List.mem_cons, Prod.mk.injEq, List.not_mem_nil, or_false] at h
  rcases h with ⟨-, rfl⟩ | ⟨-, rfl⟩ | ⟨-, rfl⟩ | ⟨-, rfl⟩ | ⟨-, rfl⟩ | ⟨-, rfl⟩ | ⟨-, rfl⟩ | ⟨-, rfl⟩ | ⟨-, rfl⟩ | ⟨-, rfl⟩ | ⟨-, rfl⟩ | ⟨-, rfl⟩ <;>
    first
      | (have hk := lookup_mem hk; simp at hk)
      | (simp [XVal.member] at hk)

theorem dualWorld_finder : FinderParam dualWorld (exampleFinder dualView) :=
  ⟨_, "square", fun _ => .ok (exampleFinder dualView), _, rfl, rfl, rfl, rfl, rfl⟩

theorem dualWorld_setup : CamerasSetup dualWorld "base_to_camera_guess" dualCams 3 (exampleFinder dualView) := by
  refine ⟨.inl rfl, fun c q hq => ?_, dualWorld_finder, fun q hq => ?_⟩
  · match c with
    | 0 =>
      cases hq
      exact ⟨⟨_, rfl, dualFiles_loads.1⟩, ⟨_, rfl, ⟨_, rfl, rfl⟩, ⟨_, rfl, rfl⟩, ⟨_, rfl, rfl⟩, ⟨_, rfl, rfl⟩⟩, dualGuess_param _ _ _⟩
    | 1 =>
      cases hq
      exact ⟨⟨_, rfl, dualFiles_loads.2⟩, ⟨_, rfl, ⟨_, rfl, rfl⟩, ⟨_, rfl, rfl⟩, ⟨_, rfl, rfl⟩, ⟨_, rfl, rfl⟩⟩, dualGuess_param _ _ _⟩
    | n + 2 => simp [dualCams] at hq
  · simp only [dualCams, List.mem_cons, List.not_mem_nil, or_false] at hq
    rcases hq with rfl | rfl <;> rfl

theorem dualWorld_pnp_setup : CamerasSetup dualWorld "base_to_camera" dualCams 3 (exampleFinder dualView) := by
  refine ⟨.inl rfl, fun c q hq => ?_, dualWorld_finder, fun q hq => ?_⟩
  · match c with
    | 0 =>
      cases hq
      exact ⟨⟨_, rfl, dualFiles_loads.1⟩, ⟨_, rfl, ⟨_, rfl, rfl⟩, ⟨_, rfl, rfl⟩, ⟨_, rfl, rfl⟩, ⟨_, rfl, rfl⟩⟩, dualGuess_param _ _ _⟩
    | 1 =>
      cases hq
      exact ⟨⟨_, rfl, dualFiles_loads.2⟩, ⟨_, rfl, ⟨_, rfl, rfl⟩, ⟨_, rfl, rfl⟩, ⟨_, rfl, rfl⟩, ⟨_, rfl, rfl⟩⟩, dualGuess_param _ _ _⟩
    | n + 2 => simp [dualCams] at hq
  · simp only [dualCams, List.mem_cons, List.not_mem_nil, or_false] at hq
    rcases hq with rfl | rfl <;> rfl

theorem dualWorld_images (c : Nat) (d : DataSet Nat)
    (h : DataParam dualWorld (dualWorld.param ("camera_" ++ toString c ++ "/data_path")) d) : d.images.length = 3 := by
  obtain ⟨v, hv, hd⟩ := h
  change parseFromFile alCodec dualFiles _ = _ at hd
  have h := lookup_mem hv
  simp only [dualParams, List.mem_cons, Prod.mk.injEq, List.not_mem_nil, or_false] at h
  rcases h with ⟨-, h⟩ | ⟨-, h⟩ | ⟨-, h⟩ | ⟨-, h⟩ | ⟨-, h⟩ | ⟨-, h⟩ | ⟨-, h⟩ | ⟨-, h⟩ | ⟨-, h⟩ | ⟨-, h⟩ | ⟨-, h⟩ | ⟨-, h⟩ <;> cases h
  · rw [dualFiles_loads.1] at hd; cases hd; rfl
  · rw [dualFiles_loads.2] at hd; cases hd; rfl

theorem dualWorld_target : PoseParam (dualWorld.param "wrist_to_target_guess") (shiftBy 10 10 10) := dualGuess_param _ _ _

theorem dual_seen (m : Nat) (cs : List Corr2) : Seen (exampleFinder dualView).find (exampleFinder dualView).create (exampleFinder dualView).draw m cs ↔ cs = dualView m := by
  constructor
  · rintro ⟨f, h1, -, h3, -⟩
    cases h1
    exact (Res.ok.inj h3).symm
  · rintro rfl
    exact ⟨[(m, [])], rfl, by simp, rfl, rfl⟩

/-- Image `i` of camera `c`. -/
theorem dual_camera {c : Nat} {q : CameraParams Nat} (h : dualCams[c]? = some q) : c < 2 ∧ q.intr = ⟨1, 1, 0, 0⟩ ∧ q.pose = stCam c ∧
    q.data.poses = dualWrists ∧ [stCam 0, stCam 1][c]? = some (stCam c) ∧ ∀ (i m : Nat), q.data.images[i]? = some m → i < 3 ∧ m = 3 * c + i := by
  match c with
  | 0 =>
    cases h
    refine ⟨by norm_num, rfl, by simp, rfl, by simp, fun i m h => ?_⟩
    match i with
    | 0 => cases h; simp
    | 1 => cases h; simp
    | 2 => cases h; simp
    | n + 3 => simp at h
  | 1 =>
    cases h
    refine ⟨by norm_num, rfl, by simp, rfl, by simp, fun i m h => ?_⟩
    match i with
    | 0 => cases h; simp
    | 1 => cases h; simp
    | 2 => cases h; simp
    | n + 3 => simp at h
  | n + 2 => simp [dualCams] at h

theorem dual_view {c i : Nat} (hi : i < 3) {w : Iso} (hw : dualWrists[i]? = some w) : dualView (3 * c + i) = stImage c w := by
  unfold dualView
  rw [show (3 * c + i) / 3 = c by omega, show (3 * c + i) % 3 = i by omega, getD_of_some hw]

theorem dual_true {c : Nat} {w : Iso} (hw : w ∈ dualWrists) : TrueDetection ⟨1, 1, 0, 0⟩ (seenOnWrist (stCam c) (shiftBy 10 10 10) w) (stImage c w) := by
  intro k hk
  obtain ⟨x, hx, rfl⟩ := List.mem_map.1 hk
  exact ⟨(stView (Nat.cast_nonneg c) hw).2.2 x hx, rfl⟩

theorem dual_good {c : Nat} {w : Iso} (hw : w ∈ dualWrists) : GoodView ⟨1, 1, 0, 0⟩ (stCam c) (w * shiftBy 10 10 10) (stImage c w) :=
  ⟨squareImage_sees _ _, by norm_num, by norm_num, (stView (Nat.cast_nonneg c) hw).2.1⟩

theorem dual_axes : AxesDiffer (wristMotion quarterX 1).R (wristMotion quarterZ 1).R := by
  intro h
  have := congrArg V3.y h
  norm_num [wristMotion, turnVector, V3.cross, quarterX, quarterZ, Iso.inv_one, Iso.mul_def, Iso.one_def, M3.mul_def, M3.one_def] at this

theorem dual_true_sets : TrueSets (exampleFinder dualView) dualCams [stCam 0, stCam 1] (shiftBy 10 10 10) := by
  rintro c q P i ⟨w, cs⟩ hq hP ⟨m, h1, h2, h3⟩
  obtain ⟨h4, h5, -, h6, h7, h8⟩ := dual_camera hq
  obtain ⟨h9, rfl⟩ := h8 i m h1
  rw [hP] at h7; cases h7
  rw [h6] at h3
  rw [(dual_seen _ _).1 h2, dual_view h9 h3, h5]
  exact dual_true (List.mem_of_getElem? h3)

theorem dual_usable {c : Nat} {q : CameraParams Nat} (hq : dualCams[c]? = some q) {i : Nat} {w : Iso} (hw : dualWrists[i]? = some w) :
    UsableImage (exampleFinder dualView) q (stCam c) (shiftBy 10 10 10) i w := by
  obtain ⟨h4, h5, -, h6, h7, h8⟩ := dual_camera hq
  have hi : i < 3 := (List.getElem?_eq_some_iff.1 hw).1
  have hm : i < q.data.images.length := by rw [dualWorld_setup.images q (List.mem_of_getElem? hq)]; exact hi
  refine ⟨stImage c w, ⟨3 * c + i, ?_, (dual_seen _ _).2 (dual_view hi hw).symm, h6 ▸ hw⟩, h5 ▸ dual_good (List.mem_of_getElem? hw)⟩
  rw [List.getElem?_eq_getElem hm, (h8 i _ (List.getElem?_eq_getElem hm)).2]

theorem dual_pose {q : CameraParams Nat} (hq : q ∈ dualCams) : Representable q.pose := by
  obtain ⟨c, hc⟩ := List.mem_iff_getElem?.1 hq
  rw [(dual_camera hc).2.2.1]
  exact stCam_rep _

/-- A run of the tool with two static cameras, started at the truth. -/
theorem dual_static_run : ∃ rep : MultiStaticReport Nat, multiStaticMain dualWorld (fun _ _ => 7) (idCeres Pose6) = .ok (some rep) ∧
    ReportsCameras rep.cameras [stCam 0, stCam 1] ∧ rep.wristToTarget = printTransform (shiftBy 10 10 10) ∧ rep.opt.final = some 0 := by
  have ho := dualWorld_orderly
  have hp := dualWorld_proper
  have hset := dualWorld_setup
  have hY := dualWorld_target
  obtain ⟨cams, hcams⟩ : ∃ cams, cams = dualCams := ⟨_, rfl⟩
  obtain ⟨W, hW⟩ : ∃ W, W = dualWorld := ⟨_, rfl⟩
  rw [← hW] at ho hp hset hY
  rw [← hcams] at hset
  have hne : cams ≠ [] := by rw [hcams]; simp [dualCams]
  have hpose := setup_poses hset.camera
  have hcl : cams.length = 2 := by rw [hcams]; rfl
  have hsee : ∀ q ∈ cams, ∃ m ∈ q.data.images, ∃ cs, Seen (exampleFinder dualView).find (exampleFinder dualView).create (exampleFinder dualView).draw m cs ∧ cs ≠ [] := by
    intro q hq
    have hl := hset.images q hq
    obtain ⟨m, l, hm⟩ := List.exists_cons_of_length_eq_add_one hl
    exact ⟨m, by rw [hm]; simp, _, (dual_seen m _).2 rfl, by simp [dualView, stImage, squareImage, squarePoints]⟩
  obtain ⟨rep, hrep⟩ : ∃ rep, multiStaticMain W (fun _ _ => 7) (idCeres Pose6) = .ok (some rep) := by
    obtain ⟨t, ht⟩ := table_returns (orderlyFinder_of ho hset.finder) (fun _ _ => 7) hne hset.images
    obtain ⟨g1, g2, g3, g4⟩ := table_facts ht hset.images
    obtain ⟨data, hdata⟩ := C105_returns t (cams.map fun c => c.data) (by rw [g1]; simp) (by
      intro d hd
      obtain ⟨q, hq, rfl⟩ := List.mem_map.1 hd
      rw [g2, ← hpose q hq, hset.images q hq])
    have hprob := multiStatic_problem ht hset.images hdata (shiftBy 10 10 10)
    obtain ⟨r, hr⟩ := multiStatic_id_runs (problem_sizes hprob) (by simpa using hne) (by
      intro c hc
      simp only [List.length_map] at hc
      exact (problem_sees hprob hset.images hpose (List.getElem?_eq_getElem hc)).2 (hsee _ (List.getElem_mem hc)))
    have hl := multiStatic_poses hr
    simp only [List.length_map] at hl
    obtain ⟨rep, hrep⟩ := multiStatic_after ht hne hset.images hpose (idCeres Pose6) hl
    refine ⟨rep, ?_⟩
    unfold multiStaticMain
    rw [toolExit_ok, (cameraCount_ok_iff _ _).2 hset.count, Res.ok_bind,
      (loadCameras_ok_iff W hp _ (loadMultiStatic_ok_iff W.codec W.fs) _ _ _).2 ⟨rfl, hset.camera⟩, Res.ok_bind,
      (needPose_ok_iff hp _ _).2 hY, Res.ok_bind, (loadFinder_ok_iff W _).2 hset.finder, Res.ok_bind]
    simp only
    rw [ht, Res.ok_bind, hdata, Res.ok_bind, hr, Res.ok_bind]
    exact hrep
  have hk : ∀ (c : Nat) d, DataParam W (W.param ("camera_" ++ toString c ++ "/data_path")) d → d.images.length = 3 := by
    rw [hW]; exact dualWorld_images
  have hrepr : ∀ q ∈ cams, Representable q.pose := by rw [hcams]; exact fun q hq => dual_pose hq
  have hYr : ∀ Y, PoseParam (W.param "wrist_to_target_guess") Y → Representable Y := fun Y h => by
    rw [poseParam_unique hp h hY]; exact shiftBy_rep _ _ _
  obtain ⟨cams', F', Y', p, r, h1, h2, h3, h4, h5, h6, h7, h8⟩ := C186_multi_static W hp _ _ rep hrep 3 hk
  obtain ⟨rfl, rfl⟩ := setup_unique hp h1 hset
  obtain rfl := poseParam_unique hp h2 hY
  obtain ⟨e1, e2⟩ := multiStatic_id_poses h4 (by rw [h3.cameraGuess]; simpa using hrepr) (by rw [h3.targetGuess]; exact shiftBy_rep _ _ _)
  have e3 : r.baseToCamera = [stCam 0, stCam 1] := by rw [e1, h3.cameraGuess, hcams]; rfl
  rw [e3] at h8
  rw [e2, h3.targetGuess] at h7
  have hw : ∀ q ∈ cams', ∀ w ∈ q.data.poses, Representable w := by
    intro q hq w hw
    rw [hcams] at hq
    obtain ⟨c, hc⟩ := List.mem_iff_getElem?.1 hq
    rw [(dual_camera hc).2.2.2.1] at hw
    exact stWrist_rep hw
  have htrue : TrueSets (exampleFinder dualView) cams' [stCam 0, stCam 1] (shiftBy 10 10 10) := by rw [hcams]; exact dual_true_sets
  have hfront : InFront (exampleFinder dualView) cams' [stCam 0, stCam 1] (shiftBy 10 10 10) := fun c q P i e g1 g2 g3 k hk' =>
    (htrue c q P i e g1 g2 g3 k hk').1
  have hone : ∀ (y : Nat) q P, cams'[y]? = some q → [stCam 0, stCam 1][y]? = some P → ∃ i w,
      UsableImage (exampleFinder dualView) q P (shiftBy 10 10 10) i w := by
    intro y q P g1 g2
    rw [hcams] at g1
    rw [(dual_camera g1).2.2.2.2.1] at g2
    cases g2
    exact ⟨0, 1, dual_usable g1 rfl⟩
  have hq0 : cams'[1]? = some ⟨⟨[3, 4, 5], dualWrists⟩, ⟨1, 1, 0, 0⟩, stCam 1⟩ := by rw [hcams]; rfl
  have hu : ∀ (i : Nat) w, dualWrists[i]? = some w → UsableImage (exampleFinder dualView) ⟨⟨[3, 4, 5], dualWrists⟩, ⟨1, 1, 0, 0⟩, stCam 1⟩ (stCam 1) (shiftBy 10 10 10) i w :=
    fun i w hw => by have := dual_usable (c := 1) (i := i) (w := w) (by rw [← hcams]; exact hq0) hw; simpa using this
  have hrig : ∀ t ∈ [stCam 0, stCam 1], RigidMotion t := fun t ht => (stCams_rep t ht).1
  have hz := C189_multi_static W hp (fun _ _ => 7) (idCeres Pose6) keepsPlain_idCeres rep hrep 3 cams' _ hk hset hw hrepr hYr
    [stCam 0, stCam 1] (shiftBy 10 10 10) hrig (shiftBy_rep _ _ _).1 hcl.symm htrue 1 _ (stCam 1) hq0 rfl 1 0 2 0 quarterX 1 quarterZ 1
    (hu 1 _ rfl) (hu 0 _ rfl) (hu 2 _ rfl) (hu 0 _ rfl) dual_axes hone _ _ hrig (shiftBy_rep _ _ _).1 h8 h7 hfront
  subst hW
  exact ⟨rep, hrep, h8, h7, hz.2 ⟨rfl, rfl⟩⟩

/-- The tool for several static cameras with two cameras: all hypotheses of `C189_multi_static`, and the error printed is zero. -/
example : ∃ (W : ToolWorld Nat) (junk : Nat → Nat → Nat) (s : Ceres Pose6) (rep : MultiStaticReport Nat) (k : Nat)
    (cams : List (CameraParams Nat)) (F : Finder Nat) (T : List Iso) (Y : Iso) (x : Nat) (q : CameraParams Nat) (P : Iso) (a b c d : Nat)
    (Ta Tb Tc Td : Iso), ProperParams W.param ∧ s.WF ∧ KeepsPlain s ∧ multiStaticMain W junk s = .ok (some rep) ∧
    (∀ (c : Nat) d, DataParam W (W.param ("camera_" ++ toString c ++ "/data_path")) d → d.images.length = k) ∧
    CamerasSetup W "base_to_camera_guess" cams k F ∧ (∀ q ∈ cams, ∀ w ∈ q.data.poses, Representable w) ∧
    (∀ q ∈ cams, Representable q.pose) ∧ (∀ Y, PoseParam (W.param "wrist_to_target_guess") Y → Representable Y) ∧
    (∀ t ∈ T, RigidMotion t) ∧ RigidMotion Y ∧ T.length = cams.length ∧ TrueSets F cams T Y ∧ cams[x]? = some q ∧ T[x]? = some P ∧
    UsableImage F q P Y a Ta ∧ UsableImage F q P Y b Tb ∧ UsableImage F q P Y c Tc ∧ UsableImage F q P Y d Td ∧
    AxesDiffer (wristMotion Ta Tb).R (wristMotion Tc Td).R ∧
    (∀ (y : Nat) q P, cams[y]? = some q → T[y]? = some P → ∃ i w, UsableImage F q P Y i w) ∧
    ReportsCameras rep.cameras T ∧ rep.wristToTarget = printTransform Y ∧ InFront F cams T Y ∧ rep.opt.final = some 0 ∧ T.Nodup := by
  have ho := dualWorld_orderly
  have hp := dualWorld_proper
  have hset := dualWorld_setup
  have hY := dualWorld_target
  obtain ⟨cams, hcams⟩ : ∃ cams, cams = dualCams := ⟨_, rfl⟩
  obtain ⟨W, hW⟩ : ∃ W, W = dualWorld := ⟨_, rfl⟩
  rw [← hW] at ho hp hset hY
  rw [← hcams] at hset
  obtain ⟨rep, hrep, h8, h7, hz⟩ := dual_static_run
  rw [← hW] at hrep
  have hcl : cams.length = 2 := by rw [hcams]; rfl
  have hk : ∀ (c : Nat) d, DataParam W (W.param ("camera_" ++ toString c ++ "/data_path")) d → d.images.length = 3 := by
    rw [hW]; exact dualWorld_images
  have hrepr : ∀ q ∈ cams, Representable q.pose := by rw [hcams]; exact fun q hq => dual_pose hq
  have hYr : ∀ Y, PoseParam (W.param "wrist_to_target_guess") Y → Representable Y := fun Y h => by
    rw [poseParam_unique hp h hY]; exact shiftBy_rep _ _ _
  have hw : ∀ q ∈ cams, ∀ w ∈ q.data.poses, Representable w := by
    intro q hq w hw
    rw [hcams] at hq
    obtain ⟨c, hc⟩ := List.mem_iff_getElem?.1 hq
    rw [(dual_camera hc).2.2.2.1] at hw
    exact stWrist_rep hw
  have htrue : TrueSets (exampleFinder dualView) cams [stCam 0, stCam 1] (shiftBy 10 10 10) := by rw [hcams]; exact dual_true_sets
  have hfront : InFront (exampleFinder dualView) cams [stCam 0, stCam 1] (shiftBy 10 10 10) := fun c q P i e g1 g2 g3 k hk' =>
    (htrue c q P i e g1 g2 g3 k hk').1
  have hone : ∀ (y : Nat) q P, cams[y]? = some q → [stCam 0, stCam 1][y]? = some P → ∃ i w,
      UsableImage (exampleFinder dualView) q P (shiftBy 10 10 10) i w := by
    intro y q P g1 g2
    rw [hcams] at g1
    rw [(dual_camera g1).2.2.2.2.1] at g2
    cases g2
    exact ⟨0, 1, dual_usable g1 rfl⟩
  have hq0 : cams[1]? = some ⟨⟨[3, 4, 5], dualWrists⟩, ⟨1, 1, 0, 0⟩, stCam 1⟩ := by rw [hcams]; rfl
  have hu : ∀ (i : Nat) w, dualWrists[i]? = some w → UsableImage (exampleFinder dualView) ⟨⟨[3, 4, 5], dualWrists⟩, ⟨1, 1, 0, 0⟩, stCam 1⟩ (stCam 1) (shiftBy 10 10 10) i w :=
    fun i w hw => by have := dual_usable (c := 1) (i := i) (w := w) (by rw [← hcams]; exact hq0) hw; simpa using this
  have hrig : ∀ t ∈ [stCam 0, stCam 1], RigidMotion t := fun t ht => (stCams_rep t ht).1
  refine ⟨W, fun _ _ => 7, idCeres Pose6, rep, 3, cams, _, [stCam 0, stCam 1], shiftBy 10 10 10, 1, _, stCam 1, 1, 0, 2, 0, quarterX, 1,
    quarterZ, 1, hp, idCeres_wf _, keepsPlain_idCeres, hrep, hk, hset, hw, hrepr, hYr, hrig, (shiftBy_rep _ _ _).1, hcl.symm, htrue, hq0, rfl,
    hu 1 _ rfl, hu 0 _ rfl, hu 2 _ rfl, hu 0 _ rfl, dual_axes, hone, h8, h7, hfront, hz, ?_⟩
  simp only [List.nodup_cons, List.mem_cons, List.not_mem_nil, or_false, not_false_eq_true, List.nodup_nil, and_true]
  intro h
  have := congrArg (fun T : Iso => T.t.z) h
  norm_num [stCam, shiftBy] at this

theorem dual_joint {i : Nat} {e : Iso × List (List Corr2)} (h : JointItem (exampleFinder dualView) dualCams i e) :
    dualWrists[i]? = some e.1 ∧ ∀ (c : Nat) cs, e.2[c]? = some cs → c < 2 ∧ cs = stImage c e.1 := by
  obtain ⟨⟨q, h1, h2⟩, h3⟩ := h
  have hw : dualWrists[i]? = some e.1 := by rw [← h2, (dual_camera h1).2.2.2.1]
  refine ⟨hw, fun c cs hc => ?_⟩
  rw [List.forall₂_iff_get] at h3
  have hl := (List.getElem?_eq_some_iff.1 hc).1
  have hl' : c < dualCams.length := by rw [h3.1]; exact hl
  obtain ⟨m, h4, h5⟩ := h3.2 c hl' hl
  obtain ⟨h6, -, -, -, -, h7⟩ := dual_camera (List.getElem?_eq_getElem hl')
  obtain ⟨h8, rfl⟩ := h7 i m h4
  refine ⟨h6, ?_⟩
  rw [← dual_view h8 hw, ← (dual_seen _ _).1 h5]
  exact (List.getElem?_eq_some_iff.1 hc).2.symm

theorem dual_item {i : Nat} {w : Iso} (hw : dualWrists[i]? = some w) :
    JointItem (exampleFinder dualView) dualCams i (w, [stImage 0 w, stImage 1 w]) := by
  have key : ∀ (c : Nat) q, dualCams[c]? = some q → ∃ m, q.data.images[i]? = some m ∧
      Seen (exampleFinder dualView).find (exampleFinder dualView).create (exampleFinder dualView).draw m (stImage c w) := by
    intro c q hq
    obtain ⟨cs, ⟨m, h1, h2, h3⟩, -⟩ := dual_usable hq hw
    refine ⟨m, h1, ?_⟩
    obtain ⟨-, -, -, -, -, h7⟩ := dual_camera hq
    obtain ⟨h8, rfl⟩ := h7 i m h1
    exact (dual_seen _ _).2 (dual_view h8 hw).symm
  refine ⟨⟨_, rfl, hw⟩, .cons ?_ (.cons ?_ .nil)⟩
  · have := key 0 _ rfl; simpa using this
  · have := key 1 _ rfl; simpa using this

theorem dual_usable_joint {c i : Nat} (hc : c < 2) {w : Iso} (hw : dualWrists[i]? = some w) :
    UsableJoint (exampleFinder dualView) dualCams [stCam 0, stCam 1] (shiftBy 10 10 10) c i w := by
  have hq : dualCams[c]? = some (dualCams[c]'hc) := List.getElem?_eq_getElem _
  refine ⟨_, _, stCam c, stImage c w, dual_item hw, rfl, hq, (dual_camera hq).2.2.2.2.1, ?_, ?_⟩
  · interval_cases c <;> simp
  · rw [(dual_camera hq).2.1]
    exact dual_good (List.mem_of_getElem? hw)

theorem dual_true_joint : TrueJoint (exampleFinder dualView) dualCams [stCam 0, stCam 1] (shiftBy 10 10 10) := by
  intro i e he c q P cs hq hP hcs
  obtain ⟨h1, h2⟩ := dual_joint he
  obtain ⟨-, rfl⟩ := h2 c cs hcs
  obtain ⟨-, h5, -, -, h7, -⟩ := dual_camera hq
  rw [hP] at h7; cases h7
  rw [h5]
  exact dual_true (List.mem_of_getElem? h1)

theorem dual_target_rep {w : Iso} (hw : w ∈ dualWrists) : Representable (w * shiftBy 10 10 10) := by
  have e : (w * shiftBy 10 10 10).R = w.R := by
    show w.R * (1 : M3) = w.R
    rw [M3.mul_one]
  have h := stWrist_rep hw
  refine ⟨(rigid_iff _).1 (h.rigid.mul (shiftBy_rep _ _ _).rigid), ?_⟩
  rw [e]
  exact h.2

/-- A run of the tool with two steps and the same two cameras, started at the truth. -/
theorem dual_step_run : ∃ rep : MultiStepReport Nat, multiStepMain dualWorld (fun _ _ => 7) (idCeres Pose6) = .ok (some rep) ∧
    ReportsCameras rep.cameras [stCam 0, stCam 1] ∧ ReportsCameras rep.corrected [stCam 0, stCam 1] ∧
    rep.wristToTarget = printTransform (shiftBy 10 10 10) ∧ rep.camerasOpt.final = some 0 ∧ rep.wristOpt.final = some 0 ∧
    (∀ Y, PoseParam (dualWorld.param "wrist_to_target_guess") Y → Representable Y ∧
      ∀ i e, JointItem (exampleFinder dualView) dualCams i e → Representable (e.1 * Y)) ∧
    InFrontJoint (exampleFinder dualView) dualCams [stCam 0, stCam 1] (shiftBy 10 10 10) ∧
    (∀ items p r, (∃ fix Y js, PoseParam (dualWorld.param "wrist_to_target_guess") Y ∧
        SelectedAt 3 (JointItem (exampleFinder dualView) dualCams) js items ∧ CameraStep dualCams fix Y items p) →
      cameraOnly (idCeres Pose6) p = .ok r →
      ∀ (c m : Nat) P G e cs, [stCam 0, stCam 1][c]? = some P → r.baseToTarget[m]? = some G → items[m]? = some e → e.2[c]? = some cs →
        ∀ f ∈ cs, 0 < ((P.inv * G).apply f.inTarget).z) := by
  have ho := dualWorld_orderly
  have hp := dualWorld_proper
  have hset := dualWorld_setup
  have hY := dualWorld_target
  have hfix : dualWorld.param "fix_first_camera" = some (.bool true) := rfl
  obtain ⟨cams, hcams⟩ : ∃ cams, cams = dualCams := ⟨_, rfl⟩
  obtain ⟨W, hW⟩ : ∃ W, W = dualWorld := ⟨_, rfl⟩
  rw [← hW] at ho hp hset hY hfix
  rw [← hcams] at hset
  have hne : cams ≠ [] := by rw [hcams]; simp [dualCams]
  have hcl : cams.length = 2 := by rw [hcams]; rfl
  have hk : ∀ (c : Nat) d, DataParam W (W.param ("camera_" ++ toString c ++ "/data_path")) d → d.images.length = 3 := by
    rw [hW]; exact dualWorld_images
  have hrepr : ∀ q ∈ cams, Representable q.pose := by rw [hcams]; exact fun q hq => dual_pose hq
  have hjw : ∀ i e, JointItem (exampleFinder dualView) cams i e → e.1 ∈ dualWrists := by
    rw [hcams]; exact fun i e he => List.mem_of_getElem? (dual_joint he).1
  have hYr : ∀ Y, PoseParam (W.param "wrist_to_target_guess") Y → Representable Y ∧
      ∀ i e, JointItem (exampleFinder dualView) cams i e → Representable (e.1 * Y) := fun Y h => by
    rw [poseParam_unique hp h hY]; exact ⟨shiftBy_rep _ _ _, fun i e he => dual_target_rep (hjw i e he)⟩
  have hw : ∀ q, cams[0]? = some q → ∀ w ∈ q.data.poses, Representable w := by
    intro q hq w hw
    rw [hcams] at hq
    rw [(dual_camera hq).2.2.2.1] at hw
    exact stWrist_rep hw
  have htrue : TrueJoint (exampleFinder dualView) cams [stCam 0, stCam 1] (shiftBy 10 10 10) := by rw [hcams]; exact dual_true_joint
  have hfront : InFrontJoint (exampleFinder dualView) cams [stCam 0, stCam 1] (shiftBy 10 10 10) := by
    intro i e he c P cs hP hcs f hf
    have hc : c < cams.length := by rw [hcl]; exact (List.getElem?_eq_some_iff.1 hP).1
    exact (htrue i e he c _ P cs (List.getElem?_eq_getElem hc) hP hcs f hf).1
  have hu : ∀ (c i : Nat) w, c < 2 → dualWrists[i]? = some w →
      UsableJoint (exampleFinder dualView) cams [stCam 0, stCam 1] (shiftBy 10 10 10) c i w := by
    rw [hcams]; exact fun c i w hc hw => dual_usable_joint hc hw
  have hcg : (cams.map fun q => q.pose) = [stCam 0, stCam 1] := by rw [hcams]; rfl
  -- the first step keeps the guesses
  have hfirst : ∀ items p r, (∃ fix Y js, PoseParam (W.param "wrist_to_target_guess") Y ∧
      SelectedAt 3 (JointItem (exampleFinder dualView) cams) js items ∧ CameraStep cams fix Y items p) → cameraOnly (idCeres Pose6) p = .ok r →
      r.baseToTarget = items.map (fun e => e.1 * shiftBy 10 10 10) ∧ r.baseToCamera = [stCam 0, stCam 1] ∧ items ≠ [] := by
    rintro items p r ⟨fix, Y, js, h1, h2, h3⟩ h4
    obtain rfl := poseParam_unique hp h1 hY
    have hi : items ≠ [] := by
      rintro rfl
      have h0 : JointItem (exampleFinder dualView) cams 0 (1, [stImage 0 1, stImage 1 1]) := by rw [hcams]; exact dual_item rfl
      obtain ⟨m, hm⟩ := h2.place (fun _ _ _ => jointItem_unique) (i := 0) (by norm_num) h0
      simp at hm
    obtain ⟨g1, g2⟩ := C34_camera_only (idCeres Pose6) p r (fun _ _ => rfl) (by rw [h3.targetGuess]; simpa using hi)
      (by
        rw [h3.targetGuess]
        intro g hg
        obtain ⟨e, he, rfl⟩ := List.mem_map.1 hg
        obtain ⟨j, -, hj⟩ := Forall₂.mem_right h2.2.2 he
        exact (hYr _ h1).2 j e hj) (by rw [h3.cameraGuess]; simpa using hrepr) h4
    exact ⟨by rw [g1, h3.targetGuess], by rw [g2, h3.cameraGuess, hcg], hi⟩
  have hdepth : ∀ items p r, (∃ fix Y js, PoseParam (W.param "wrist_to_target_guess") Y ∧
      SelectedAt 3 (JointItem (exampleFinder dualView) cams) js items ∧ CameraStep cams fix Y items p) → cameraOnly (idCeres Pose6) p = .ok r →
      ∀ (c m : Nat) P G e cs, [stCam 0, stCam 1][c]? = some P → r.baseToTarget[m]? = some G → items[m]? = some e → e.2[c]? = some cs →
        ∀ f ∈ cs, 0 < ((P.inv * G).apply f.inTarget).z := by
    intro items p r h1 h2 c m P G e cs hP hG he hcs f hf
    rw [(hfirst items p r h1 h2).1, List.getElem?_map, he] at hG
    cases hG
    obtain ⟨fix, Y, js, -, h4, -⟩ := h1
    obtain ⟨j, hj⟩ := h4.item he
    exact hfront j e hj c P cs hP hcs f hf
  obtain ⟨rep, hrun⟩ := multiStep_tail (orderlyFinder_of ho hset.finder) (fun _ _ => 7) (idCeres Pose6) true (shiftBy 10 10 10) hne hset.images
    (setup_poses hset.camera)
  have hrep : multiStepMain W (fun _ _ => 7) (idCeres Pose6) = .ok (some rep) := by
    unfold multiStepMain
    rw [toolExit_ok, (cameraCount_ok_iff _ _).2 hset.count, Res.ok_bind,
      (loadCameras_ok_iff W hp _ (C106_partial W.codec W.fs · |>.2) _ _ _).2 ⟨rfl, hset.camera⟩, Res.ok_bind,
      (getBool_ok_iff _ _).2 hfix, Res.ok_bind, (loadFinder_ok_iff W _).2 hset.finder, Res.ok_bind, (needPose_ok_iff hp _ _).2 hY,
      Res.ok_bind]
    exact hrun
  obtain ⟨cams', F', fix, Y', js, items, pc, rc, pw, rw', h1, h2, h3, h4, h5, h6, h7, h8, h9, h10, h11, h12, h13, h14, h15⟩ :=
    C186_multi_step W hp _ _ rep hrep 3 hk
  obtain ⟨rfl, rfl⟩ := setup_unique hp h1 hset
  obtain rfl := poseParam_unique hp h3 hY
  obtain ⟨e1, e2, hi⟩ := hfirst items pc rc ⟨fix, _, js, h3, h4, h5⟩ h6
  obtain ⟨e3, e4⟩ := C34_wrist_only (idCeres Pose6) pw rw' (fun _ _ => rfl) (by rw [h10.targetGuess]; exact shiftBy_rep _ _ _) h11
  rw [e2] at h9
  rw [e4, h10.cameraGuess, e2] at h15
  rw [e3, h10.targetGuess] at h14
  have hrig : ∀ t ∈ [stCam 0, stCam 1], RigidMotion t := fun t ht => (stCams_rep t ht).1
  have hsame : SameRelative [stCam 0, stCam 1] [stCam 0, stCam 1] := by
    unfold SameRelative
    rw [List.forall₂_same]
    intro t _ a0 t0 h h'
    rw [h] at h'; cases h'; rfl
  have hz := C189_second_step W hp (fun _ _ => 7) (idCeres Pose6) keepsPlain_idCeres rep hrep 3 cams' _ hk hset hw hrepr hYr
    [stCam 0, stCam 1] (shiftBy 10 10 10) hrig (shiftBy_rep _ _ _).1 hcl.symm htrue _ stCams_rep h9 hsame 0 1 1 0 1 2 1 0 quarterX 1 quarterZ 1
    (hu 0 1 _ (by norm_num) rfl) (hu 1 0 _ (by norm_num) rfl) (hu 1 2 _ (by norm_num) rfl) (hu 1 0 _ (by norm_num) rfl) dual_axes _ _ hrig
    (shiftBy_rep _ _ _).1 h15 h14 hfront
  have hgl : pc.baseToCameraGuess.length = cams'.length := by rw [h5.cameraGuess, List.length_map]
  have htl : pc.baseToTargetGuess.length = items.length := by rw [h5.targetGuess, List.length_map]
  have hfeat : ∀ f ∈ byImage pc.observations pc.baseToCameraGuess.length pc.baseToTargetGuess.length,
      0 < staticDepth (rc.baseToCamera.getD f.cam 1) (rc.baseToTarget.getD f.img 1) f.corr ∧ f.corr.inImage =
        pinhole (pc.intr.getD f.cam ⟨0, 0, 0, 0⟩) (((rc.baseToCamera.getD f.cam 1).inv * rc.baseToTarget.getD f.img 1).apply f.corr.inTarget) := by
    intro f hf
    obtain ⟨m1, m2, m3⟩ := mem_byImage hf
    rw [hgl] at m1
    rw [htl] at m2
    obtain ⟨i, e, cs, g1, g2, g3, g4⟩ := joint_obs h4 h5.images m1 m2
    rw [g4] at m3
    have hP : [stCam 0, stCam 1][f.cam]? = some ([stCam 0, stCam 1][f.cam]'(by rw [hcl] at m1; exact m1)) := List.getElem?_eq_getElem _
    have := htrue i e g2 f.cam _ _ cs (List.getElem?_eq_getElem m1) hP g3 f.corr m3
    rw [e2, e1, getD_of_some hP, getD_of_some (l := items.map fun e => e.1 * shiftBy 10 10 10) (a := e.1 * shiftBy 10 10 10) (by rw [List.getElem?_map, g1]; rfl),
      h5.intr, getD_of_some (l := cams'.map fun q => q.intr) (a := cams'[f.cam].intr) (by rw [List.getElem?_map, List.getElem?_eq_getElem m1]; rfl)]
    exact this
  have hc0 : rep.camerasOpt.final = some 0 := by
    rw [h8.final, C126_camera_only_final (idCeres Pose6) (idCeres_wf _) pc rc h6 (by
      intro _ g hg
      rw [h5.cameraGuess, hcg] at hg
      exact stCams_rep g (List.mem_of_getElem? hg)) (by rw [h5.targetGuess]; simpa using hi) (by rw [e2]; exact hrig)
      (fun f hf => (hfeat f hf).1.ne')]
    have : meanCost (staticErrors pc.intr rc.baseToCamera (fun _ i => rc.baseToTarget.getD i 1)
        (byImage pc.observations pc.baseToCameraGuess.length pc.baseToTargetGuess.length)) = some 0 := by
      rw [meanCost_eq_zero_iff]
      constructor
      · have hl : 0 < items.length := List.length_pos_of_ne_nil hi
        obtain ⟨i, e, cs, g1, g2, g3, g4⟩ := joint_obs h4 h5.images (c := 0) (m := 0) (by omega) hl
        rw [hcams] at g2
        obtain ⟨-, rfl⟩ := (dual_joint g2).2 0 cs g3
        intro hnil
        unfold staticErrors at hnil
        rw [List.flatMap_eq_nil_iff] at hnil
        have hmem := byImage_mem (obs := pc.observations) (cams := pc.baseToCameraGuess.length) (images := pc.baseToTargetGuess.length) (c := 0) (i := 0)
          (k := ⟨pinhole ⟨1, 1, 0, 0⟩ (((stCam (0 : Nat)).inv * (e.1 * shiftBy 10 10 10)).apply ⟨0, 0, 0⟩), ⟨0, 0, 0⟩⟩) (by omega) (by omega)
          (by rw [g4]; exact List.mem_map.2 ⟨⟨0, 0, 0⟩, by simp [squarePoints], rfl⟩)
        have := hnil _ hmem
        simp [staticError, diff2] at this
      · unfold staticErrors
        rw [flatMap_zero]
        exact fun f hf => diff2_zero.2 (hfeat f hf).2.symm
    rw [this]
    simp
  rw [hW] at hrep hYr hdepth
  rw [hcams] at hYr hfront hdepth
  exact ⟨rep, hrep, h9, h15, h14, hc0, hz.2 ⟨rfl, rfl⟩, hYr, hfront, hdepth⟩

/-- The tool with two steps and the same two cameras: all hypotheses of `C189_first_step` and `C189_second_step`, and the errors
printed after both steps are zero. -/
example : ∃ (W : ToolWorld Nat) (junk : Nat → Nat → Nat) (s : Ceres Pose6) (rep : MultiStepReport Nat) (k : Nat)
    (cams : List (CameraParams Nat)) (F : Finder Nat) (T : List Iso) (Y : Iso) (xa a xb b xc c xd d : Nat)
    (Ta Tb Tc Td : Iso), ProperParams W.param ∧ s.WF ∧ KeepsPlain s ∧ multiStepMain W junk s = .ok (some rep) ∧
    (∀ (c : Nat) d, DataParam W (W.param ("camera_" ++ toString c ++ "/data_path")) d → d.images.length = k) ∧
    CamerasSetup W "base_to_camera_guess" cams k F ∧ (∀ q, cams[0]? = some q → ∀ w ∈ q.data.poses, Representable w) ∧
    (∀ q ∈ cams, Representable q.pose) ∧
    (∀ Y, PoseParam (W.param "wrist_to_target_guess") Y → Representable Y ∧ ∀ i e, JointItem F cams i e → Representable (e.1 * Y)) ∧
    (∀ t ∈ T, Representable t) ∧ RigidMotion Y ∧ T.length = cams.length ∧ TrueJoint F cams T Y ∧
    (∀ c, c < cams.length → ∃ i w, UsableJoint F cams T Y 0 i w ∧ UsableJoint F cams T Y c i w) ∧
    UsableJoint F cams T Y xa a Ta ∧ UsableJoint F cams T Y xb b Tb ∧ UsableJoint F cams T Y xc c Tc ∧ UsableJoint F cams T Y xd d Td ∧
    AxesDiffer (wristMotion Ta Tb).R (wristMotion Tc Td).R ∧
    ReportsCameras rep.cameras T ∧ ReportsCameras rep.corrected T ∧ SameRelative T T ∧ rep.wristToTarget = printTransform Y ∧
    InFrontJoint F cams T Y ∧ (∀ items p r, (∃ fix Y js, PoseParam (W.param "wrist_to_target_guess") Y ∧
        SelectedAt k (JointItem F cams) js items ∧ CameraStep cams fix Y items p) → cameraOnly s p = .ok r →
      ∀ (c m : Nat) P G e cs, T[c]? = some P → r.baseToTarget[m]? = some G → items[m]? = some e → e.2[c]? = some cs →
        ∀ f ∈ cs, 0 < ((P.inv * G).apply f.inTarget).z) ∧
    rep.camerasOpt.final = some 0 ∧ rep.wristOpt.final = some 0 ∧ T.Nodup := by
  have ho := dualWorld_orderly
  have hp := dualWorld_proper
  have hset := dualWorld_setup
  have hY := dualWorld_target
  have hfix : dualWorld.param "fix_first_camera" = some (.bool true) := rfl
  obtain ⟨cams, hcams⟩ : ∃ cams, cams = dualCams := ⟨_, rfl⟩
  obtain ⟨W, hW⟩ : ∃ W, W = dualWorld := ⟨_, rfl⟩
  rw [← hW] at ho hp hset hY hfix
  rw [← hcams] at hset
  have hne : cams ≠ [] := by rw [hcams]; simp [dualCams]
  have hcl : cams.length = 2 := by rw [hcams]; rfl
  have hk : ∀ (c : Nat) d, DataParam W (W.param ("camera_" ++ toString c ++ "/data_path")) d → d.images.length = 3 := by
    rw [hW]; exact dualWorld_images
  have hrepr : ∀ q ∈ cams, Representable q.pose := by rw [hcams]; exact fun q hq => dual_pose hq
  have hjw : ∀ i e, JointItem (exampleFinder dualView) cams i e → e.1 ∈ dualWrists := by
    rw [hcams]; exact fun i e he => List.mem_of_getElem? (dual_joint he).1
  have hYr : ∀ Y, PoseParam (W.param "wrist_to_target_guess") Y → Representable Y ∧
      ∀ i e, JointItem (exampleFinder dualView) cams i e → Representable (e.1 * Y) := fun Y h => by
    rw [poseParam_unique hp h hY]; exact ⟨shiftBy_rep _ _ _, fun i e he => dual_target_rep (hjw i e he)⟩
  have hw : ∀ q, cams[0]? = some q → ∀ w ∈ q.data.poses, Representable w := by
    intro q hq w hw
    rw [hcams] at hq
    rw [(dual_camera hq).2.2.2.1] at hw
    exact stWrist_rep hw
  have htrue : TrueJoint (exampleFinder dualView) cams [stCam 0, stCam 1] (shiftBy 10 10 10) := by rw [hcams]; exact dual_true_joint
  have hfront : InFrontJoint (exampleFinder dualView) cams [stCam 0, stCam 1] (shiftBy 10 10 10) := by
    intro i e he c P cs hP hcs f hf
    have hc : c < cams.length := by rw [hcl]; exact (List.getElem?_eq_some_iff.1 hP).1
    exact (htrue i e he c _ P cs (List.getElem?_eq_getElem hc) hP hcs f hf).1
  have hu : ∀ (c i : Nat) w, c < 2 → dualWrists[i]? = some w →
      UsableJoint (exampleFinder dualView) cams [stCam 0, stCam 1] (shiftBy 10 10 10) c i w := by
    rw [hcams]; exact fun c i w hc hw => dual_usable_joint hc hw
  have hcg : (cams.map fun q => q.pose) = [stCam 0, stCam 1] := by rw [hcams]; rfl
  obtain ⟨rep, hrep, h9, h15, h14, hc0, hz, -, -, hdepth⟩ := dual_step_run
  rw [← hW] at hrep hdepth
  rw [← hcams] at hdepth
  have hsame : SameRelative [stCam 0, stCam 1] [stCam 0, stCam 1] := by
    unfold SameRelative
    rw [List.forall₂_same]
    intro t _ a0 t0 h h'
    rw [h] at h'; cases h'; rfl
  refine ⟨W, fun _ _ => 7, idCeres Pose6, rep, 3, cams, _, [stCam 0, stCam 1], shiftBy 10 10 10, 0, 1, 1, 0, 1, 2, 1, 0, quarterX, 1,
    quarterZ, 1, hp, idCeres_wf _, keepsPlain_idCeres, hrep, hk, hset, hw, hrepr, hYr, stCams_rep, (shiftBy_rep _ _ _).1, hcl.symm, htrue,
    fun c hc => ⟨0, 1, hu 0 0 _ (by norm_num) rfl, hu c 0 _ (by omega) rfl⟩,
    hu 0 1 _ (by norm_num) rfl, hu 1 0 _ (by norm_num) rfl, hu 1 2 _ (by norm_num) rfl, hu 1 0 _ (by norm_num) rfl, dual_axes, h9, h15, hsame,
    h14, hfront, hdepth, hc0, hz, ?_⟩
  simp only [List.nodup_cons, List.mem_cons, List.not_mem_nil, or_false, not_false_eq_true, List.nodup_nil, and_true]
  intro h
  have := congrArg (fun T : Iso => T.t.z) h
  norm_num [stCam, shiftBy] at this

end RCT
