import Verif.Spec.IdentifyStatic
import Verif.Props.Identify
import Verif.Props.StaticCameras
import Verif.Props.Reports

/-!
# C177 – C179: data that determine the poses of static cameras and the mounting of the target
-/

namespace RCT
open Spec

theorem rigid_getD {l : List Iso} (h : ∀ t ∈ l, RigidMotion t) (n : Nat) : (l.getD n 1).IsRigid := by
  rw [List.getD_eq_getElem?_getD]
  cases hn : l[n]? with
  | none => exact Iso.IsRigid.one
  | some t => exact (rigid_iff _).2 (h t (List.mem_of_getElem? hn))

theorem byCamera_mem {obs : List (List (List Corr2))} {cams c i : Nat} {images : Nat → Nat} {k : Corr2} (hc : c < cams)
    (hi : i < images c) (hk : k ∈ (obs.getD c []).getD i []) : (⟨c, i, k⟩ : Feature) ∈ byCamera obs cams images :=
  List.mem_flatMap.2 ⟨c, List.mem_range.2 hc, List.mem_flatMap.2 ⟨i, List.mem_range.2 hi, List.mem_map.2 ⟨k, hk, rfl⟩⟩⟩

theorem mem_byCamera {obs : List (List (List Corr2))} {cams : Nat} {images : Nat → Nat} {f : Feature}
    (h : f ∈ byCamera obs cams images) : f.cam < cams ∧ f.img < images f.cam ∧ f.corr ∈ (obs.getD f.cam []).getD f.img [] := by
  obtain ⟨c, hc, h⟩ := List.mem_flatMap.1 h
  obtain ⟨i, hi, h⟩ := List.mem_flatMap.1 h
  obtain ⟨k, hk, rfl⟩ := List.mem_map.1 h
  exact ⟨List.mem_range.1 hc, List.mem_range.1 hi, hk⟩

/-- One good image determines the pose of the target in the camera. -/
theorem goodView_unique {intr : Intr} {C T C' T' : Iso} (hC : C.IsRigid) (hT : T.IsRigid) (hC' : C'.IsRigid) (hT' : T'.IsRigid)
    {ks : List Corr2} (hv : GoodView intr C T ks) (h : ∀ k ∈ ks, ∀ e ∈ staticError intr C T k, e = 0)
    (h' : ∀ k ∈ ks, ∀ e ∈ staticError intr C' T' k, e = 0) (hz : ∀ k ∈ ks, 0 < staticDepth C T k)
    (hz' : ∀ k ∈ ks, 0 < staticDepth C' T' k) : C'.inv * T' = C.inv * T := by
  obtain ⟨⟨ka, ma, kb, mb, kc, mc, kd, md, hq⟩, hfx, hfy, hcam⟩ := hv
  have hk : ∀ k ∈ ks, (C'.inv * T').apply k.inTarget =
      V3.smul (((C'.inv * T').apply k.inTarget).z / ((C.inv * T).apply k.inTarget).z) ((C.inv * T).apply k.inTarget) := by
    intro k hk
    exact pinhole_same hfx hfy (hz' k hk).ne' (hz k hk).ne' ((diff2_zero.1 (h' k hk)).trans (diff2_zero.1 (h k hk)).symm)
  exact planar_unique (hC'.inv.mul hT') (hC.inv.mul hT) hq hcam (div_pos (hz' _ ma) (hz _ ma)) (hk _ ma) (hk _ mb) (hk _ mc) (hk _ md)

/-- The wrist motions of four images determine a camera and the mounting of the target. -/
theorem wrist_unique {C Y C' Y' : Iso} (hC : C.IsRigid) (hC' : C'.IsRigid) (hY' : Y'.IsRigid) {a b c d : Iso}
    (hrig : ∀ w ∈ [a, b, c, d], w.IsRigid) (hax : AxesDiffer (wristMotion a b).R (wristMotion c d).R)
    (h : ∀ w ∈ [a, b, c, d], C'.inv * (w * Y') = C.inv * (w * Y)) : C' = C ∧ Y' = Y := by
  have hm : ∀ v w : Iso, mountMotion (⟨[], 1, v⟩ : Obs Corr2) ⟨[], 1, w⟩ = wristMotion v w := by
    intro v w
    simp only [mountMotion, wristMotion, Iso.inv_one, Iso.one_mul]
  refine handEye_unique (κ := Corr2) (a := ⟨[], 1, a⟩) (b := ⟨[], 1, b⟩) (c := ⟨[], 1, c⟩) (d := ⟨[], 1, d⟩) hC hC' hY' ?_ ?_ ?_
  · intro o ho
    simp only [List.mem_cons, List.not_mem_nil, or_false] at ho
    rcases ho with rfl | rfl | rfl | rfl <;> exact ⟨.one, hrig _ (by simp)⟩
  · rw [hm, hm]; exact hax
  · intro o ho
    simp only [List.mem_cons, List.not_mem_nil, or_false] at ho
    rcases ho with rfl | rfl | rfl | rfl <;>
      simpa only [poseInCamera, Iso.inv_one, Iso.one_mul] using h _ (by simp)

theorem inv_cancel {A B T : Iso} (hA : A.IsRigid) (hB : B.IsRigid) (hT : T.IsRigid) (h : A.inv * T = B.inv * T) : A = B := by
  have h1 := congrArg (fun P => (P * T.inv).inv) h
  simpa only [Iso.mul_assoc, Iso.mul_inv hT, Iso.mul_one, Iso.inv_inv hA, Iso.inv_inv hB] using h1

/-! ## C177 Cameras and target mount -/

/-- Perfect images of a planar target on the wrist. If one camera took four good images between which the wrist turned about two
different axes, and the other cameras one good image each, the final cost is zero exactly if the true mounting of the target
and the true poses of all cameras are reported. -/
theorem C177_unique (s : Ceres Pose6) (p : MsProblem) (res : MsResult) (h : multiStatic s p = .ok res)
    (hw : ∀ wp ∈ p.wristPoses, ∀ w ∈ wp, Representable w) (hr : ∀ c ∈ res.baseToCamera, RigidMotion c)
    (hrt : RigidMotion res.wristToTarget) (cams : List Iso) (Y : Iso) (hcams : ∀ c ∈ cams, RigidMotion c) (hY : RigidMotion Y)
    (hlen : cams.length = p.baseToCameraGuess.length)
    (hdata : ∀ f ∈ byCamera p.observations p.baseToCameraGuess.length fun c => (p.wristPoses.getD c []).length,
      f.corr.inImage = pinhole (p.intr.getD f.cam ⟨0, 0, 0, 0⟩)
        (((cams.getD f.cam 1).inv * ((p.wristPoses.getD f.cam []).getD f.img 1 * Y)).apply f.corr.inTarget))
    (hz : ∀ f ∈ byCamera p.observations p.baseToCameraGuess.length fun c => (p.wristPoses.getD c []).length,
      0 < staticDepth (cams.getD f.cam 1) ((p.wristPoses.getD f.cam []).getD f.img 1 * Y) f.corr)
    (hz' : ∀ f ∈ byCamera p.observations p.baseToCameraGuess.length fun c => (p.wristPoses.getD c []).length,
      0 < staticDepth (res.baseToCamera.getD f.cam 1) ((p.wristPoses.getD f.cam []).getD f.img 1 * res.wristToTarget) f.corr)
    (x a b c d : Nat) (hx : x < p.baseToCameraGuess.length)
    (hfour : ∀ i ∈ [a, b, c, d], i < (p.wristPoses.getD x []).length ∧ GoodView (p.intr.getD x ⟨0, 0, 0, 0⟩) (cams.getD x 1)
      ((p.wristPoses.getD x []).getD i 1 * Y) ((p.observations.getD x []).getD i []))
    (hax : AxesDiffer (wristMotion ((p.wristPoses.getD x []).getD a 1) ((p.wristPoses.getD x []).getD b 1)).R
      (wristMotion ((p.wristPoses.getD x []).getD c 1) ((p.wristPoses.getD x []).getD d 1)).R)
    (hone : ∀ y, y < p.baseToCameraGuess.length → ∃ i, i < (p.wristPoses.getD y []).length ∧
      GoodView (p.intr.getD y ⟨0, 0, 0, 0⟩) (cams.getD y 1) ((p.wristPoses.getD y []).getD i 1 * Y)
        ((p.observations.getD y []).getD i [])) :
    res.finalCost = some 0 ↔ res.wristToTarget = Y ∧ res.baseToCamera = cams := by
  rw [C126_multi_final s p res h hw hr (fun f hf => (hz' f hf).ne'), meanCost_eq_zero_iff, staticErrors, flatMap_zero]
  have rW : ∀ y i : Nat, ((p.wristPoses.getD y []).getD i 1).IsRigid := by
    intro y i
    refine rigid_getD (fun w hw' => ?_) i
    rw [List.getD_eq_getElem?_getD] at hw'
    cases hy : p.wristPoses[y]? with
    | none => rw [hy] at hw'; simp at hw'
    | some wp =>
      rw [hy] at hw'
      exact (hw wp (List.mem_of_getElem? hy) w hw').1
  have rY := (rigid_iff _).2 hY
  have rY' := (rigid_iff _).2 hrt
  have hzero : ∀ f ∈ byCamera p.observations p.baseToCameraGuess.length fun c => (p.wristPoses.getD c []).length,
      ∀ e ∈ staticError (p.intr.getD f.cam ⟨0, 0, 0, 0⟩) (cams.getD f.cam 1) ((p.wristPoses.getD f.cam []).getD f.img 1 * Y) f.corr,
        e = 0 := fun f hf => diff2_zero.2 (hdata f hf).symm
  constructor
  · rintro ⟨-, h0⟩
    have key : ∀ y i : Nat, y < p.baseToCameraGuess.length → i < (p.wristPoses.getD y []).length →
        GoodView (p.intr.getD y ⟨0, 0, 0, 0⟩) (cams.getD y 1) ((p.wristPoses.getD y []).getD i 1 * Y)
          ((p.observations.getD y []).getD i []) →
        (res.baseToCamera.getD y 1).inv * ((p.wristPoses.getD y []).getD i 1 * res.wristToTarget) =
          (cams.getD y 1).inv * ((p.wristPoses.getD y []).getD i 1 * Y) := fun y i hy hi hv =>
      goodView_unique (rigid_getD hcams y) ((rW y i).mul rY) (rigid_getD hr y) ((rW y i).mul rY') hv
        (fun k hk => hzero ⟨y, i, k⟩ (byCamera_mem hy hi hk)) (fun k hk => h0 ⟨y, i, k⟩ (byCamera_mem hy hi hk))
        (fun k hk => hz ⟨y, i, k⟩ (byCamera_mem hy hi hk)) (fun k hk => hz' ⟨y, i, k⟩ (byCamera_mem hy hi hk))
    have hyx : res.wristToTarget = Y := by
      refine (wrist_unique (rigid_getD hcams x) (rigid_getD hr x) rY' ?_ hax ?_).2
      · intro w hw'
        simp only [List.mem_cons, List.not_mem_nil, or_false] at hw'
        rcases hw' with rfl | rfl | rfl | rfl <;> exact rW _ _
      · intro w hw'
        simp only [List.mem_cons, List.not_mem_nil, or_false] at hw'
        rcases hw' with rfl | rfl | rfl | rfl <;> exact key x _ hx (hfour _ (by simp)).1 (hfour _ (by simp)).2
    refine ⟨hyx, ?_⟩
    have hl : res.baseToCamera.length = p.baseToCameraGuess.length := by
      unfold multiStatic at h
      simp only [Res.bind_ok_iff] at h
      obtain ⟨pb, -, cov, -, h⟩ := h
      cases h
      simp
    refine List.ext_getElem (hl.trans hlen.symm) fun y h1 h2 => ?_
    obtain ⟨i, hi, hv⟩ := hone y (hl ▸ h1)
    have hk := key y i (hl ▸ h1) hi hv
    rw [hyx] at hk
    have hk := inv_cancel (rigid_getD hr y) (rigid_getD hcams y) ((rW y i).mul rY) hk
    rwa [getD_of_some (List.getElem?_eq_getElem h1), getD_of_some (List.getElem?_eq_getElem h2)] at hk
  · rintro ⟨h1, h2⟩
    rw [h1, h2]
    refine ⟨?_, hzero⟩
    obtain ⟨hi, ⟨u, hu, -⟩, -⟩ := hfour a (by simp)
    intro h0
    have := List.flatMap_eq_nil_iff.1 h0 _ (byCamera_mem (images := fun c => (p.wristPoses.getD c []).length) hx hi hu)
    simp [staticError, diff2] at this

/-! ## C178 Common correction of all cameras -/

theorem wo_correction {s : Ceres Pose6} {p : WoProblem} {res : WoResult} (h : wristOnly s p = .ok res) :
    ∃ D : Iso, res.baseToCamera = p.baseToCameraGuess.map fun g => D * g := by
  unfold wristOnly at h
  rw [Res.bind_ok_iff] at h
  obtain ⟨pb, -, h⟩ := h
  cases h
  exact ⟨_, rfl⟩

/-- Perfect images of a planar target on the wrist, taken by cameras whose guesses are right relative to each other (the true
poses are the guesses moved by `B`). If four good images, of any of the cameras, show two turns of the wrist about different
axes, the final cost is zero exactly if the true mounting of the target and the true poses of all cameras are reported. -/
theorem C178_unique (s : Ceres Pose6) (p : WoProblem) (res : WoResult) (h : wristOnly s p = .ok res)
    (hw : ∀ w ∈ p.wristPoses, Representable w) (hg : ∀ g ∈ p.baseToCameraGuess, Representable g)
    (hr : ∀ c ∈ res.baseToCamera, RigidMotion c) (hrt : RigidMotion res.wristToTarget) (B Y : Iso) (hB : RigidMotion B)
    (hY : RigidMotion Y)
    (hdata : ∀ f ∈ byCamera p.observations p.baseToCameraGuess.length fun _ => p.wristPoses.length,
      f.corr.inImage = pinhole (p.intr.getD f.cam ⟨0, 0, 0, 0⟩)
        (((B * p.baseToCameraGuess.getD f.cam 1).inv * (p.wristPoses.getD f.img 1 * Y)).apply f.corr.inTarget))
    (hz : ∀ f ∈ byCamera p.observations p.baseToCameraGuess.length fun _ => p.wristPoses.length,
      0 < staticDepth (B * p.baseToCameraGuess.getD f.cam 1) (p.wristPoses.getD f.img 1 * Y) f.corr)
    (hz' : ∀ f ∈ byCamera p.observations p.baseToCameraGuess.length fun _ => p.wristPoses.length,
      0 < staticDepth (res.baseToCamera.getD f.cam 1) (p.wristPoses.getD f.img 1 * res.wristToTarget) f.corr)
    (xa a xb b xc c xd d : Nat)
    (hfour : ∀ v ∈ [(xa, a), (xb, b), (xc, c), (xd, d)], v.1 < p.baseToCameraGuess.length ∧ v.2 < p.wristPoses.length ∧
      GoodView (p.intr.getD v.1 ⟨0, 0, 0, 0⟩) (B * p.baseToCameraGuess.getD v.1 1) (p.wristPoses.getD v.2 1 * Y)
        ((p.observations.getD v.1 []).getD v.2 []))
    (hax : AxesDiffer (wristMotion (p.wristPoses.getD a 1) (p.wristPoses.getD b 1)).R
      (wristMotion (p.wristPoses.getD c 1) (p.wristPoses.getD d 1)).R) :
    res.finalCost = some 0 ↔ res.wristToTarget = Y ∧ res.baseToCamera = p.baseToCameraGuess.map (B * ·) := by
  rw [C126_wrist_only_final s p res h hw hg hr (fun f hf => (hz' f hf).ne'), meanCost_eq_zero_iff, staticErrors, flatMap_zero]
  obtain ⟨D, hD⟩ := wo_correction h
  have rW : ∀ i : Nat, (p.wristPoses.getD i 1).IsRigid := rigid_getD fun w hw' => (hw w hw').1
  have rG : ∀ y : Nat, (p.baseToCameraGuess.getD y 1).IsRigid := rigid_getD fun w hw' => (hg w hw').1
  have rY := (rigid_iff _).2 hY
  have rY' := (rigid_iff _).2 hrt
  have rB := (rigid_iff _).2 hB
  have getC : ∀ (E : Iso) (y : Nat), y < p.baseToCameraGuess.length →
      (p.baseToCameraGuess.map fun g => E * g).getD y 1 = E * p.baseToCameraGuess.getD y 1 := by
    intro E y hy
    have e1 : p.baseToCameraGuess[y]? = some p.baseToCameraGuess[y] := List.getElem?_eq_getElem hy
    have e2 : (p.baseToCameraGuess.map fun g => E * g)[y]? = some (E * p.baseToCameraGuess[y]) := by simp [hy]
    rw [getD_of_some e1, getD_of_some e2]
  have hzero : ∀ f ∈ byCamera p.observations p.baseToCameraGuess.length fun _ => p.wristPoses.length,
      ∀ e ∈ staticError (p.intr.getD f.cam ⟨0, 0, 0, 0⟩) (B * p.baseToCameraGuess.getD f.cam 1) (p.wristPoses.getD f.img 1 * Y) f.corr,
        e = 0 := fun f hf => diff2_zero.2 (hdata f hf).symm
  have rD : D.IsRigid := by
    have hx := (hfour _ (List.mem_cons_self ..)).1
    have h1 : (D * p.baseToCameraGuess.getD xa 1).IsRigid := by
      rw [← getC D xa hx, ← hD]; exact rigid_getD hr xa
    have h2 := h1.mul (rG xa).inv
    rwa [Iso.mul_assoc, Iso.mul_inv (rG xa), Iso.mul_one] at h2
  constructor
  · rintro ⟨-, h0⟩
    have key : ∀ v ∈ [(xa, a), (xb, b), (xc, c), (xd, d)],
        D.inv * (p.wristPoses.getD v.2 1 * res.wristToTarget) = B.inv * (p.wristPoses.getD v.2 1 * Y) := by
      intro v hv
      obtain ⟨hy, hi, hv⟩ := hfour v hv
      have hm : ∀ k ∈ (p.observations.getD v.1 []).getD v.2 [], (⟨v.1, v.2, k⟩ : Feature) ∈
          byCamera p.observations p.baseToCameraGuess.length fun _ => p.wristPoses.length := fun k hk => byCamera_mem hy hi hk
      have e : res.baseToCamera.getD v.1 1 = D * p.baseToCameraGuess.getD v.1 1 := by rw [hD, getC D _ hy]
      have := goodView_unique (rB.mul (rG v.1)) ((rW v.2).mul rY) (rD.mul (rG v.1)) ((rW v.2).mul rY') hv
        (fun k hk => hzero ⟨v.1, v.2, k⟩ (hm k hk)) (fun k hk => by have := h0 ⟨v.1, v.2, k⟩ (hm k hk); rwa [e] at this)
        (fun k hk => hz ⟨v.1, v.2, k⟩ (hm k hk)) (fun k hk => by have := hz' ⟨v.1, v.2, k⟩ (hm k hk); rwa [e] at this)
      rw [Iso.mul_inv_rev rD, Iso.mul_inv_rev rB, Iso.mul_assoc, Iso.mul_assoc] at this
      have := congrArg (p.baseToCameraGuess.getD v.1 1 * ·) this
      simpa only [Iso.mul_inv_cancel_left (rG v.1)] using this
    have hu := wrist_unique rB rD rY' (a := p.wristPoses.getD a 1) (b := p.wristPoses.getD b 1) (c := p.wristPoses.getD c 1)
      (d := p.wristPoses.getD d 1) (Y := Y) ?_ hax ?_
    · exact ⟨hu.2, by rw [hD, hu.1]⟩
    · intro w hw'
      simp only [List.mem_cons, List.not_mem_nil, or_false] at hw'
      rcases hw' with rfl | rfl | rfl | rfl <;> exact rW _
    · intro w hw'
      simp only [List.mem_cons, List.not_mem_nil, or_false] at hw'
      rcases hw' with rfl | rfl | rfl | rfl
      · exact key (xa, a) (by simp)
      · exact key (xb, b) (by simp)
      · exact key (xc, c) (by simp)
      · exact key (xd, d) (by simp)
  · rintro ⟨h1, h2⟩
    rw [h1]
    obtain ⟨hx, hi, ⟨u, hu, -⟩, -⟩ := hfour (xa, a) (by simp)
    refine ⟨?_, fun f hf => ?_⟩
    · intro h0
      have := List.flatMap_eq_nil_iff.1 h0 _ (byCamera_mem (images := fun _ => p.wristPoses.length) hx hi hu)
      simp [staticError, diff2] at this
    · rw [h2, getC B _ (mem_byCamera hf).1]
      exact hzero f hf

/-! ## Other ends of a run -/

/-- A solver that ends the solution of one problem in another state. -/
noncomputable def Ceres.redirect {β : Type} (c : Ceres β) (pb : List (ResBlock β)) (init st st' : Nat → β) : Ceres β :=
  open Classical in
  { c with
    solve := fun pb' s => if pb' = pb ∧ s = init then st' else c.solve pb' s
    covCompute := fun pb' s l => if s = st' then c.covCompute pb' st l else c.covCompute pb' s l
    covMatrix := fun pb' s l => if s = st' then c.covMatrix pb' st l else c.covMatrix pb' s l }

theorem Ceres.redirect_wf {β : Type} {c : Ceres β} (hc : c.WF) {pb : List (ResBlock β)} {init st st' : Nat → β}
    (hf : ∀ a, a ∉ usedBlocks pb → st' a = init a) (hd : cost pb st' ≤ cost pb init) : (c.redirect pb init st st').WF := by
  classical
  refine ⟨?_, ?_, hc.order_perm, ?_⟩
  · intro pb' s a ha
    simp only [Ceres.redirect]
    split
    · rename_i h; obtain ⟨rfl, rfl⟩ := h; exact hf a ha
    · exact hc.frame pb' s a ha
  · intro pb' s
    simp only [Ceres.redirect]
    split
    · rename_i h; obtain ⟨rfl, rfl⟩ := h; exact hd
    · exact hc.descent pb' s
  · intro pb' s l e
    simp only [Ceres.redirect]
    split <;> exact hc.compute_no_throw _ _ _ _

theorem Ceres.redirect_solve {β : Type} (c : Ceres β) (pb : List (ResBlock β)) (init st st' : Nat → β) :
    (c.redirect pb init st st').solve pb init = st' := by
  classical
  simp [Ceres.redirect]

theorem Ceres.redirect_covSolver {β : Type} (c : Ceres β) (pb : List (ResBlock β)) (init st st' : Nat → β) (n : Nat) :
    (c.redirect pb init st st').covSolver pb st' n = c.covSolver pb st n := by
  classical
  simp [Ceres.redirect, Ceres.covSolver]

/-- Every state not worse than the guesses can be the end of a hand-eye calibration. -/
theorem heFinish_other {κ : Type} {s : Ceres Pose6} (hs : s.WF) {p : HandEyeProblem κ} {pb : List (ResBlock Pose6)} {res : HandEyeResult}
    (h : heFinish s p pb = .ok res) {st' : Nat → Pose6} (hf : ∀ a, a ∉ usedBlocks pb → st' a = heInit p a)
    (hd : cost pb st' ≤ cost pb (heInit p)) :
    ∃ (s' : Ceres Pose6) (res' : HandEyeResult), s'.WF ∧ heFinish s' p pb = .ok res' ∧ res'.finalCost = costPerObs pb st' ∧
      res'.targetMountToTarget = poseCalToEigen (st' heTgt) ∧ res'.cameraMountToCamera = (poseCalToEigen (st' heCam)).inv := by
  unfold heFinish at h
  rw [Res.bind_ok_iff] at h
  obtain ⟨cov, hc, -⟩ := h
  refine ⟨s.redirect pb (heInit p) (s.solve pb (heInit p)) st', ⟨s.converged pb (heInit p), costPerObs pb (heInit p),
    costPerObs pb st', poseCalToEigen (st' heTgt), (poseCalToEigen (st' heCam)).inv, cov⟩, Ceres.redirect_wf hs hf hd, ?_, rfl, rfl, rfl⟩
  unfold heFinish
  simp only [Ceres.redirect_solve, Ceres.redirect_covSolver]
  rw [Res.bind_ok_iff]
  exact ⟨cov, hc, rfl⟩

theorem multiStatic_other {s : Ceres Pose6} (hs : s.WF) {p : MsProblem} {res : MsResult} (h : multiStatic s p = .ok res)
    {pb : List (ResBlock Pose6)} (hb : msBuild p = .ok pb) {st' : Nat → Pose6} (hf : ∀ a, a ∉ usedBlocks pb → st' a = msInit p a)
    (hd : cost pb st' ≤ cost pb (msInit p)) :
    ∃ (s' : Ceres Pose6) (res' : MsResult), s'.WF ∧ multiStatic s' p = .ok res' ∧ res'.finalCost = costPerObs pb st' ∧
      res'.wristToTarget = poseCalToEigen (st' msTgt) ∧
      res'.baseToCamera = (List.range p.baseToCameraGuess.length).map fun c => (poseCalToEigen (st' (msCam c))).inv := by
  unfold multiStatic at h
  rw [hb, Res.ok_bind, Res.bind_ok_iff] at h
  obtain ⟨cov, hc, -⟩ := h
  refine ⟨s.redirect pb (msInit p) (s.solve pb (msInit p)) st', ⟨s.converged pb (msInit p), costPerObs pb (msInit p),
    costPerObs pb st', poseCalToEigen (st' msTgt), _, cov⟩, Ceres.redirect_wf hs hf hd, ?_, rfl, rfl, rfl⟩
  unfold multiStatic
  rw [hb, Res.ok_bind]
  simp only [Ceres.redirect_solve, Ceres.redirect_covSolver]
  rw [Res.bind_ok_iff]
  exact ⟨cov, hc, rfl⟩

theorem wristOnly_other {s : Ceres Pose6} (hs : s.WF) {p : WoProblem} {pb : List (ResBlock Pose6)} (hb : woBuild p = .ok pb)
    {st' : Nat → Pose6} (hf : ∀ a, a ∉ usedBlocks pb → st' a = woInit p a) (hd : cost pb st' ≤ cost pb (woInit p)) :
    ∃ (s' : Ceres Pose6) (res' : WoResult), s'.WF ∧ wristOnly s' p = .ok res' ∧ res'.finalCost = costPerObs pb st' ∧
      res'.wristToTarget = poseCalToEigen (st' woTgt) ∧
      res'.baseToCamera = p.baseToCameraGuess.map fun g => (poseCalToEigen (st' woCorr)).inv * g := by
  refine ⟨s.redirect pb (woInit p) (s.solve pb (woInit p)) st', ⟨s.converged pb (woInit p), costPerObs pb (woInit p),
    costPerObs pb st', poseCalToEigen (st' woTgt), _⟩, Ceres.redirect_wf hs hf hd, ?_, rfl, rfl, rfl⟩
  unfold wristOnly
  rw [hb, Res.ok_bind]
  simp only [Ceres.redirect_solve]
  rfl

theorem cameraOnly_other {s : Ceres Pose6} (hs : s.WF) {p : CoProblem} {pb : List (ResBlock Pose6)} (hb : coBuild p = .ok pb)
    {st' : Nat → Pose6} (hf : ∀ a, a ∉ usedBlocks pb → st' a = coInit p a) (hd : cost pb st' ≤ cost pb (coInit p)) :
    ∃ (s' : Ceres Pose6) (res' : CoResult), s'.WF ∧ cameraOnly s' p = .ok res' ∧ res'.finalCost = costPerObs pb st' ∧
      res'.baseToTarget = (List.range p.baseToTargetGuess.length).map (fun i => poseCalToEigen (st' (coTgt i))) ∧
      res'.baseToCamera = (List.range p.baseToCameraGuess.length).map fun c => (poseCalToEigen (st' (coCam c))).inv := by
  refine ⟨s.redirect pb (coInit p) (s.solve pb (coInit p)) st', ⟨s.converged pb (coInit p), costPerObs pb (coInit p),
    costPerObs pb st', _, _⟩, Ceres.redirect_wf hs hf hd, ?_, rfl, rfl, rfl⟩
  unfold cameraOnly
  rw [hb, Res.ok_bind]
  simp only [Ceres.redirect_solve]
  rfl

/-! ## C179 Turns about one axis only -/

/-- The parameters of a pose with another translation. -/
def Pose6.withTrans (p : Pose6) (t : V3) : Pose6 := ⟨p.rx, p.ry, p.rz, t.x, t.y, t.z⟩

theorem poseCalToEigen_withTrans (p : Pose6) (t : V3) : poseCalToEigen (p.withTrans t) = ⟨(poseCalToEigen p).R, t⟩ := by
  have hr : (p.withTrans t).rot = p.rot := rfl
  unfold poseCalToEigen
  simp only [hr]
  by_cases h : p.rot.dot p.rot > dblEps
  · simp only [if_pos h]; rfl
  · simp only [if_neg h]; rfl

/-- The parameters of a camera pose moved by `k` along `a`. -/
noncomputable def Pose6.movedCamera (k : ℝ) (a : V3) (p : Pose6) : Pose6 :=
  p.withTrans ((poseCalToEigen p).t - (poseCalToEigen p).R.mulVec (V3.smul k a))

theorem movedBy_eq (k : ℝ) (a : V3) (X : Iso) : movedBy k a X = movedBy k a 1 * X := by
  rw [Iso.mul_def]
  ext1
  · simp only [movedBy, Iso.one_R, M3.one_mul]
  · ext <;> simp [movedBy] <;> ring

theorem movedBy_rigid {X : Iso} (h : X.IsRigid) (k : ℝ) (a : V3) : (movedBy k a X).IsRigid := h

theorem movedCamera_eq (k : ℝ) (a : V3) (p : Pose6) (h : (poseCalToEigen p).IsRigid) :
    (poseCalToEigen (p.movedCamera k a)).inv = movedBy k a (poseCalToEigen p).inv := by
  unfold Pose6.movedCamera
  rw [poseCalToEigen_withTrans]
  generalize poseCalToEigen p = T at h
  obtain ⟨v, hv⟩ : ∃ v, v = V3.smul k a := ⟨_, rfl⟩
  have h1 : T.R.tr.mulVec (T.R.mulVec v) = v := by
    rw [← M3.mulVec_mul, h.1, M3.one_mulVec]
  unfold movedBy Iso.inv
  rw [← hv]
  refine Iso.ext rfl ?_
  have e : T.t - T.R.mulVec v = T.t + -(T.R.mulVec v) := by ext <;> simp [sub_eq_add_neg]
  simp only [e, M3.mulVec_add, M3.mulVec_neg, h1]
  ext <;> simp [add_comm]

/-- If the wrist turned about one axis only, moving all cameras along it, with a suitable mounting of the target, leaves the
target at the same place in all cameras. -/
theorem static_flat (W : Nat → Nat → Iso) (fs : List Feature) (hW : ∀ f ∈ fs, (W f.cam f.img).IsRigid) (a : V3)
    (hfix : ∀ f ∈ fs, ∀ f' ∈ fs, (wristMotion (W f.cam f.img) (W f'.cam f'.img)).R.mulVec a = a) {Y : Iso} (hY : Y.IsRigid) (k : ℝ) :
    ∃ Y' : Iso, Y'.IsRigid ∧ Y'.R = Y.R ∧ ∀ f ∈ fs, ∀ C : Iso,
      (movedBy k a C).inv * (W f.cam f.img * Y') = C.inv * (W f.cam f.img * Y) := by
  have g1 : ∀ o ∈ fs.map fun f => (⟨[], 1, W f.cam f.img⟩ : Obs Corr2), o.toCameraMount.IsRigid ∧ o.toTargetMount.IsRigid := by
    intro o ho
    obtain ⟨f, hf, rfl⟩ := List.mem_map.1 ho
    exact ⟨.one, hW f hf⟩
  have g2 : ∀ o ∈ fs.map fun f => (⟨[], 1, W f.cam f.img⟩ : Obs Corr2), ∀ o' ∈ fs.map fun f => (⟨[], 1, W f.cam f.img⟩ : Obs Corr2),
      (mountMotion o o').R.mulVec a = a := by
    intro o ho o' ho'
    obtain ⟨f, hf, rfl⟩ := List.mem_map.1 ho
    obtain ⟨f', hf', rfl⟩ := List.mem_map.1 ho'
    simpa only [mountMotion, wristMotion, Iso.inv_one, Iso.one_mul] using hfix f hf f' hf'
  obtain ⟨Y', h1, h2, h3⟩ := handEye_flat g1 g2 (X := 1) hY k
  refine ⟨Y', h1, h2, fun f hf C => ?_⟩
  have h4 := h3 _ (List.mem_map.2 ⟨f, hf, rfl⟩)
  simp only [poseInCamera, Iso.inv_one, Iso.one_mul] at h4
  rw [movedBy_eq, Iso.mul_inv_rev (movedBy_rigid .one k a), Iso.mul_assoc, h4]

theorem costPerObs_congr {β : Type} {pb : List (ResBlock β)} {st st' : Nat → β} (h : residuals pb st' = residuals pb st) :
    cost pb st' = cost pb st ∧ costPerObs pb st' = costPerObs pb st := by
  have : cost pb st' = cost pb st := by unfold cost; rw [h]
  exact ⟨this, by unfold costPerObs; rw [this, h]⟩

/-- If the wrist turned about one axis only, a calibration of cameras and target mount may as well report all cameras moved by
any distance along that axis: for every result there is a run with the same cost that does. -/
theorem C179_multi (s : Ceres Pose6) (hs : s.WF) (p : MsProblem) (res : MsResult) (h : multiStatic s p = .ok res)
    (hw : ∀ wp ∈ p.wristPoses, ∀ w ∈ wp, Representable w) (hr : ∀ c ∈ res.baseToCamera, RigidMotion c)
    (hrt : RigidMotion res.wristToTarget)
    (hz : NoZeroDepth res.baseToCamera (fun c i => (p.wristPoses.getD c []).getD i 1 * res.wristToTarget)
      (byCamera p.observations p.baseToCameraGuess.length fun c => (p.wristPoses.getD c []).length)) (a : V3)
    (hfix : ∀ wp ∈ p.wristPoses, ∀ w ∈ wp, ∀ wp' ∈ p.wristPoses, ∀ w' ∈ wp', (wristMotion w w').R.mulVec a = a) (k : ℝ) :
    ∃ (s' : Ceres Pose6) (res' : MsResult), s'.WF ∧ multiStatic s' p = .ok res' ∧ res'.finalCost = res.finalCost ∧
      res'.baseToCamera = res.baseToCamera.map (movedBy k a) := by
  have h' := h
  unfold multiStatic at h
  rw [Res.bind_ok_iff] at h
  obtain ⟨pb, hb, h⟩ := h
  rw [Res.bind_ok_iff] at h
  obtain ⟨cov, hc, h⟩ := h
  obtain ⟨st, hst⟩ : ∃ st, st = s.solve pb (msInit p) := ⟨_, rfl⟩
  rw [← hst] at h hc
  have hused : ∀ b ∈ (List.range p.baseToCameraGuess.length).map msCam ++ [msTgt], b ∈ usedBlocks pb := fun b hb =>
    covSolver_isSome (computeCovariance_unknown hc hb)
  cases h
  simp only at hr hrt hz ⊢
  have rC : ∀ c, c < p.baseToCameraGuess.length → (poseCalToEigen (st (msCam c))).IsRigid := fun c hc =>
    Iso.IsRigid.of_inv ((rigid_iff _).2 (hr _ (List.mem_map.2 ⟨c, List.mem_range.2 hc, rfl⟩)))
  have memW : ∀ f ∈ byCamera p.observations p.baseToCameraGuess.length fun c => (p.wristPoses.getD c []).length,
      ∃ wp ∈ p.wristPoses, (p.wristPoses.getD f.cam []).getD f.img 1 ∈ wp := by
    intro f hf
    obtain ⟨-, h2, -⟩ := mem_byCamera hf
    cases hw : p.wristPoses[f.cam]? with
    | none => rw [List.getD_eq_getElem?_getD, hw] at h2; simp at h2
    | some wp =>
      rw [getD_of_some hw] at h2 ⊢
      exact ⟨wp, List.mem_of_getElem? hw, by
        rw [getD_of_some (List.getElem?_eq_getElem h2)]; exact List.getElem_mem h2⟩
  obtain ⟨Y', rY', hR, hflat⟩ := static_flat (fun c i => (p.wristPoses.getD c []).getD i 1) _
    (fun f hf => by obtain ⟨wp, h1, h2⟩ := memW f hf; exact (hw wp h1 _ h2).rigid) a
    (fun f hf f' hf' => by
      obtain ⟨wp, h1, h2⟩ := memW f hf
      obtain ⟨wp', h1', h2'⟩ := memW f' hf'
      exact hfix wp h1 _ h2 wp' h1' _ h2') ((rigid_iff _).2 hrt) k
  obtain ⟨st', hst'⟩ : ∃ st' : Nat → Pose6, st' = fun b => if b = msTgt then (st msTgt).withTrans Y'.t else
    if b ≤ p.baseToCameraGuess.length then (st b).movedCamera k a else st b := ⟨_, rfl⟩
  have hT : poseCalToEigen (st' msTgt) = Y' := by
    rw [hst']
    simp only [if_true]
    rw [poseCalToEigen_withTrans, ← hR]
  have hC : ∀ c, c < p.baseToCameraGuess.length →
      (poseCalToEigen (st' (msCam c))).inv = movedBy k a (poseCalToEigen (st (msCam c))).inv := by
    intro c hc
    rw [← movedCamera_eq k a _ (rC c hc), hst']
    simp only [msCam, msTgt, Nat.succ_ne_zero, if_false, Nat.succ_le_of_lt hc, if_true]
  have hres : residuals pb st' = residuals pb st := by
    rw [msBuild_residuals hb hw st ((List.range p.baseToCameraGuess.length).map fun c => (poseCalToEigen (st (msCam c))).inv) _
      (fun c hc => by simp [hc]) rfl hr hz]
    have hz2 : ∀ f ∈ byCamera p.observations p.baseToCameraGuess.length fun c => (p.wristPoses.getD c []).length,
        (((List.range p.baseToCameraGuess.length).map fun c => (poseCalToEigen (st' (msCam c))).inv).getD f.cam 1).inv *
          ((p.wristPoses.getD f.cam []).getD f.img 1 * Y') =
        (((List.range p.baseToCameraGuess.length).map fun c => (poseCalToEigen (st (msCam c))).inv).getD f.cam 1).inv *
          ((p.wristPoses.getD f.cam []).getD f.img 1 * poseCalToEigen (st msTgt)) := by
      intro f hf
      have hc := (mem_byCamera hf).1
      rw [← hflat f hf]
      simp [List.getD_eq_getElem?_getD, hc, hC f.cam hc]
    rw [msBuild_residuals hb hw st' ((List.range p.baseToCameraGuess.length).map fun c => (poseCalToEigen (st' (msCam c))).inv) Y'
      (fun c hc => by simp [hc]) hT ?_ ?_]
    · unfold staticErrors
      refine flatMap_congr' fun f hf => ?_
      unfold staticError
      rw [hz2 f hf]
    · intro c hc
      obtain ⟨x, hx, rfl⟩ := List.mem_map.1 hc
      rw [hC x (List.mem_range.1 hx)]
      exact (rigid_iff _).1 (movedBy_rigid (rC x (List.mem_range.1 hx)).inv k a)
    · intro f hf
      have := hz f hf
      unfold staticDepth at this ⊢
      rwa [hz2 f hf]
  obtain ⟨hcost, hper⟩ := costPerObs_congr hres
  obtain ⟨s', res', h1, h2, h3, -, h5⟩ := multiStatic_other hs h' hb (st' := st') (fun b hb' => by
      have hb1 : b ≠ msTgt := fun e => hb' (hused b (by simp [e]))
      have hb2 : ¬ b ≤ p.baseToCameraGuess.length := fun e => hb' (hused b (by
        obtain ⟨n, rfl⟩ : ∃ n, b = n + 1 := ⟨b - 1, by simp only [msTgt] at hb1; omega⟩
        exact List.mem_append_left _ (List.mem_map.2 ⟨n, List.mem_range.2 (by omega), rfl⟩)))
      rw [hst']
      simp only [if_neg hb1, if_neg hb2]
      rw [hst]
      exact hs.frame pb _ b hb')
    (by rw [hcost, hst]; exact hs.descent pb _)
  refine ⟨s', res', h1, h2, h3.trans hper, ?_⟩
  rw [h5, List.map_map]
  exact List.map_congr_left fun c hc => hC c (List.mem_range.1 hc)

/-- The same for the calibration of a common correction of all cameras. -/
theorem C179_wrist_only (s : Ceres Pose6) (hs : s.WF) (p : WoProblem) (res : WoResult) (h : wristOnly s p = .ok res)
    (hw : ∀ w ∈ p.wristPoses, Representable w) (hg : ∀ g ∈ p.baseToCameraGuess, Representable g)
    (hr : ∀ c ∈ res.baseToCamera, RigidMotion c) (hrt : RigidMotion res.wristToTarget)
    (hz : NoZeroDepth res.baseToCamera (fun _ i => p.wristPoses.getD i 1 * res.wristToTarget)
      (byCamera p.observations p.baseToCameraGuess.length fun _ => p.wristPoses.length))
    (hne : byCamera p.observations p.baseToCameraGuess.length (fun _ => p.wristPoses.length) ≠ []) (a : V3)
    (hfix : ∀ w ∈ p.wristPoses, ∀ w' ∈ p.wristPoses, (wristMotion w w').R.mulVec a = a) (k : ℝ) :
    ∃ (s' : Ceres Pose6) (res' : WoResult), s'.WF ∧ wristOnly s' p = .ok res' ∧ res'.finalCost = res.finalCost ∧
      res'.baseToCamera = res.baseToCamera.map (movedBy k a) := by
  unfold wristOnly at h
  rw [Res.bind_ok_iff] at h
  obtain ⟨pb, hb, h⟩ := h
  obtain ⟨st, hst⟩ : ∃ st, st = s.solve pb (woInit p) := ⟨_, rfl⟩
  rw [← hst] at h
  cases h
  simp only at hr hrt hz ⊢
  obtain ⟨f₀, hf₀⟩ := List.exists_mem_of_ne_nil _ hne
  have hused : woCorr ∈ usedBlocks pb ∧ woTgt ∈ usedBlocks pb := by
    obtain ⟨b, hb1, intr, w, g, -, -, -, rfl⟩ := Forall₂.mem_left (woBuild_blocks hb) hf₀
    exact ⟨mem_usedBlocks.2 ⟨_, hb1, by simp⟩, mem_usedBlocks.2 ⟨_, hb1, by simp⟩⟩
  have rG : ∀ y : Nat, (p.baseToCameraGuess.getD y 1).IsRigid := rigid_getD fun w hw' => (hg w hw').1
  have getC : ∀ (E : Iso) (y : Nat), y < p.baseToCameraGuess.length →
      (p.baseToCameraGuess.map fun g => E * g).getD y 1 = E * p.baseToCameraGuess.getD y 1 := by
    intro E y hy
    have e1 : p.baseToCameraGuess[y]? = some p.baseToCameraGuess[y] := List.getElem?_eq_getElem hy
    have e2 : (p.baseToCameraGuess.map fun g => E * g)[y]? = some (E * p.baseToCameraGuess[y]) := by simp [hy]
    rw [getD_of_some e1, getD_of_some e2]
  have rD : (poseCalToEigen (st woCorr)).IsRigid := by
    have hx := (mem_byCamera hf₀).1
    have h1 := rigid_getD hr f₀.cam
    rw [getC _ _ hx] at h1
    have h2 := h1.mul (rG f₀.cam).inv
    rw [Iso.mul_assoc, Iso.mul_inv (rG f₀.cam), Iso.mul_one] at h2
    exact Iso.IsRigid.of_inv h2
  have memW : ∀ f ∈ byCamera p.observations p.baseToCameraGuess.length fun _ => p.wristPoses.length,
      p.wristPoses.getD f.img 1 ∈ p.wristPoses := by
    intro f hf
    obtain ⟨-, h2, -⟩ := mem_byCamera hf
    rw [getD_of_some (List.getElem?_eq_getElem h2)]
    exact List.getElem_mem h2
  obtain ⟨Y', rY', hR, hflat⟩ := static_flat (fun _ i => p.wristPoses.getD i 1) _
    (fun f hf => (hw _ (memW f hf)).rigid) a (fun f hf f' hf' => hfix _ (memW f hf) _ (memW f' hf')) ((rigid_iff _).2 hrt) k
  obtain ⟨st', hst'⟩ : ∃ st' : Nat → Pose6, st' = fun b => if b = woTgt then (st woTgt).withTrans Y'.t else
    if b = woCorr then (st woCorr).movedCamera k a else st b := ⟨_, rfl⟩
  have hT : poseCalToEigen (st' woTgt) = Y' := by
    rw [hst']
    simp only [if_true]
    rw [poseCalToEigen_withTrans, ← hR]
  have hC : (poseCalToEigen (st' woCorr)).inv = movedBy k a (poseCalToEigen (st woCorr)).inv := by
    rw [← movedCamera_eq k a _ rD, hst']
    simp [woCorr, woTgt]
  have hCg : ∀ g : Iso, (poseCalToEigen (st' woCorr)).inv * g = movedBy k a ((poseCalToEigen (st woCorr)).inv * g) := by
    intro g
    rw [hC, movedBy_eq, movedBy_eq k a ((poseCalToEigen (st woCorr)).inv * g), Iso.mul_assoc]
  have hmap : (p.baseToCameraGuess.map fun g => (poseCalToEigen (st' woCorr)).inv * g) =
      (p.baseToCameraGuess.map fun g => (poseCalToEigen (st woCorr)).inv * g).map (movedBy k a) := by
    rw [List.map_map]
    exact List.map_congr_left fun g _ => hCg g
  have hres : residuals pb st' = residuals pb st := by
    rw [woBuild_residuals hb hw hg st _ _ rfl rfl hr hz]
    have hz2 : ∀ f ∈ byCamera p.observations p.baseToCameraGuess.length fun _ => p.wristPoses.length,
        ((p.baseToCameraGuess.map fun g => (poseCalToEigen (st' woCorr)).inv * g).getD f.cam 1).inv *
          (p.wristPoses.getD f.img 1 * Y') =
        ((p.baseToCameraGuess.map fun g => (poseCalToEigen (st woCorr)).inv * g).getD f.cam 1).inv *
          (p.wristPoses.getD f.img 1 * poseCalToEigen (st woTgt)) := by
      intro f hf
      rw [getC _ _ (mem_byCamera hf).1, getC _ _ (mem_byCamera hf).1, hCg]
      exact hflat f hf _
    rw [woBuild_residuals hb hw hg st' _ Y' rfl hT ?_ ?_]
    · unfold staticErrors
      refine flatMap_congr' fun f hf => ?_
      unfold staticError
      rw [hz2 f hf]
    · intro c hc
      rw [hmap] at hc
      obtain ⟨x, hx, rfl⟩ := List.mem_map.1 hc
      exact (rigid_iff _).1 (movedBy_rigid ((rigid_iff _).2 (hr x hx)) k a)
    · intro f hf
      have := hz f hf
      unfold staticDepth at this ⊢
      rwa [hz2 f hf]
  obtain ⟨hcost, hper⟩ := costPerObs_congr hres
  obtain ⟨s', res', h1, h2, h3, -, h5⟩ := wristOnly_other hs hb (st' := st') (fun b hb' => by
      have hb1 : b ≠ woTgt := fun e => hb' (e ▸ hused.2)
      have hb2 : b ≠ woCorr := fun e => hb' (e ▸ hused.1)
      rw [hst']
      simp only [if_neg hb1, if_neg hb2]
      rw [hst]
      exact hs.frame pb _ b hb')
    (by rw [hcost, hst]; exact hs.descent pb _)
  exact ⟨s', res', h1, h2, h3.trans hper, h5.trans hmap⟩

/-! ## C153 Turns about one axis only: hand-eye calibration -/

theorem heFinish_flat {κ : Type} {s : Ceres Pose6} (hs : s.WF) {p : HandEyeProblem κ} {pb : List (ResBlock Pose6)} {res : HandEyeResult}
    (h : heFinish s p pb = .ok res) (hused : pb ≠ [] ∧ ∀ b ∈ pb, b.blocks = [heCam, heTgt]) (hr : RigidMotion res.cameraMountToCamera)
    {k : ℝ} {a : V3} {Y' : Iso} (hR : Y'.R = res.targetMountToTarget.R)
    (hres : ∀ st', (poseCalToEigen (st' heCam)).inv = movedBy k a res.cameraMountToCamera → poseCalToEigen (st' heTgt) = Y' →
      residuals pb st' = residuals pb (s.solve pb (heInit p))) :
    ∃ (s' : Ceres Pose6) (res' : HandEyeResult), s'.WF ∧ heFinish s' p pb = .ok res' ∧ res'.finalCost = res.finalCost ∧
      res'.targetMountToTarget = Y' ∧ res'.cameraMountToCamera = movedBy k a res.cameraMountToCamera := by
  obtain ⟨h0, h1, h2⟩ := heFinish_ok h
  have hcost := heFinish_cost h
  obtain ⟨st, hst⟩ : ∃ st, st = s.solve pb (heInit p) := ⟨_, rfl⟩
  rw [← hst] at h1 h2 hcost hres
  rw [h2] at hr hres
  rw [h1] at hR
  rw [h2, hcost]
  have rC : (poseCalToEigen (st heCam)).IsRigid := Iso.IsRigid.of_inv ((rigid_iff _).2 hr)
  obtain ⟨st', hst'⟩ : ∃ st' : Nat → Pose6, st' = fun b => if b = heTgt then (st heTgt).withTrans Y'.t else
    if b = heCam then (st heCam).movedCamera k a else st b := ⟨_, rfl⟩
  have hT : poseCalToEigen (st' heTgt) = Y' := by
    rw [hst']
    simp only [if_true]
    rw [poseCalToEigen_withTrans, ← hR]
  have hC : (poseCalToEigen (st' heCam)).inv = movedBy k a (poseCalToEigen (st heCam)).inv := by
    rw [← movedCamera_eq k a _ rC, hst']
    simp [heCam, heTgt]
  obtain ⟨hc, hper⟩ := costPerObs_congr (hres st' hC hT)
  obtain ⟨b, hb⟩ := List.exists_mem_of_ne_nil _ hused.1
  obtain ⟨s', res', g1, g2, g3, g4, g5⟩ := heFinish_other hs h (st' := st') (fun x hx => by
      have hb1 : x ≠ heTgt := fun e => hx (mem_usedBlocks.2 ⟨b, hb, by rw [hused.2 b hb, e]; simp⟩)
      have hb2 : x ≠ heCam := fun e => hx (mem_usedBlocks.2 ⟨b, hb, by rw [hused.2 b hb, e]; simp⟩)
      rw [hst']
      simp only [if_neg hb1, if_neg hb2]
      rw [hst]
      exact hs.frame pb _ x hx)
    (by rw [hc, hst]; exact hs.descent pb _)
  exact ⟨s', res', g1, g2, g3.trans hper, g4.trans hT, g5.trans hC⟩

/-- For every result of a hand-eye calibration whose robot motions leave a direction of the camera mount unchanged, and every
distance, there is a run with the same cost that reports the camera moved by that distance along that direction. -/
theorem C153_run (s : Ceres Pose6) (hs : s.WF) (p : HandEyeProblem Corr2) (res : HandEyeResult) (h : handEye2 s p = .ok res)
    (hm : MountsRepresentable p.observations) (hr : RigidMotion res.cameraMountToCamera)
    (hr' : RigidMotion res.targetMountToTarget)
    (hz : ∀ f ∈ features p.observations, (inCamera2 res.cameraMountToCamera res.targetMountToTarget f).z ≠ 0)
    (hne : features p.observations ≠ []) (a : V3)
    (hfix : ∀ o ∈ p.observations, ∀ o' ∈ p.observations, (mountMotion o o').R.mulVec a = a) (k : ℝ) :
    ∃ (s' : Ceres Pose6) (res' : HandEyeResult), s'.WF ∧ handEye2 s' p = .ok res' ∧ res'.finalCost = res.finalCost ∧
      res'.cameraMountToCamera = movedBy k a res.cameraMountToCamera := by
  unfold handEye2 at h ⊢
  rw [Res.bind_ok_iff] at h
  obtain ⟨pb, hb, h⟩ := h
  obtain ⟨Y', rY', hR, hflat⟩ := handEye_flat (fun o ho => ⟨(hm o ho).1.rigid, (hm o ho).2.rigid⟩) hfix
    (X := res.cameraMountToCamera) ((rigid_iff _).2 hr') k
  have hin : ∀ f ∈ features p.observations, inCamera2 (movedBy k a res.cameraMountToCamera) Y' f =
      inCamera2 res.cameraMountToCamera res.targetMountToTarget f := by
    intro f hf
    obtain ⟨o, ho, hf⟩ := List.mem_flatMap.1 hf
    obtain ⟨c, -, rfl⟩ := List.mem_map.1 hf
    exact congrArg (fun T => Iso.apply T c.inTarget) (hflat o ho)
  have rX' : (movedBy k a res.cameraMountToCamera).IsRigid := movedBy_rigid ((rigid_iff _).2 hr) k a
  obtain ⟨-, e1, e2⟩ := heFinish_ok h
  have hblocks : pb ≠ [] ∧ ∀ b ∈ pb, b.blocks = [heCam, heTgt] := by
    rcases heBuild2_cases p with ⟨-, h'⟩ | ⟨-, h'⟩
    · rw [h'] at hb; cases hb
      refine ⟨by simpa using hne, fun b hb => ?_⟩
      obtain ⟨f, -, rfl⟩ := List.mem_map.1 hb
      rfl
    · rw [h'] at hb; cases hb
  obtain ⟨s', res', g1, g2, g3, -, g5⟩ := heFinish_flat hs h hblocks hr hR (a := a) (k := k) fun st' hC hT => by
    rw [C28_partial p pb hb hm st' ((poseCalToEigen_rigid_iff _).1 (Iso.IsRigid.of_inv (hC ▸ rX')))
      (fun f hf => by rw [hC, hT, hin f hf]; exact hz f hf)]
    rw [C28_partial p pb hb hm _ ((poseCalToEigen_rigid_iff _).1 (Iso.IsRigid.of_inv (e2 ▸ (rigid_iff _).2 hr)))
      (fun f hf => by rw [← e1, ← e2]; exact hz f hf), hC, hT, ← e1, ← e2]
    unfold reprojErrors2
    exact flatMap_congr' fun f hf => by rw [hin f hf]
  exact ⟨s', res', g1, by rw [hb, Res.ok_bind]; exact g2, g3, g5⟩

/-- The same for 3D measurements. -/
theorem C153_run_3d (s : Ceres Pose6) (hs : s.WF) (p : HandEyeProblem Corr3) (res : HandEyeResult) (h : handEye3 s p = .ok res)
    (hm : MountsRepresentable p.observations) (hr : RigidMotion res.cameraMountToCamera)
    (hr' : RigidMotion res.targetMountToTarget) (hne : features p.observations ≠ []) (a : V3)
    (hfix : ∀ o ∈ p.observations, ∀ o' ∈ p.observations, (mountMotion o o').R.mulVec a = a) (k : ℝ) :
    ∃ (s' : Ceres Pose6) (res' : HandEyeResult), s'.WF ∧ handEye3 s' p = .ok res' ∧ res'.finalCost = res.finalCost ∧
      res'.cameraMountToCamera = movedBy k a res.cameraMountToCamera := by
  unfold handEye3 at h ⊢
  obtain ⟨Y', rY', hR, hflat⟩ := handEye_flat (fun o ho => ⟨(hm o ho).1.rigid, (hm o ho).2.rigid⟩) hfix
    (X := res.cameraMountToCamera) ((rigid_iff _).2 hr') k
  have hin : ∀ f ∈ features p.observations, inCamera3 (movedBy k a res.cameraMountToCamera) Y' f =
      inCamera3 res.cameraMountToCamera res.targetMountToTarget f := by
    intro f hf
    obtain ⟨o, ho, hf⟩ := List.mem_flatMap.1 hf
    obtain ⟨c, -, rfl⟩ := List.mem_map.1 hf
    exact congrArg (fun T => Iso.apply T c.inTarget) (hflat o ho)
  have rX' : (movedBy k a res.cameraMountToCamera).IsRigid := movedBy_rigid ((rigid_iff _).2 hr) k a
  obtain ⟨-, e1, e2⟩ := heFinish_ok h
  have hblocks : heBuild3 p ≠ [] ∧ ∀ b ∈ heBuild3 p, b.blocks = [heCam, heTgt] := by
    rw [heBuild3_eq]
    refine ⟨by simpa using hne, fun b hb => ?_⟩
    obtain ⟨f, -, rfl⟩ := List.mem_map.1 hb
    rfl
  obtain ⟨s', res', g1, g2, g3, -, g5⟩ := heFinish_flat hs h hblocks hr hR (a := a) (k := k) fun st' hC hT => by
    rw [C28_partial_3d p hm st' ((poseCalToEigen_rigid_iff _).1 (Iso.IsRigid.of_inv (hC ▸ rX'))),
      C28_partial_3d p hm _ ((poseCalToEigen_rigid_iff _).1 (Iso.IsRigid.of_inv (e2 ▸ (rigid_iff _).2 hr))), hC, hT, ← e1, ← e2]
    unfold reprojErrors3
    exact flatMap_congr' fun f hf => by rw [hin f hf]
  exact ⟨s', res', g1, g2, g3, g5⟩

/-! ## C154 Cameras without known target poses -/

/-- Unless the first camera is fixed, for every result and every shift there is a run with the same cost that reports all cameras
and all target poses shifted. -/
theorem C154_run (s : Ceres Pose6) (hs : s.WF) (p : CoProblem) (res : CoResult) (h : cameraOnly s p = .ok res)
    (hf : p.fixFirst = false) (hr : ∀ c ∈ res.baseToCamera, RigidMotion c)
    (hz : NoZeroDepth res.baseToCamera (fun _ i => res.baseToTarget.getD i 1)
      (byImage p.observations p.baseToCameraGuess.length p.baseToTargetGuess.length))
    (hcams : ∀ c : Nat, c < p.baseToCameraGuess.length → ∃ i < p.baseToTargetGuess.length, (p.observations.getD c []).getD i [] ≠ [])
    (himgs : ∀ i : Nat, i < p.baseToTargetGuess.length → ∃ c < p.baseToCameraGuess.length, (p.observations.getD c []).getD i [] ≠ [])
    (a : V3) (k : ℝ) :
    ∃ (s' : Ceres Pose6) (res' : CoResult), s'.WF ∧ cameraOnly s' p = .ok res' ∧ res'.finalCost = res.finalCost ∧
      res'.baseToCamera = res.baseToCamera.map (movedBy k a) ∧ res'.baseToTarget = res.baseToTarget.map (movedBy k a) := by
  unfold cameraOnly at h
  rw [Res.bind_ok_iff] at h
  obtain ⟨pb, hb, h⟩ := h
  obtain ⟨st, hst⟩ : ∃ st, st = s.solve pb (coInit p) := ⟨_, rfl⟩
  rw [← hst] at h
  cases h
  simp only at hr hz ⊢
  have rC : ∀ c, c < p.baseToCameraGuess.length → (poseCalToEigen (st (coCam c))).IsRigid := fun c hc =>
    Iso.IsRigid.of_inv ((rigid_iff _).2 (hr _ (List.mem_map.2 ⟨c, List.mem_range.2 hc, rfl⟩)))
  have hused : ∀ c i : Nat, c < p.baseToCameraGuess.length → i < p.baseToTargetGuess.length →
      (p.observations.getD c []).getD i [] ≠ [] → coCam c ∈ usedBlocks pb ∧ coTgt i ∈ usedBlocks pb := by
    intro c i hc hi hne
    obtain ⟨kc, hk⟩ := List.exists_mem_of_ne_nil _ hne
    obtain ⟨b, hb1, intr, -, ⟨hfx, -⟩ | ⟨-, rfl⟩⟩ := Forall₂.mem_left (coBuild_blocks hb) (byImage_mem hc hi hk)
    · rw [hf] at hfx; cases hfx
    · exact ⟨mem_usedBlocks.2 ⟨_, hb1, by simp⟩, mem_usedBlocks.2 ⟨_, hb1, by simp⟩⟩
  obtain ⟨st', hst'⟩ : ∃ st' : Nat → Pose6, st' = fun b =>
    if b % 2 = 0 then if b / 2 < p.baseToTargetGuess.length then (st b).withTrans ((poseCalToEigen (st b)).t + V3.smul k a) else st b
    else if b / 2 < p.baseToCameraGuess.length then (st b).movedCamera k a else st b := ⟨_, rfl⟩
  have hT : ∀ i, i < p.baseToTargetGuess.length → poseCalToEigen (st' (coTgt i)) = movedBy k a (poseCalToEigen (st (coTgt i))) := by
    intro i hi
    have e1 : coTgt i % 2 = 0 := by simp [coTgt]
    have e2 : coTgt i / 2 = i := by simp [coTgt]
    rw [hst']
    simp only [e1, e2, if_true, if_pos hi]
    rw [poseCalToEigen_withTrans]
    rfl
  have hC : ∀ c, c < p.baseToCameraGuess.length →
      (poseCalToEigen (st' (coCam c))).inv = movedBy k a (poseCalToEigen (st (coCam c))).inv := by
    intro c hc
    have e1 : ¬ coCam c % 2 = 0 := by simp only [coCam]; omega
    have e2 : coCam c / 2 = c := by simp only [coCam]; omega
    rw [← movedCamera_eq k a _ (rC c hc), hst']
    simp only [if_neg e1, e2, if_pos hc]
  have hres : residuals pb st' = residuals pb st := by
    rw [coBuild_residuals hb st ((List.range p.baseToCameraGuess.length).map fun c => (poseCalToEigen (st (coCam c))).inv)
      ((List.range p.baseToTargetGuess.length).map fun i => poseCalToEigen (st (coTgt i))) hr
      (fun c hc => by simp [hc]) (fun c hc => by simp [hc]) (by rw [hf]; simp) hz]
    have hz2 : ∀ f ∈ byImage p.observations p.baseToCameraGuess.length p.baseToTargetGuess.length,
        (((List.range p.baseToCameraGuess.length).map fun c => (poseCalToEigen (st' (coCam c))).inv).getD f.cam 1).inv *
          ((List.range p.baseToTargetGuess.length).map fun i => poseCalToEigen (st' (coTgt i))).getD f.img 1 =
        (((List.range p.baseToCameraGuess.length).map fun c => (poseCalToEigen (st (coCam c))).inv).getD f.cam 1).inv *
          ((List.range p.baseToTargetGuess.length).map fun i => poseCalToEigen (st (coTgt i))).getD f.img 1 := by
      intro f hf
      obtain ⟨hc, hi⟩ : f.cam < p.baseToCameraGuess.length ∧ f.img < p.baseToTargetGuess.length := by
        simp only [byImage, featuresOf, List.mem_flatMap, List.mem_map, List.mem_range] at hf
        obtain ⟨i, hi, c, hc, k, -, rfl⟩ := hf
        exact ⟨hc, hi⟩
      simp only [List.getD_eq_getElem?_getD, List.getElem?_map, List.getElem?_range hc, List.getElem?_range hi, Option.map_some,
        Option.getD_some, hC f.cam hc, hT f.img hi]
      rw [movedBy_eq k a (poseCalToEigen _).inv, movedBy_eq k a (poseCalToEigen _), Iso.mul_inv_rev (movedBy_rigid .one k a),
        Iso.mul_assoc, Iso.inv_mul_cancel_left (movedBy_rigid .one k a)]
    rw [coBuild_residuals hb st' ((List.range p.baseToCameraGuess.length).map fun c => (poseCalToEigen (st' (coCam c))).inv)
      ((List.range p.baseToTargetGuess.length).map fun i => poseCalToEigen (st' (coTgt i))) ?_
      (fun c hc => by simp [hc]) (fun c hc => by simp [hc]) (by rw [hf]; simp) ?_]
    · unfold staticErrors
      refine flatMap_congr' fun f hf => ?_
      unfold staticError
      rw [hz2 f hf]
    · intro c hc
      obtain ⟨x, hx, rfl⟩ := List.mem_map.1 hc
      rw [hC x (List.mem_range.1 hx)]
      exact (rigid_iff _).1 (movedBy_rigid (rC x (List.mem_range.1 hx)).inv k a)
    · intro f hf
      have := hz f hf
      unfold staticDepth at this ⊢
      rwa [hz2 f hf]
  obtain ⟨hcost, hper⟩ := costPerObs_congr hres
  obtain ⟨s', res', h1, h2, h3, h4, h5⟩ := cameraOnly_other hs hb (st' := st') (fun b hb' => by
      have : st' b = st b := by
        rw [hst']
        simp only
        split
        · rename_i he
          rw [if_neg]
          intro hi
          obtain ⟨c, hc, hne⟩ := himgs _ hi
          apply hb'
          have := (hused c _ hc hi hne).2
          rwa [show coTgt (b / 2) = b by simp only [coTgt]; omega] at this
        · rename_i he
          rw [if_neg]
          intro hc
          obtain ⟨i, hi, hne⟩ := hcams _ hc
          apply hb'
          have := (hused _ i hc hi hne).1
          rwa [show coCam (b / 2) = b by simp only [coCam]; omega] at this
      rw [this, hst]
      exact hs.frame pb _ b hb')
    (by rw [hcost, hst]; exact hs.descent pb _)
  refine ⟨s', res', h1, h2, h3.trans hper, ?_, ?_⟩
  · rw [h5, List.map_map]
    exact List.map_congr_left fun c hc => hC c (List.mem_range.1 hc)
  · rw [h4, List.map_map]
    exact List.map_congr_left fun c hc => hT c (List.mem_range.1 hc)

/-! ### Examples -/

/-- A camera on the z axis of the base, and its image of the square mounted on the wrist. -/
noncomputable def stCam (m : ℝ) : Iso := shiftBy 0 0 (-m)
noncomputable def stImage (m : ℝ) (w : Iso) : List Corr2 := squareImage ⟨1, 1, 0, 0⟩ ((stCam m).inv * (w * shiftBy 10 10 10))

theorem stCam_inv (m : ℝ) : (stCam m).inv = shiftBy 0 0 m := by
  ext <;> simp [stCam, shiftBy, Iso.inv, M3.tr, M3.mulVec]

theorem stView {m : ℝ} (hm : 0 ≤ m) {w : Iso} (hw : w ∈ [1, quarterX, quarterZ]) :
    (stCam m).inv.apply (w.apply ⟨10, 10, 10⟩) ≠ 0 ∧ ((stCam m).inv * (w * shiftBy 10 10 10)).inv.t.z ≠ 0 ∧
      ∀ q ∈ squarePoints, 0 < (((stCam m).inv * (w * shiftBy 10 10 10)).apply q).z := by
  rw [stCam_inv]
  simp only [List.mem_cons, List.not_mem_nil, or_false] at hw
  refine ⟨?_, ?_, ?_⟩
  · intro h
    have h1 := congrArg V3.z h
    rw [shiftBy_apply] at h1
    rcases hw with rfl | rfl | rfl <;> norm_num [quarterX, quarterZ, Iso.apply, M3.mulVec, Iso.one_def, M3.one_def] at h1 <;> linarith
  · rcases hw with rfl | rfl | rfl <;>
      norm_num [Iso.inv, M3.tr, M3.mulVec, quarterX, quarterZ, shiftBy, Iso.mul_def, M3.mul_def, Iso.one_def, M3.one_def] <;> linarith
  · intro q hq
    simp only [squarePoints, List.mem_cons, List.not_mem_nil, or_false] at hq
    rw [Iso.apply_mul, Iso.apply_mul, shiftBy_apply, shiftBy_apply]
    rcases hw with rfl | rfl | rfl <;> rcases hq with rfl | rfl | rfl | rfl <;>
      norm_num [quarterX, quarterZ, Iso.apply, M3.mulVec, Iso.one_def, M3.one_def] <;> linarith

theorem stWrist_rep {w : Iso} (hw : w ∈ [1, quarterX, quarterZ]) : Representable w := by
  simp only [List.mem_cons, List.not_mem_nil, or_false] at hw
  rcases hw with rfl | rfl | rfl
  exacts [.one, quarterX_rep, quarterZ_rep]

/-- Two cameras that see the square in all poses of the wrist. -/
noncomputable def stObs (W : List Iso) : List (List (List Corr2)) := [W.map (stImage 0), W.map (stImage 1)]

theorem stObs_feature {W : List Iso} {f : Feature} (h : f ∈ byCamera (stObs W) 2 fun _ => W.length) :
    f.cam < 2 ∧ W.getD f.img 1 ∈ W ∧ f.corr.inTarget ∈ squarePoints ∧
      f.corr.inImage = pinhole ⟨1, 1, 0, 0⟩ (((stCam f.cam).inv * (W.getD f.img 1 * shiftBy 10 10 10)).apply f.corr.inTarget) := by
  obtain ⟨h1, h2, h3⟩ := mem_byCamera h
  have h4 : (stObs W).getD f.cam [] = W.map (stImage (f.cam : ℝ)) := by
    have : f.cam = 0 ∨ f.cam = 1 := by omega
    rcases this with e | e <;> simp [stObs, e]
  have e2 : W[f.img]? = some W[f.img] := List.getElem?_eq_getElem h2
  have e3 : (W.map (stImage (f.cam : ℝ)))[f.img]? = some (stImage f.cam W[f.img]) := by simp [h2]
  rw [h4, getD_of_some e3] at h3
  rw [getD_of_some e2]
  obtain ⟨q, hq, hf⟩ := List.mem_map.1 h3
  refine ⟨h1, List.getElem_mem h2, by rw [← hf]; exact hq, by rw [← hf]⟩

theorem stObs_get {W : List Iso} {c i : Nat} (hc : c < 2) (hi : i < W.length) :
    ((stObs W).getD c []).getD i [] = stImage c (W.getD i 1) := by
  have h4 : (stObs W).getD c [] = W.map (stImage (c : ℝ)) := by
    have : c = 0 ∨ c = 1 := by omega
    rcases this with e | e <;> simp [stObs, e]
  have e2 : W[i]? = some W[i] := List.getElem?_eq_getElem hi
  have e3 : (W.map (stImage (c : ℝ)))[i]? = some (stImage c W[i]) := by simp [hi]
  rw [h4, getD_of_some e3, getD_of_some e2]

theorem stCams_get {c : Nat} (hc : c < 2) : [stCam 0, stCam 1].getD c 1 = stCam c := by
  have : c = 0 ∨ c = 1 := by omega
  rcases this with rfl | rfl <;> simp

theorem stIntr_get {c : Nat} (hc : c < 2) : ([⟨1, 1, 0, 0⟩, ⟨1, 1, 0, 0⟩] : List Intr).getD c ⟨0, 0, 0, 0⟩ = ⟨1, 1, 0, 0⟩ := by
  have : c = 0 ∨ c = 1 := by omega
  rcases this with rfl | rfl <;> simp

theorem stDepth {W : List Iso} (hW : ∀ w ∈ W, w ∈ [1, quarterX, quarterZ]) {m : ℝ} (hm : 0 ≤ m) {f : Feature}
    (hf : f ∈ byCamera (stObs W) 2 fun _ => W.length) :
    0 < staticDepth (stCam (m + f.cam)) (W.getD f.img 1 * shiftBy 10 10 10) f.corr := by
  obtain ⟨-, h2, h3, -⟩ := stObs_feature hf
  exact (stView (add_nonneg hm (Nat.cast_nonneg _)) (hW _ h2)).2.2 _ h3

theorem stGood {W : List Iso} (hW : ∀ w ∈ W, w ∈ [1, quarterX, quarterZ]) {c i : Nat} (hc : c < 2) (hi : i < W.length) :
    GoodView ⟨1, 1, 0, 0⟩ (stCam c) (W.getD i 1 * shiftBy 10 10 10) (((stObs W).getD c []).getD i []) := by
  rw [stObs_get hc hi]
  refine ⟨squareImage_sees _ _, by norm_num, by norm_num, (stView (Nat.cast_nonneg _) (hW _ ?_)).2.1⟩
  have e2 : W[i]? = some W[i] := List.getElem?_eq_getElem hi
  rw [getD_of_some e2]
  exact List.getElem_mem hi

/-- The calibration of the two cameras with right guesses. -/
noncomputable def stProblem (W : List Iso) : MsProblem :=
  ⟨[⟨1, 1, 0, 0⟩, ⟨1, 1, 0, 0⟩], [W, W], stObs W, shiftBy 10 10 10, [stCam 0, stCam 1], "t", "c"⟩

theorem stProblem_runs (W : List Iso) (hW : W ≠ []) : ∃ res, multiStatic (idCeres Pose6) (stProblem W) = .ok res := by
  obtain ⟨pb, hb⟩ := C41_built (stProblem W) rfl rfl rfl (by
    intro c oc wp h1 h2
    match c with
    | 0 => simp [stProblem, stObs] at h1 h2; simp [← h1, ← h2]
    | 1 => simp [stProblem, stObs] at h1 h2; simp [← h1, ← h2]
    | n + 2 => simp [stProblem] at h2)
  have hu : ∀ b ∈ [msCam 0, msCam 1, msTgt], b ∈ usedBlocks pb := by
    have key : ∀ c, c < 2 → msCam c ∈ usedBlocks pb ∧ msTgt ∈ usedBlocks pb := by
      intro c hc
      have hi : 0 < W.length := List.length_pos_of_ne_nil hW
      have hm : (⟨c, 0, ⟨pinhole ⟨1, 1, 0, 0⟩ (((stCam c).inv * (W.getD 0 1 * shiftBy 10 10 10)).apply ⟨0, 0, 0⟩), ⟨0, 0, 0⟩⟩⟩ : Feature) ∈ byCamera (stProblem W).observations (stProblem W).baseToCameraGuess.length
          fun c => ((stProblem W).wristPoses.getD c []).length := by
        refine byCamera_mem (show c < 2 from hc) ?_ ?_
        · have : c = 0 ∨ c = 1 := by omega
          rcases this with rfl | rfl <;> simpa [stProblem] using hi
        · show _ ∈ ((stObs W).getD c []).getD 0 []
          rw [stObs_get hc hi]
          exact List.mem_map.2 ⟨⟨0, 0, 0⟩, by simp [squarePoints], rfl⟩
      obtain ⟨b, hb1, intr, wp, w, -, -, -, rfl⟩ := Forall₂.mem_left (msBuild_blocks hb) hm
      exact ⟨mem_usedBlocks.2 ⟨_, hb1, by simp⟩, mem_usedBlocks.2 ⟨_, hb1, by simp⟩⟩
    intro b hb'
    simp only [List.mem_cons, List.not_mem_nil, or_false] at hb'
    rcases hb' with rfl | rfl | rfl
    exacts [(key 0 (by norm_num)).1, (key 1 (by norm_num)).1, (key 0 (by norm_num)).2]
  have hn := msNames_find (stProblem W)
  have hbl : (List.range (stProblem W).baseToCameraGuess.length).map msCam ++ [msTgt] = [msCam 0, msCam 1, msTgt] := rfl
  have hns : (msNames (stProblem W)).size = 3 := rfl
  unfold multiStatic
  rw [hb, Res.ok_bind]
  simp only [hbl] at hn ⊢
  obtain ⟨cov, hc⟩ := computeCovariance_returns
    (cs := (idCeres Pose6).covSolver pb ((idCeres Pose6).solve pb (msInit (stProblem W))) 6) (blocks := [msCam 0, msCam 1, msTgt])
    (names := msNames (stProblem W)) (masks := [])
    hns (fun b hb => ⟨_, hn b hb, by simp [Ceres.covSolver, hu b hb, poseLabels, labelsIsometry3d]⟩) rfl rfl
  exact ⟨_, (Res.bind_ok_iff _ _ _).2 ⟨cov, hc, rfl⟩⟩

theorem stCam_rep (m : ℝ) : Representable (stCam m) := shiftBy_rep _ _ _

theorem stCams_rep : ∀ c ∈ [stCam 0, stCam 1], Representable c := by
  intro c hc
  simp only [List.mem_cons, List.not_mem_nil, or_false] at hc
  rcases hc with rfl | rfl <;> exact stCam_rep _

theorem stWrists_get (W : List Iso) {c : Nat} (hc : c < 2) : [W, W].getD c [] = W := by
  have : c = 0 ∨ c = 1 := by omega
  rcases this with rfl | rfl <;> simp

theorem stByCamera (W : List Iso) : byCamera (stProblem W).observations (stProblem W).baseToCameraGuess.length
    (fun c => ((stProblem W).wristPoses.getD c []).length) = byCamera (stObs W) 2 fun _ => W.length := by
  unfold byCamera
  refine flatMap_congr' fun c hc => ?_
  simp only
  rw [show ((stProblem W).wristPoses.getD c []) = W from stWrists_get W (List.mem_range.1 hc)]
  rfl

/-- Two cameras, and a wrist that makes two quarter turns. -/
example : ∃ (p : MsProblem) (res : MsResult) (cams : List Iso) (Y : Iso) (x a b c d : Nat), multiStatic (idCeres Pose6) p = .ok res ∧
    (∀ wp ∈ p.wristPoses, ∀ w ∈ wp, Representable w) ∧ (∀ c ∈ res.baseToCamera, RigidMotion c) ∧
    RigidMotion res.wristToTarget ∧ (∀ c ∈ cams, RigidMotion c) ∧ RigidMotion Y ∧
    cams.length = p.baseToCameraGuess.length ∧
    (∀ f ∈ byCamera p.observations p.baseToCameraGuess.length fun c => (p.wristPoses.getD c []).length,
      f.corr.inImage = pinhole (p.intr.getD f.cam ⟨0, 0, 0, 0⟩)
        (((cams.getD f.cam 1).inv * ((p.wristPoses.getD f.cam []).getD f.img 1 * Y)).apply f.corr.inTarget)) ∧
    (∀ f ∈ byCamera p.observations p.baseToCameraGuess.length fun c => (p.wristPoses.getD c []).length,
      0 < staticDepth (cams.getD f.cam 1) ((p.wristPoses.getD f.cam []).getD f.img 1 * Y) f.corr) ∧
    (∀ f ∈ byCamera p.observations p.baseToCameraGuess.length fun c => (p.wristPoses.getD c []).length,
      0 < staticDepth (res.baseToCamera.getD f.cam 1) ((p.wristPoses.getD f.cam []).getD f.img 1 * res.wristToTarget) f.corr) ∧
    x < p.baseToCameraGuess.length ∧
    (∀ i ∈ [a, b, c, d], i < (p.wristPoses.getD x []).length ∧ GoodView (p.intr.getD x ⟨0, 0, 0, 0⟩) (cams.getD x 1)
      ((p.wristPoses.getD x []).getD i 1 * Y) ((p.observations.getD x []).getD i [])) ∧
    AxesDiffer (wristMotion ((p.wristPoses.getD x []).getD a 1) ((p.wristPoses.getD x []).getD b 1)).R
      (wristMotion ((p.wristPoses.getD x []).getD c 1) ((p.wristPoses.getD x []).getD d 1)).R ∧
    (∀ y, y < p.baseToCameraGuess.length → ∃ i, i < (p.wristPoses.getD y []).length ∧
      GoodView (p.intr.getD y ⟨0, 0, 0, 0⟩) (cams.getD y 1) ((p.wristPoses.getD y []).getD i 1 * Y)
        ((p.observations.getD y []).getD i [])) := by
  obtain ⟨W, hWe⟩ : ∃ W : List Iso, W = [1, quarterX, quarterZ] := ⟨_, rfl⟩
  have hW : ∀ w ∈ W, w ∈ [1, quarterX, quarterZ] := by rw [hWe]; exact fun _ h => h
  obtain ⟨res, h⟩ := stProblem_runs W (by rw [hWe]; simp)
  obtain ⟨r1, r2⟩ := C34_multi_static (idCeres Pose6) (stProblem W) res (fun _ _ => rfl) (shiftBy_rep _ _ _) stCams_rep h
  have e1 : (stProblem W).wristToTargetGuess = shiftBy 10 10 10 := rfl
  have e2 : (stProblem W).baseToCameraGuess = [stCam 0, stCam 1] := rfl
  rw [e1] at r1
  rw [e2] at r2
  have hd : ∀ f ∈ byCamera (stObs W) 2 fun _ => W.length, 0 < staticDepth ([stCam 0, stCam 1].getD f.cam 1)
      (((stProblem W).wristPoses.getD f.cam []).getD f.img 1 * shiftBy 10 10 10) f.corr := by
    intro f hf
    have h1 := (stObs_feature hf).1
    rw [stCams_get h1, show ((stProblem W).wristPoses.getD f.cam []) = W from stWrists_get W h1]
    simpa using stDepth hW le_rfl hf
  have hlen : W.length = 3 := by rw [hWe]; rfl
  have hv : ∀ y i, y < 2 → i < 3 → i < ((stProblem W).wristPoses.getD y []).length ∧
      GoodView ((stProblem W).intr.getD y ⟨0, 0, 0, 0⟩) ([stCam 0, stCam 1].getD y 1)
        (((stProblem W).wristPoses.getD y []).getD i 1 * shiftBy 10 10 10) (((stProblem W).observations.getD y []).getD i []) := by
    intro y i hy hi
    rw [show ((stProblem W).wristPoses.getD y []) = W from stWrists_get W hy, stCams_get hy,
      show (stProblem W).intr.getD y ⟨0, 0, 0, 0⟩ = ⟨1, 1, 0, 0⟩ from stIntr_get hy]
    exact ⟨by omega, stGood hW hy (by omega)⟩
  refine ⟨stProblem W, res, [stCam 0, stCam 1], shiftBy 10 10 10, 0, 1, 0, 2, 0, h, ?_, by rw [r2]; exact fun c hc => (stCams_rep c hc).1,
    by rw [r1]; exact (shiftBy_rep _ _ _).1, fun c hc => (stCams_rep c hc).1, (shiftBy_rep _ _ _).1, rfl, ?_, ?_, ?_,
    by simp [e2], ?_, ?_, fun y hy => ⟨0, hv y 0 hy (by norm_num)⟩⟩
  · intro wp hwp w hw
    have : wp = W := by simpa [stProblem] using hwp
    exact stWrist_rep (hW w (this ▸ hw))
  · rw [stByCamera]
    intro f hf
    obtain ⟨h1, -, -, h4⟩ := stObs_feature hf
    rw [stCams_get h1, show ((stProblem W).wristPoses.getD f.cam []) = W from stWrists_get W h1,
      show (stProblem W).intr.getD f.cam ⟨0, 0, 0, 0⟩ = ⟨1, 1, 0, 0⟩ from stIntr_get h1]
    exact h4
  · rw [stByCamera]; exact hd
  · rw [stByCamera, r1, r2]; exact hd
  · intro i hi
    refine hv 0 i (by norm_num) ?_
    simp only [List.mem_cons, List.not_mem_nil, or_false] at hi
    omega
  · rw [hWe]
    intro h0
    have := congrArg V3.y h0
    norm_num [wristMotion, stProblem, turnVector, V3.cross, Iso.inv_one, Iso.mul_one, quarterX, quarterZ] at this

/-- The calibration of a common correction of the same two cameras, the guesses of which are wrong by a common shift. -/
noncomputable def stWrist (W : List Iso) : WoProblem :=
  ⟨[⟨1, 1, 0, 0⟩, ⟨1, 1, 0, 0⟩], W, stObs W, shiftBy 10 10 10, [stCam 1, stCam 2]⟩

theorem stWrist_runs (W : List Iso) : ∃ res, wristOnly (idCeres Pose6) (stWrist W) = .ok res := by
  have : ∃ pb, woBuild (stWrist W) = .ok pb := by
    refine Res.flatMapList_returns fun c hc => ?_
    have hc : c < 2 := by simpa [stWrist] using List.mem_range.1 hc
    refine Res.flatMapList_returns fun i hi => ?_
    have hi : i < W.length := List.mem_range.1 hi
    have h4 : (stWrist W).observations[c]? = some (W.map (stImage (c : ℝ))) := by
      have : c = 0 ∨ c = 1 := by omega
      rcases this with e | e <;> simp [stWrist, stObs, e]
    have h5 : (W.map (stImage (c : ℝ)))[i]? = some (stImage c W[i]) := by simp [hi]
    rw [Res.idxList_ok_iff.2 h4, Res.ok_bind, Res.idxList_ok_iff.2 h5, Res.ok_bind]
    refine Res.mapList_returns fun k _ => ?_
    obtain ⟨w, h6⟩ : ∃ w, (stWrist W).wristPoses[i]? = some w := ⟨_, List.getElem?_eq_getElem hi⟩
    obtain ⟨g, h7⟩ : ∃ g, (stWrist W).baseToCameraGuess[c]? = some g := ⟨_, List.getElem?_eq_getElem hc⟩
    obtain ⟨n, h8⟩ : ∃ n, (stWrist W).intr[c]? = some n := ⟨_, List.getElem?_eq_getElem hc⟩
    rw [Res.idxList_ok_iff.2 h6, Res.ok_bind, Res.idxList_ok_iff.2 h7, Res.ok_bind, Res.idxList_ok_iff.2 h8, Res.ok_bind]
    exact ⟨_, rfl⟩
  obtain ⟨pb, hb⟩ := this
  unfold wristOnly
  rw [hb, Res.ok_bind]
  exact ⟨_, rfl⟩

theorem stGuess_get {c : Nat} (hc : c < 2) : [stCam 1, stCam 2].getD c 1 = stCam (1 + c) := by
  have : c = 0 ∨ c = 1 := by omega
  rcases this with rfl | rfl
  · simp
  · norm_num

theorem stGuess_rep : ∀ c ∈ [stCam 1, stCam 2], Representable c := by
  intro c hc
  simp only [List.mem_cons, List.not_mem_nil, or_false] at hc
  rcases hc with rfl | rfl <;> exact stCam_rep _

theorem stShift (m n : ℝ) : stCam m * stCam n = stCam (m + n) := by
  ext <;> simp [stCam, shiftBy, M3.mul_def] <;> ring

theorem stWrist_depth {W : List Iso} (hW : ∀ w ∈ W, w ∈ [1, quarterX, quarterZ]) {res : WoResult}
    (h : wristOnly (idCeres Pose6) (stWrist W) = .ok res) : RigidMotion res.wristToTarget ∧
    (∀ c ∈ res.baseToCamera, RigidMotion c) ∧
    (∀ f ∈ byCamera (stObs W) 2 fun _ => W.length,
      0 < staticDepth (res.baseToCamera.getD f.cam 1) (W.getD f.img 1 * res.wristToTarget) f.corr) := by
  obtain ⟨r1, r2⟩ := C34_wrist_only (idCeres Pose6) (stWrist W) res (fun _ _ => rfl) (shiftBy_rep _ _ _) h
  have e1 : (stWrist W).wristToTargetGuess = shiftBy 10 10 10 := rfl
  have e2 : (stWrist W).baseToCameraGuess = [stCam 1, stCam 2] := rfl
  rw [r1, r2, e1, e2]
  refine ⟨(shiftBy_rep _ _ _).1, fun c hc => (stGuess_rep c hc).1, fun f hf => ?_⟩
  rw [stGuess_get (stObs_feature hf).1]
  exact stDepth hW zero_le_one hf

/-- The two turns are seen by different cameras. -/
example : ∃ (p : WoProblem) (res : WoResult) (B Y : Iso) (xa a xb b xc c xd d : Nat), wristOnly (idCeres Pose6) p = .ok res ∧
    (∀ w ∈ p.wristPoses, Representable w) ∧ (∀ g ∈ p.baseToCameraGuess, Representable g) ∧
    (∀ c ∈ res.baseToCamera, RigidMotion c) ∧ RigidMotion res.wristToTarget ∧ RigidMotion B ∧ B ≠ 1 ∧ RigidMotion Y ∧
    (∀ f ∈ byCamera p.observations p.baseToCameraGuess.length fun _ => p.wristPoses.length,
      f.corr.inImage = pinhole (p.intr.getD f.cam ⟨0, 0, 0, 0⟩)
        (((B * p.baseToCameraGuess.getD f.cam 1).inv * (p.wristPoses.getD f.img 1 * Y)).apply f.corr.inTarget)) ∧
    (∀ f ∈ byCamera p.observations p.baseToCameraGuess.length fun _ => p.wristPoses.length,
      0 < staticDepth (B * p.baseToCameraGuess.getD f.cam 1) (p.wristPoses.getD f.img 1 * Y) f.corr) ∧
    (∀ f ∈ byCamera p.observations p.baseToCameraGuess.length fun _ => p.wristPoses.length,
      0 < staticDepth (res.baseToCamera.getD f.cam 1) (p.wristPoses.getD f.img 1 * res.wristToTarget) f.corr) ∧
    (∀ v ∈ [(xa, a), (xb, b), (xc, c), (xd, d)], v.1 < p.baseToCameraGuess.length ∧ v.2 < p.wristPoses.length ∧
      GoodView (p.intr.getD v.1 ⟨0, 0, 0, 0⟩) (B * p.baseToCameraGuess.getD v.1 1) (p.wristPoses.getD v.2 1 * Y)
        ((p.observations.getD v.1 []).getD v.2 [])) ∧
    AxesDiffer (wristMotion (p.wristPoses.getD a 1) (p.wristPoses.getD b 1)).R
      (wristMotion (p.wristPoses.getD c 1) (p.wristPoses.getD d 1)).R := by
  obtain ⟨W, hWe⟩ : ∃ W : List Iso, W = [1, quarterX, quarterZ] := ⟨_, rfl⟩
  have hW : ∀ w ∈ W, w ∈ [1, quarterX, quarterZ] := by rw [hWe]; exact fun _ h => h
  obtain ⟨res, h⟩ := stWrist_runs W
  obtain ⟨r1, r2, r3⟩ := stWrist_depth hW h
  have hB : ∀ c : Nat, c < 2 → stCam (-1) * (stWrist W).baseToCameraGuess.getD c 1 = stCam c := by
    intro c hc
    rw [show (stWrist W).baseToCameraGuess.getD c 1 = stCam (1 + c) from stGuess_get hc, stShift]
    congr 1; ring
  refine ⟨stWrist W, res, stCam (-1), shiftBy 10 10 10, 0, 1, 1, 0, 0, 2, 1, 0, h, fun w hw => stWrist_rep (hW w hw), stGuess_rep, r2,
    r1, (stCam_rep _).1, ?_, (shiftBy_rep _ _ _).1, ?_, ?_, r3, ?_, ?_⟩
  · intro h0
    have := congrArg (fun T => T.t.z) h0
    simp [stCam, shiftBy] at this
  · intro f hf
    obtain ⟨h1, -, -, h4⟩ := stObs_feature hf
    rw [hB f.cam h1, show (stWrist W).intr.getD f.cam ⟨0, 0, 0, 0⟩ = ⟨1, 1, 0, 0⟩ from stIntr_get h1]
    exact h4
  · intro f hf
    rw [hB f.cam (stObs_feature hf).1]
    have := stDepth hW le_rfl hf
    rwa [zero_add] at this
  · intro v hv
    have : v.1 < 2 ∧ v.2 < W.length := by
      rw [hWe]
      simp only [List.mem_cons, List.not_mem_nil, or_false] at hv
      rcases hv with rfl | rfl | rfl | rfl <;> simp
    refine ⟨this.1, this.2, ?_⟩
    rw [hB v.1 this.1, show (stWrist W).intr.getD v.1 ⟨0, 0, 0, 0⟩ = ⟨1, 1, 0, 0⟩ from stIntr_get this.1]
    exact stGood hW this.1 this.2
  · rw [hWe]
    intro h0
    have := congrArg V3.y h0
    norm_num [wristMotion, stWrist, turnVector, V3.cross, Iso.inv_one, Iso.mul_one, quarterX, quarterZ] at this

theorem stTurns : ∀ w ∈ [1, quarterZ], ∀ w' ∈ [1, quarterZ], (wristMotion w w').R.mulVec ⟨0, 0, 1⟩ = ⟨0, 0, 1⟩ := by
  intro w hw w' hw'
  simp only [List.mem_cons, List.not_mem_nil, or_false] at hw hw'
  rcases hw with rfl | rfl <;> rcases hw' with rfl | rfl <;>
    norm_num [wristMotion, Iso.inv, M3.tr, quarterZ, Iso.mul_def, M3.mul_def, Iso.one_def, M3.one_def, M3.mulVec]

/-- A wrist that turns about the z axis only. -/
example : (∃ (p : MsProblem) (res : MsResult) (a : V3), a ≠ 0 ∧ (idCeres Pose6).WF ∧ multiStatic (idCeres Pose6) p = .ok res ∧
    (∀ wp ∈ p.wristPoses, ∀ w ∈ wp, Representable w) ∧ (∀ c ∈ res.baseToCamera, RigidMotion c) ∧ RigidMotion res.wristToTarget ∧
    NoZeroDepth res.baseToCamera (fun c i => (p.wristPoses.getD c []).getD i 1 * res.wristToTarget)
      (byCamera p.observations p.baseToCameraGuess.length fun c => (p.wristPoses.getD c []).length) ∧
    ∀ wp ∈ p.wristPoses, ∀ w ∈ wp, ∀ wp' ∈ p.wristPoses, ∀ w' ∈ wp', (wristMotion w w').R.mulVec a = a) ∧
    ∃ (p : WoProblem) (res : WoResult) (a : V3), a ≠ 0 ∧ wristOnly (idCeres Pose6) p = .ok res ∧
    (∀ w ∈ p.wristPoses, Representable w) ∧ (∀ g ∈ p.baseToCameraGuess, Representable g) ∧
    (∀ c ∈ res.baseToCamera, RigidMotion c) ∧ RigidMotion res.wristToTarget ∧
    NoZeroDepth res.baseToCamera (fun _ i => p.wristPoses.getD i 1 * res.wristToTarget)
      (byCamera p.observations p.baseToCameraGuess.length fun _ => p.wristPoses.length) ∧
    byCamera p.observations p.baseToCameraGuess.length (fun _ => p.wristPoses.length) ≠ [] ∧
    ∀ w ∈ p.wristPoses, ∀ w' ∈ p.wristPoses, (wristMotion w w').R.mulVec a = a := by
  obtain ⟨W, hWe⟩ : ∃ W : List Iso, W = [1, quarterZ] := ⟨_, rfl⟩
  have hW : ∀ w ∈ W, w ∈ [1, quarterX, quarterZ] := by rw [hWe]; intro w hw; simp at hw ⊢; tauto
  have hT : ∀ w ∈ W, ∀ w' ∈ W, (wristMotion w w').R.mulVec ⟨0, 0, 1⟩ = ⟨0, 0, 1⟩ := by rw [hWe]; exact stTurns
  have ha : (⟨0, 0, 1⟩ : V3) ≠ 0 := by intro h; have := congrArg V3.z h; simp at this
  constructor
  · obtain ⟨res, h⟩ := stProblem_runs W (by rw [hWe]; simp)
    obtain ⟨r1, r2⟩ := C34_multi_static (idCeres Pose6) (stProblem W) res (fun _ _ => rfl) (shiftBy_rep _ _ _) stCams_rep h
    have e1 : (stProblem W).wristToTargetGuess = shiftBy 10 10 10 := rfl
    have e2 : (stProblem W).baseToCameraGuess = [stCam 0, stCam 1] := rfl
    rw [e1] at r1
    rw [e2] at r2
    have hwp : ∀ wp ∈ (stProblem W).wristPoses, wp = W := fun wp h => by simpa [stProblem] using h
    refine ⟨stProblem W, res, ⟨0, 0, 1⟩, ha, idCeres_wf _, h, fun wp h1 w h2 => stWrist_rep (hW w (hwp wp h1 ▸ h2)),
      by rw [r2]; exact fun c hc => (stCams_rep c hc).1, by rw [r1]; exact (shiftBy_rep _ _ _).1, ?_,
      fun wp h1 w h2 wp' h3 w' h4 => hT w (hwp wp h1 ▸ h2) w' (hwp wp' h3 ▸ h4)⟩
    rw [stByCamera, r1, r2]
    intro f hf
    have h1 := (stObs_feature hf).1
    simp only
    rw [stCams_get h1, show ((stProblem W).wristPoses.getD f.cam []) = W from stWrists_get W h1]
    simpa using (stDepth hW le_rfl hf).ne'
  · obtain ⟨res, h⟩ := stWrist_runs W
    obtain ⟨r1, r2, r3⟩ := stWrist_depth hW h
    refine ⟨stWrist W, res, ⟨0, 0, 1⟩, ha, h, fun w hw => stWrist_rep (hW w hw), stGuess_rep, r2, r1, fun f hf => (r3 f hf).ne', ?_, hT⟩
    rw [hWe]
    simp [stWrist, byCamera, stObs, featuresOf, stImage, squareImage, squarePoints, List.range_succ]

/-- The same for a camera on the wrist. -/
example : ∃ (p : HandEyeProblem Corr2) (res : HandEyeResult) (a : V3), a ≠ 0 ∧ handEye2 (idCeres Pose6) p = .ok res ∧
    MountsRepresentable p.observations ∧ RigidMotion res.cameraMountToCamera ∧ RigidMotion res.targetMountToTarget ∧
    (∀ f ∈ features p.observations, (inCamera2 res.cameraMountToCamera res.targetMountToTarget f).z ≠ 0) ∧
    features p.observations ≠ [] ∧ ∀ o ∈ p.observations, ∀ o' ∈ p.observations, (mountMotion o o').R.mulVec a = a := by
  obtain ⟨p, hp⟩ : ∃ p : HandEyeProblem Corr2, p = ⟨[squareView 1 1, squareView 1 quarterZ],
    ⟨1, 1, 0, 0⟩, shiftBy 10 10 10, 1, "c", "t", labelsIsometry3d⟩ := ⟨_, rfl⟩
  have hpo : p.observations = [squareView 1 1, squareView 1 quarterZ] := by rw [hp]
  have hm : MountsRepresentable p.observations := by
    rw [hpo]; intro o ho
    simp only [List.mem_cons, List.not_mem_nil, or_false] at ho
    rcases ho with rfl | rfl
    exacts [⟨.one, .one⟩, ⟨.one, quarterZ_rep⟩]
  have hz : ∀ f ∈ features p.observations, 0 < (inCamera2 1 (shiftBy 10 10 10) f).z := by
    intro f hf
    rw [hpo] at hf
    obtain ⟨o, ho, hf⟩ := List.mem_flatMap.1 hf
    obtain ⟨c, hc, rfl⟩ := List.mem_map.1 hf
    simp only [List.mem_cons, List.not_mem_nil, or_false] at ho
    rcases ho with rfl | rfl <;> obtain ⟨q, hq, rfl⟩ := List.mem_map.1 hc <;>
      simp only [inCamera2, Spec.targetInCamera, squareView, Iso.inv_one, Iso.one_mul, Iso.apply_mul, shiftBy_apply] <;>
      simp only [squarePoints, List.mem_cons, List.not_mem_nil, or_false] at hq <;> rcases hq with rfl | rfl | rfl | rfl <;>
      norm_num [quarterZ, Iso.apply, M3.mulVec]
  have hne : features p.observations ≠ [] := by rw [hpo]; simp [features, squareView, squareImage, squarePoints]
  obtain ⟨res, h⟩ : ∃ res, handEye2 (idCeres Pose6) p = .ok res := by
    unfold handEye2
    rcases heBuild2_cases p with ⟨-, h'⟩ | ⟨⟨f, hf, hv⟩, -⟩
    · rw [h', Res.ok_bind]
      exact heFinish_id_returns p (by rw [hp]; rfl) _ hne _ (fun _ _ => rfl)
    · exfalso
      apply hv
      unfold heVisible
      have hmf := hm f.1 (by
        obtain ⟨o, ho, hf⟩ := List.mem_flatMap.1 hf
        obtain ⟨c, hc, rfl⟩ := List.mem_map.1 hf
        exact ho)
      have e0 : heInit p heCam = poseEigenToCal 1 := by rw [hp]; simp [heInit, heCam, heTgt]
      have e1 : heInit p heTgt = poseEigenToCal (shiftBy 10 10 10) := by rw [hp]; simp [heInit]
      have hzf := hz f hf
      rw [e0, e1, targetPointInCamera_eq hmf.1.inv hmf.2, Representable.one.roundtrip, (shiftBy_rep _ _ _).roundtrip]
      simpa [inCamera2, Spec.targetInCamera, Iso.inv_one, Iso.apply_mul] using hzf
  obtain ⟨r1, r2⟩ := C34_hand_eye_2d (idCeres Pose6) p res (fun _ _ => rfl) (by rw [hp]; exact .one)
    (by rw [hp]; exact shiftBy_rep _ _ _) h
  have g1 : p.cameraGuess = 1 := by rw [hp]
  have g2 : p.targetGuess = shiftBy 10 10 10 := by rw [hp]
  refine ⟨p, res, ⟨0, 0, 1⟩, ?_, h, hm, by rw [r1, g1]; exact Representable.one.1, by rw [r2, g2]; exact (shiftBy_rep _ _ _).1,
    by rw [r1, r2, g1, g2]; exact fun f hf => (hz f hf).ne', hne, ?_⟩
  · intro h; have := congrArg V3.z h; simp at this
  · rw [hpo]
    intro o ho o' ho'
    simp only [List.mem_cons, List.not_mem_nil, or_false] at ho ho'
    rcases ho with rfl | rfl <;> rcases ho' with rfl | rfl <;>
      norm_num [mountMotion, squareView, Iso.inv, M3.tr, quarterZ, Iso.mul_def, M3.mul_def, Iso.one_def, M3.one_def, M3.mulVec]

/-- Two cameras that see one image. -/
example : ∃ (p : CoProblem) (res : CoResult), cameraOnly (idCeres Pose6) p = .ok res ∧ p.fixFirst = false ∧
    (∀ c ∈ res.baseToCamera, RigidMotion c) ∧
    NoZeroDepth res.baseToCamera (fun _ i => res.baseToTarget.getD i 1)
      (byImage p.observations p.baseToCameraGuess.length p.baseToTargetGuess.length) ∧
    (∀ c : Nat, c < p.baseToCameraGuess.length → ∃ i < p.baseToTargetGuess.length, (p.observations.getD c []).getD i [] ≠ []) ∧
    (∀ i : Nat, i < p.baseToTargetGuess.length → ∃ c < p.baseToCameraGuess.length, (p.observations.getD c []).getD i [] ≠ []) ∧
    p.baseToCameraGuess.length = 2 ∧ p.baseToTargetGuess.length = 1 := by
  obtain ⟨p, hp⟩ : ∃ p : CoProblem, p = ⟨false, [⟨1, 1, 0, 0⟩, ⟨1, 1, 0, 0⟩], [shiftBy 0 0 2],
    [[[⟨⟨0, 0⟩, ⟨0, 0, 0⟩⟩]], [[⟨⟨0, 0⟩, ⟨0, 0, 0⟩⟩]]], [stCam 0, stCam 1]⟩ := ⟨_, rfl⟩
  obtain ⟨res, h⟩ : ∃ res, cameraOnly (idCeres Pose6) p = .ok res := by rw [hp]; exact ⟨_, rfl⟩
  obtain ⟨h1, h2⟩ := C34_camera_only (idCeres Pose6) p res (fun _ _ => rfl) (by rw [hp]; simp)
    (by rw [hp]; intro g hg; rw [List.mem_singleton] at hg; rw [hg]; exact shiftBy_rep _ _ _) (by rw [hp]; exact stCams_rep) h
  have e1 : p.baseToTargetGuess = [shiftBy 0 0 2] := by rw [hp]
  have e2 : p.baseToCameraGuess = [stCam 0, stCam 1] := by rw [hp]
  rw [e1] at h1
  rw [e2] at h2
  refine ⟨p, res, h, by rw [hp], by rw [h2]; exact fun c hc => (stCams_rep c hc).1, ?_, ?_, ?_, by rw [e2]; rfl, by rw [e1]; rfl⟩
  · rw [h1, h2]
    intro f hf
    rw [hp] at hf
    simp only [byImage, featuresOf, List.length_cons, List.length_nil, List.range_succ, List.range_zero, List.nil_append,
      List.flatMap_cons, List.flatMap_nil, List.append_nil, List.getD_cons_zero, List.map_cons, List.map_nil, List.cons_append,
      List.getD_cons_succ, List.mem_cons, List.not_mem_nil, or_false, zero_add] at hf
    rcases hf with rfl | rfl <;> norm_num [staticDepth, stCam_inv, Iso.apply_mul, shiftBy_apply]
  · rw [hp]
    intro c hc
    have : c = 0 ∨ c = 1 := by simp at hc; omega
    rcases this with rfl | rfl <;> exact ⟨0, by simp, by simp⟩
  · rw [hp]
    intro i hi
    have : i = 0 := by simpa using hi
    rw [this]
    exact ⟨0, by simp, by simp⟩

end RCT
