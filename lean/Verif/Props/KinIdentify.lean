import Verif.Props.Identify
import Verif.Props.KinematicFit
import Verif.Props.Positioner
import Verif.Spec.KinIdentify

/-!
# C221: Measurements that determine the mounts of two kinematic chains
-/

namespace RCT
open Spec

theorem nominalEnd_rigid {c : DHChain} (h : c.base.IsRigid) (q : List ℝ) : (nominalEnd c q).IsRigid := endPose_rigid h _ _

theorem forall_four {α : Type} {P : α → Prop} {a b c d : α} (ha : P a) (hb : P b) (hc : P c) (hd : P d) :
    ∀ x ∈ [a, b, c, d], P x := by
  intro x hx
  simp only [List.mem_cons, List.not_mem_nil, or_false] at hx
  rcases hx with rfl | rfl | rfl | rfl <;> assumption

/-- Two rigid motions around four known ones. -/
theorem sandwich_unique {X Y X' Y' : Iso} (hX : X.IsRigid) (hX' : X'.IsRigid) (hY' : Y'.IsRigid) {A B C D : Iso}
    (hr : ∀ T ∈ [A, B, C, D], T.IsRigid) (hax : AxesDiffer (A * B.inv).R (C * D.inv).R)
    (h : ∀ T ∈ [A, B, C, D], X' * T * Y' = X * T * Y) : X' = X ∧ Y' = Y := by
  have e1 : (1 : Iso).inv = 1 := by have := Iso.mul_inv Iso.IsRigid.one; rwa [Iso.one_mul] at this
  have := handEye_unique (κ := Unit) (X := X.inv) (X' := X'.inv) (Y := Y) hX.inv hX'.inv hY' (a := ⟨[], 1, A⟩) (b := ⟨[], 1, B⟩)
    (c := ⟨[], 1, C⟩) (d := ⟨[], 1, D⟩) ?_ ?_ ?_
  · refine ⟨?_, this.2⟩
    have := congrArg Iso.inv this.1
    rwa [Iso.inv_inv hX, Iso.inv_inv hX'] at this
  · intro o ho
    simp only [List.mem_cons, List.not_mem_nil, or_false] at ho
    rcases ho with rfl | rfl | rfl | rfl <;> exact ⟨Iso.IsRigid.one, hr _ (by simp)⟩
  · simpa only [mountMotion, e1, Iso.one_mul] using hax
  · intro o ho
    simp only [List.mem_cons, List.not_mem_nil, or_false] at ho
    rcases ho with rfl | rfl | rfl | rfl <;>
      simpa only [poseInCamera, e1, Iso.one_mul, Iso.inv_inv hX, Iso.inv_inv hX', Iso.mul_assoc] using h _ (by simp)

theorem Iso.IsRigid.cancel_left {A B C : Iso} (hA : A.IsRigid) (h : A * B = A * C) : B = C := by
  have := congrArg (A.inv * ·) h
  simpa only [Iso.inv_mul_cancel_left hA] using this

theorem Iso.IsRigid.cancel_right {A B C : Iso} (hA : A.IsRigid) (h : B * A = C * A) : B = C := by
  have := congrArg (· * A.inv) h
  simpa only [Iso.mul_assoc, Iso.mul_inv hA, Iso.mul_one] using this

theorem inv_mul_rev {A B : Iso} (hA : A.IsRigid) (hB : B.IsRigid) : (A * B).inv = B.inv * A.inv := by
  refine (hA.mul hB).cancel_left ?_
  rw [Iso.mul_inv (hA.mul hB), Iso.mul_assoc, Iso.mul_inv_cancel_left hB, Iso.mul_inv hA]

/-- The predicted pose of a calibration without offsets. -/
theorem plain_predicts {cc tc : DHChain} (hcc : cc.base.IsRigid) {cm tm cb : Iso} (hcm : cm.IsRigid) (q : List ℝ × List ℝ) :
    (plainCalib cc tc cm tm cb).predicts cc tc q.1 q.2 =
      cm.inv * ((nominalEnd cc q.1).inv * (cb * (nominalEnd tc q.2 * tm))) := by
  unfold Calib.predicts plainCalib
  simp only
  rw [inv_mul_rev (endPose_rigid hcc _ _) hcm, Iso.mul_assoc, Iso.mul_assoc]
  rfl

/-- Calibrations without offsets that predict the same poses are equal, if the joint values are enough. -/
theorem Enough.unique {cc tc : DHChain} (hcc : cc.base.IsRigid) (htc : tc.base.IsRigid) {qs : List (List ℝ × List ℝ)}
    {X Y Z X' Y' Z' : Iso} (hX : X.IsRigid) (hY : Y.IsRigid) (hZ : Z.IsRigid) (hX' : X'.IsRigid) (hY' : Y'.IsRigid)
    (hZ' : Z'.IsRigid) (hE : Enough cc tc qs (plainCalib cc tc X Y Z) (plainCalib cc tc X' Y' Z'))
    (h : ∀ q ∈ qs, (plainCalib cc tc X' Y' Z').predicts cc tc q.1 q.2 = (plainCalib cc tc X Y Z).predicts cc tc q.1 q.2) :
    X' = X ∧ Y' = Y ∧ Z' = Z := by
  have h' : ∀ q ∈ qs, X'.inv * ((nominalEnd cc q.1).inv * (Z' * (nominalEnd tc q.2 * Y'))) =
      X.inv * ((nominalEnd cc q.1).inv * (Z * (nominalEnd tc q.2 * Y))) := fun q hq => by
    have := h q hq
    rwa [plain_predicts hcc hX', plain_predicts hcc hX] at this
  have hA := nominalEnd_rigid hcc
  have hB := nominalEnd_rigid htc
  -- with a known camera mount
  have knownX : X' = X → TargetTurns tc qs → X' = X ∧ Y' = Y ∧ Z' = Z := by
    rintro rfl ⟨a, ha, b, hb, c, hc, d, hd, hax⟩
    have key : ∀ q ∈ qs, Z' * nominalEnd tc q.2 * Y' = Z * nominalEnd tc q.2 * Y := fun q hq => by
      simpa only [Iso.mul_assoc] using (hA q.1).inv.cancel_left (hX.inv.cancel_left (h' q hq))
    have := sandwich_unique hZ hZ' hY' (A := nominalEnd tc a.2) (B := nominalEnd tc b.2) (C := nominalEnd tc c.2)
      (D := nominalEnd tc d.2) (forall_four (hB _) (hB _) (hB _) (hB _)) hax (forall_four (key a ha) (key b hb) (key c hc) (key d hd))
    exact ⟨rfl, this.2, this.1⟩
  -- with a known target mount
  have knownY : Y' = Y → CameraTurns cc qs → X' = X ∧ Y' = Y ∧ Z' = Z := by
    rintro rfl ⟨a, ha, b, hb, c, hc, d, hd, hax⟩
    have key : ∀ q ∈ qs, X'.inv * (nominalEnd cc q.1).inv * Z' = X.inv * (nominalEnd cc q.1).inv * Z := fun q hq => by
      have := h' q hq
      simp only [← Iso.mul_assoc] at this
      exact (hB q.2).cancel_right (hY.cancel_right this)
    have := sandwich_unique hX.inv hX'.inv hZ' (A := (nominalEnd cc a.1).inv) (B := (nominalEnd cc b.1).inv)
      (C := (nominalEnd cc c.1).inv) (D := (nominalEnd cc d.1).inv) (forall_four (hA _).inv (hA _).inv (hA _).inv (hA _).inv)
      (by simpa only [Iso.inv_inv (hA _)] using hax) (forall_four (key a ha) (key b hb) (key c hc) (key d hd))
    refine ⟨?_, rfl, this.2⟩
    have := congrArg Iso.inv this.1
    rwa [Iso.inv_inv hX, Iso.inv_inv hX'] at this
  cases hE with
  | camera hk ht => exact knownX hk ht
  | target hk ht => exact knownY hk ht
  | base hk ht =>
    obtain ⟨a, ha, b, hb, c, hc, d, hd, hax⟩ := ht
    replace hk : Z' = Z := hk
    subst hk
    have hr : ∀ q, (endToEnd cc tc Z' q).IsRigid := fun q => (hA q.1).inv.mul (hZ.mul (hB q.2))
    have key : ∀ q ∈ qs, X'.inv * endToEnd cc tc Z' q * Y' = X.inv * endToEnd cc tc Z' q * Y := fun q hq => by
      simpa only [endToEnd, Iso.mul_assoc] using h' q hq
    have := sandwich_unique hX.inv hX'.inv hY' (A := endToEnd cc tc Z' a) (B := endToEnd cc tc Z' b)
      (C := endToEnd cc tc Z' c) (D := endToEnd cc tc Z' d) (forall_four (hr _) (hr _) (hr _) (hr _)) hax
      (forall_four (key a ha) (key b hb) (key c hc) (key d hd))
    refine ⟨?_, this.2, rfl⟩
    have := congrArg Iso.inv this.1
    rwa [Iso.inv_inv hX, Iso.inv_inv hX'] at this
  | targetAlone ht hc =>
    refine knownY ?_ hc
    obtain ⟨a, ha, b, hb, c, hc, d, hd, hsame, hax⟩ := ht
    simp only [List.mem_cons, List.not_mem_nil, or_false, forall_eq_or_imp, forall_eq] at hsame
    obtain ⟨sb, sc, sd⟩ := hsame
    have key : ∀ q ∈ qs, q.1 = a.1 → X'.inv * ((nominalEnd cc a.1).inv * Z') * nominalEnd tc q.2 * Y' =
        X.inv * ((nominalEnd cc a.1).inv * Z) * nominalEnd tc q.2 * Y := fun q hq e => by
      have := h' q hq
      rw [e] at this
      simpa only [Iso.mul_assoc] using this
    exact (sandwich_unique (hX.inv.mul ((hA a.1).inv.mul hZ)) (hX'.inv.mul ((hA a.1).inv.mul hZ')) hY' (A := nominalEnd tc a.2)
      (B := nominalEnd tc b.2) (C := nominalEnd tc c.2) (D := nominalEnd tc d.2) (forall_four (hB _) (hB _) (hB _) (hB _)) hax
      (forall_four (key a ha rfl) (key b hb sb) (key c hc sc) (key d hd sd))).2
  | cameraAlone hc ht =>
    refine knownX ?_ ht
    obtain ⟨a, ha, b, hb, c, hc, d, hd, hsame, hax⟩ := hc
    simp only [List.mem_cons, List.not_mem_nil, or_false, forall_eq_or_imp, forall_eq] at hsame
    obtain ⟨sb, sc, sd⟩ := hsame
    have key : ∀ q ∈ qs, q.2 = a.2 → X'.inv * (nominalEnd cc q.1).inv * (Z' * (nominalEnd tc a.2 * Y')) =
        X.inv * (nominalEnd cc q.1).inv * (Z * (nominalEnd tc a.2 * Y)) := fun q hq e => by
      have := h' q hq
      rw [e] at this
      simpa only [Iso.mul_assoc] using this
    have := (sandwich_unique hX.inv hX'.inv (hZ'.mul ((hB a.2).mul hY')) (A := (nominalEnd cc a.1).inv)
      (B := (nominalEnd cc b.1).inv) (C := (nominalEnd cc c.1).inv) (D := (nominalEnd cc d.1).inv) (forall_four (hA _).inv (hA _).inv (hA _).inv (hA _).inv)
      (by simpa only [Iso.inv_inv (hA _)] using hax) (forall_four (key a ha rfl) (key b hb sb) (key c hc sc) (key d hd sd))).1
    have := congrArg Iso.inv this
    rwa [Iso.inv_inv hX, Iso.inv_inv hX'] at this

/-- A reported calibration without offsets. -/
theorem calibOf_plain {K : KCeres} (hK : K.WF) {p : KinProblem} {costs : List ((Nat → Mem) → Res (List ℝ))} {r : KinResult}
    (h : kinOptimize K p costs = .ok r) (hn : (calibOf r).Nominal) :
    calibOf r = plainCalib p.cameraChain p.targetChain r.cmToC r.tmToT r.cbToTb := by
  obtain ⟨h1, h2, -⟩ := C47_tables K hK p costs r h
  unfold calibOf plainCalib
  congr 1
  · exact List.eq_replicate_iff.2 ⟨h1, hn.1⟩
  · exact List.eq_replicate_iff.2 ⟨h2, hn.2⟩

theorem plainCalib_nominal (cc tc : DHChain) (cm tm cb : Iso) : (plainCalib cc tc cm tm cb).Nominal :=
  ⟨fun v h => List.eq_of_mem_replicate (show v ∈ List.replicate cc.transforms.length (0 : V4) from h),
    fun v h => List.eq_of_mem_replicate (show v ∈ List.replicate tc.transforms.length (0 : V4) from h)⟩

/-- Exact pose measurements of two chains without offsets: if the joint values are enough, the reported final cost is zero
exactly if the true calibration is reported. -/
theorem C221_poses (K : KCeres) (hK : K.WF) (p : KinProblem) (w : ℝ) (obs : List KinMeas) (r : KinResult)
    (hcc : RigidMotion p.cameraChain.base) (htc : RigidMotion p.targetChain.base) (hw : w ≠ 0) (hs : p.cameraStdev ≠ 0)
    (hs' : p.targetStdev ≠ 0) (h : kinematic6 K p w obs = .ok r) (cm tm cb : Iso) (hcm : RigidMotion cm) (htm : RigidMotion tm)
    (hcb : RigidMotion cb)
    (hdata : Explains6 p.cameraChain p.targetChain (plainCalib p.cameraChain p.targetChain cm tm cb) obs)
    (hE : Enough p.cameraChain p.targetChain (jointsOf6 obs) (plainCalib p.cameraChain p.targetChain cm tm cb) (calibOf r)) :
    r.finalCost = some 0 ↔ calibOf r = plainCalib p.cameraChain p.targetChain cm tm cb := by
  have hm : ∀ m ∈ obs, RigidMotion m.cameraToTarget := fun m hm => by
    rw [hdata m hm]
    exact (rigid_iff _).1 (predicts_rigid hcc htc (k := plainCalib p.cameraChain p.targetChain cm tm cb) ⟨hcm, htm, hcb⟩ _ _)
  rw [C175_zero K hK p w obs r hcc htc hm hw hs hs' h]
  constructor
  · rintro ⟨hex, hn⟩
    unfold kinematic6 at h
    obtain ⟨r1, r2, r3⟩ := C47_rigid K hK p _ r h
    have e := calibOf_plain hK h hn
    rw [e] at hex hE ⊢
    obtain ⟨e1, e2, e3⟩ := Enough.unique ((rigid_iff _).2 hcc) ((rigid_iff _).2 htc) ((rigid_iff _).2 hcm) ((rigid_iff _).2 htm)
      ((rigid_iff _).2 hcb) ((rigid_iff _).2 r1) ((rigid_iff _).2 r2) ((rigid_iff _).2 r3) hE (by
        intro q hq
        obtain ⟨m, hm, rfl⟩ := List.mem_map.1 hq
        exact (hex m hm).symm.trans (hdata m hm))
    rw [e1, e2, e3]
  · intro e
    rw [e]
    exact ⟨hdata, plainCalib_nominal _ _ _ _ _⟩

/-- The same if masks hold one of the three transforms at its guess, which is the true one. -/
theorem C221_masked (K : KCeres) (hK : K.WF) (p : KinProblem) (w : ℝ) (obs : List KinMeas) (r : KinResult)
    (hcc : RigidMotion p.cameraChain.base) (htc : RigidMotion p.targetChain.base) (hw : w ≠ 0) (hs : p.cameraStdev ≠ 0)
    (hs' : p.targetStdev ≠ 0) (h : kinematic6 K p w obs = .ok r) (cm tm cb : Iso) (hcm : RigidMotion cm) (htm : RigidMotion tm)
    (hcb : RigidMotion cb)
    (hdata : Explains6 p.cameraChain p.targetChain (plainCalib p.cameraChain p.targetChain cm tm cb) obs)
    (hknown : ((∀ j : Fin 3, (j.val : Int) ∈ p.masks 2 ∧ (j.val : Int) ∈ p.masks 3) ∧ p.cmToC = cm ∧ KinRepresentable cm ∧
        TargetTurns p.targetChain (jointsOf6 obs)) ∨
      ((∀ j : Fin 3, (j.val : Int) ∈ p.masks 4 ∧ (j.val : Int) ∈ p.masks 5) ∧ p.tmToT = tm ∧ KinRepresentable tm ∧
        CameraTurns p.cameraChain (jointsOf6 obs)) ∨
      ((∀ j : Fin 3, (j.val : Int) ∈ p.masks 6 ∧ (j.val : Int) ∈ p.masks 7) ∧ p.cbToTb = cb ∧ KinRepresentable cb ∧
        RelativeTurns p.cameraChain p.targetChain cb (jointsOf6 obs))) :
    r.finalCost = some 0 ↔ calibOf r = plainCalib p.cameraChain p.targetChain cm tm cb := by
  refine C221_poses K hK p w obs r hcc htc hw hs hs' h cm tm cb hcm htm hcb hdata ?_
  have h' := h
  unfold kinematic6 at h'
  have hp := C46_positions_frozen K hK p _ r h'
  have hr := C46_rotations_frozen K hK p _ r h'
  have v3 : ∀ {u v : V3}, (∀ j : Fin 3, vcomp u j = vcomp v j) → u = v := fun e => V3.ext (e 0) (e 1) (e 2)
  rcases hknown with ⟨hm, rfl, hrep, ht⟩ | ⟨hm, rfl, hrep, ht⟩ | ⟨hm, rfl, hrep, ht⟩
  · exact .camera (Iso.ext (hr.1 (fun j => (hm j).2) hrep) (v3 fun j => (hp j).1 (hm j).1)) ht
  · exact .target (Iso.ext (hr.2.1 (fun j => (hm j).2) hrep) (v3 fun j => (hp j).2.1 (hm j).1)) ht
  · exact .base (Iso.ext (hr.2.2 (fun j => (hm j).2) hrep) (v3 fun j => (hp j).2.2 (hm j).1)) ht

theorem pixelMisfit_eq_zero {intr : Intr} {T : Iso} {c : Corr2} :
    pixelMisfit intr T c = 0 ↔ c.inImage = pinhole intr (T.apply c.inTarget) := by
  unfold pixelMisfit
  rw [add_eq_zero_iff_of_nonneg (sq_nonneg _) (sq_nonneg _), sq_eq_zero_iff, sq_eq_zero_iff, sub_eq_zero, sub_eq_zero]
  constructor
  · rintro ⟨h1, h2⟩; exact V2.ext h1.symm h2.symm
  · intro h; rw [h]; exact ⟨rfl, rfl⟩

theorem pixelMisfit_nonneg (intr : Intr) (T : Iso) (c : Corr2) : 0 ≤ pixelMisfit intr T c := by unfold pixelMisfit; positivity

theorem misfit2_eq_zero {cc tc : DHChain} {intr : Intr} {obs : List KinObs} {k : Calib} :
    misfit2 cc tc intr obs k = 0 ↔ ∀ o ∈ obs, ∀ c ∈ o.correspondences,
      c.inImage = pinhole intr ((k.predicts cc tc o.cameraJoints o.targetJoints).apply c.inTarget) := by
  unfold misfit2
  rw [list_sum_eq_zero fun o _ => List.sum_nonneg fun x hx => by
    obtain ⟨y, -, rfl⟩ := List.mem_map.1 hx
    exact pixelMisfit_nonneg _ _ _]
  refine forall₂_congr fun o _ => ?_
  rw [list_sum_eq_zero fun _ _ => pixelMisfit_nonneg _ _ _]
  exact forall₂_congr fun c _ => pixelMisfit_eq_zero

theorem misfit2_nonneg (cc tc : DHChain) (intr : Intr) (obs : List KinObs) (k : Calib) : 0 ≤ misfit2 cc tc intr obs k :=
  List.sum_nonneg fun x hx => by
    obtain ⟨o, -, rfl⟩ := List.mem_map.1 hx
    refine List.sum_nonneg fun y hy => ?_
    obtain ⟨c, -, rfl⟩ := List.mem_map.1 hy
    exact pixelMisfit_nonneg _ _ _

/-- The reported final cost of a calibration from pixels is zero exactly if all pixels are where the reported calibration
predicts them and there are no offsets. -/
theorem kin2_zero {K : KCeres} (hK : K.WF) {p : KinProblem} {intr : Intr} {obs : List KinObs} {r : KinResult}
    (hs : p.cameraStdev ≠ 0) (hs' : p.targetStdev ≠ 0) (h : kinematic2 K p intr obs = .ok r)
    (hz : ∀ o ∈ obs, ∀ c ∈ o.correspondences,
      (((calibOf r).predicts p.cameraChain p.targetChain o.cameraJoints o.targetJoints).apply c.inTarget).z > 1 / 10 ^ 10)
    (hne : ∃ o ∈ obs, o.correspondences ≠ []) :
    r.finalCost = some 0 ↔ (∀ o ∈ obs, ∀ c ∈ o.correspondences, c.inImage =
      pinhole intr (((calibOf r).predicts p.cameraChain p.targetChain o.cameraJoints o.targetJoints).apply c.inTarget)) ∧
      (calibOf r).Nominal := by
  obtain ⟨n, hn, -, hc⟩ := C47_cost2 K hK p intr obs r h hz
  have hpos : (0 : ℝ) < n := by
    obtain ⟨o, ho, hl⟩ := hne
    have h1 : 0 < o.correspondences.length := List.length_pos_iff.2 hl
    have h2 : o.correspondences.length ≤ (obs.map fun o => o.correspondences.length).sum :=
      List.single_le_sum (by simp) _ (List.mem_map.2 ⟨o, ho, rfl⟩)
    exact_mod_cast (by omega : 0 < n)
  rw [hc, Option.some.injEq, div_eq_zero_iff, div_eq_zero_iff, ← misfit2_eq_zero]
  have a := misfit2_nonneg p.cameraChain p.targetChain intr obs (calibOf r)
  have b := offsetCost_nonneg p.cameraStdev (calibOf r).offC
  have c := offsetCost_nonneg p.targetStdev (calibOf r).offT
  unfold Calib.Nominal
  rw [← offsetCost_eq_zero hs, ← offsetCost_eq_zero hs']
  change (misfit2 p.cameraChain p.targetChain intr obs (calibOf r) + offsetCost p.cameraStdev (calibOf r).offC +
    offsetCost p.targetStdev (calibOf r).offT = 0 ∨ _) ∨ _ ↔ _
  constructor
  · rintro ((h | h) | h)
    · exact ⟨by linarith, by linarith, by linarith⟩
    · norm_num at h
    · exact absurd h hpos.ne'
  · rintro ⟨h1, h2, h3⟩
    left; left; rw [h1, h2, h3]; ring

/-- Exact images, with all features in front of the true and of the reported camera: if the joint values of images that show
four features of the plane of the target, no three of them on one line, to a camera outside this plane are enough, the reported
final cost is zero exactly if the true calibration is reported. -/
theorem C221_pixels (K : KCeres) (hK : K.WF) (p : KinProblem) (intr : Intr) (obs good : List KinObs) (r : KinResult)
    (hcc : RigidMotion p.cameraChain.base) (htc : RigidMotion p.targetChain.base) (hfx : intr.fx ≠ 0) (hfy : intr.fy ≠ 0)
    (hs : p.cameraStdev ≠ 0) (hs' : p.targetStdev ≠ 0) (h : kinematic2 K p intr obs = .ok r)
    (hz : ∀ o ∈ obs, ∀ c ∈ o.correspondences,
      (((calibOf r).predicts p.cameraChain p.targetChain o.cameraJoints o.targetJoints).apply c.inTarget).z > 1 / 10 ^ 10)
    (cm tm cb : Iso) (hcm : RigidMotion cm) (htm : RigidMotion tm) (hcb : RigidMotion cb)
    (hdata : Explains2 p.cameraChain p.targetChain intr (plainCalib p.cameraChain p.targetChain cm tm cb) obs)
    (hgood : ∀ o ∈ good, o ∈ obs ∧ SeesQuadrangle o.correspondences ∧
      ((plainCalib p.cameraChain p.targetChain cm tm cb).predicts p.cameraChain p.targetChain o.cameraJoints
        o.targetJoints).inv.t.z ≠ 0)
    (hE : Enough p.cameraChain p.targetChain (jointsOf2 good) (plainCalib p.cameraChain p.targetChain cm tm cb) (calibOf r)) :
    r.finalCost = some 0 ↔ calibOf r = plainCalib p.cameraChain p.targetChain cm tm cb := by
  have hne : ∃ o ∈ obs, o.correspondences ≠ [] := by
    obtain ⟨q, hq⟩ : ∃ q, q ∈ jointsOf2 good := by
      cases hE with
      | camera _ ht => exact ⟨_, ht.choose_spec.1⟩
      | target _ ht => exact ⟨_, ht.choose_spec.1⟩
      | base _ ht => exact ⟨_, ht.choose_spec.1⟩
      | targetAlone ht _ => exact ⟨_, ht.choose_spec.1⟩
      | cameraAlone ht _ => exact ⟨_, ht.choose_spec.1⟩
    obtain ⟨o, ho, -⟩ := List.mem_map.1 hq
    obtain ⟨h1, ⟨a, ha, -⟩, -⟩ := hgood o ho
    exact ⟨o, h1, List.ne_nil_of_mem ha⟩
  rw [kin2_zero hK hs hs' h hz hne]
  constructor
  · rintro ⟨hex, hn⟩
    unfold kinematic2 at h
    obtain ⟨r1, r2, r3⟩ := C47_rigid K hK p _ r h
    have e := calibOf_plain hK h hn
    rw [e] at hex hE hz ⊢
    obtain ⟨e1, e2, e3⟩ := Enough.unique ((rigid_iff _).2 hcc) ((rigid_iff _).2 htc) ((rigid_iff _).2 hcm) ((rigid_iff _).2 htm)
      ((rigid_iff _).2 hcb) ((rigid_iff _).2 r1) ((rigid_iff _).2 r2) ((rigid_iff _).2 r3) hE (by
        intro q hq
        obtain ⟨o, ho, rfl⟩ := List.mem_map.1 hq
        obtain ⟨ho1, ⟨u, hu, v, hv, w, hw, x, hx, hquad⟩, hcam⟩ := hgood o ho
        have rT := predicts_rigid hcc htc (k := plainCalib p.cameraChain p.targetChain cm tm cb) ⟨hcm, htm, hcb⟩
          o.cameraJoints o.targetJoints
        have rT' := predicts_rigid hcc htc (k := plainCalib p.cameraChain p.targetChain r.cmToC r.tmToT r.cbToTb) ⟨r1, r2, r3⟩
          o.cameraJoints o.targetJoints
        have hz0 : ∀ c ∈ o.correspondences, 0 < (((plainCalib p.cameraChain p.targetChain r.cmToC r.tmToT r.cbToTb).predicts
            p.cameraChain p.targetChain o.cameraJoints o.targetJoints).apply c.inTarget).z := fun c hc =>
          lt_trans (by norm_num) (hz o ho1 c hc)
        have hzt := fun c hc => (hdata o ho1 c hc).1
        have hpix := fun c hc => (hex o ho1 c hc).symm.trans (hdata o ho1 c hc).2
        simp only at *
        generalize (plainCalib p.cameraChain p.targetChain r.cmToC r.tmToT r.cbToTb).predicts
            p.cameraChain p.targetChain o.cameraJoints o.targetJoints = T' at *
        generalize (plainCalib p.cameraChain p.targetChain cm tm cb).predicts p.cameraChain p.targetChain o.cameraJoints
            o.targetJoints = T at *
        have key : ∀ k ∈ o.correspondences, T'.apply k.inTarget =
            V3.smul ((T'.apply k.inTarget).z / (T.apply k.inTarget).z) (T.apply k.inTarget) := fun k hk =>
          pinhole_same hfx hfy (hz0 k hk).ne' (hzt k hk).ne' (hpix k hk)
        exact planar_unique rT' rT hquad hcam (div_pos (hz0 u hu) (hzt u hu)) (key u hu) (key v hv) (key w hw) (key x hx))
    rw [e1, e2, e3]
  · intro e
    rw [e]
    exact ⟨fun o ho c hc => (hdata o ho c hc).2, plainCalib_nominal _ _ _ _ _⟩

/-- If the camera chain is in the same pose in all measurements, any camera mount explains them equally well, with a suitable
transform between the bases of the chains. -/
theorem C221_camera_rests (cc tc : DHChain) (hcc : RigidMotion cc.base) (k : Calib) (hk : k.Rigid) (ms : List KinMeas) (A : Iso)
    (hA : ∀ m ∈ ms, endPose cc k.offC m.cameraJoints = A) (hex : Explains6 cc tc k ms) (X : Iso) (hX : RigidMotion X) :
    ∃ cb, RigidMotion cb ∧ Explains6 cc tc { k with cm := X, cb := cb } ms := by
  by_cases hne : ms = []
  · exact ⟨k.cb, hk.2.2, by rw [hne]; intro m hm; simp at hm⟩
  obtain ⟨m₀, hm₀⟩ := List.exists_mem_of_ne_nil _ hne
  have rA : A.IsRigid := by rw [← hA m₀ hm₀]; exact endPose_rigid ((rigid_iff _).2 hcc) _ _
  have rX := (rigid_iff _).2 hX
  have rc := (rigid_iff _).2 hk.1
  have rb := (rigid_iff _).2 hk.2.2
  refine ⟨A * X * (A * k.cm).inv * k.cb, (rigid_iff _).1 (((rA.mul rX).mul (rA.mul rc).inv).mul rb), fun m hm => ?_⟩
  rw [hex m hm]
  unfold Calib.predicts
  simp only
  rw [hA m hm]
  simp only [Iso.mul_assoc]
  have e : ∀ T : Iso, (A * X).inv * (A * (X * T)) = T := fun T => by
    rw [← Iso.mul_assoc A X T, Iso.inv_mul_cancel_left (rA.mul rX)]
  rw [e]

/-- The same for the target mount if the target chain is in the same pose in all measurements. -/
theorem C221_target_rests (cc tc : DHChain) (htc : RigidMotion tc.base) (k : Calib) (hk : k.Rigid) (ms : List KinMeas) (B : Iso)
    (hB : ∀ m ∈ ms, endPose tc k.offT m.targetJoints = B) (hex : Explains6 cc tc k ms) (Y : Iso) (hY : RigidMotion Y) :
    ∃ cb, RigidMotion cb ∧ Explains6 cc tc { k with tm := Y, cb := cb } ms := by
  by_cases hne : ms = []
  · exact ⟨k.cb, hk.2.2, by rw [hne]; intro m hm; simp at hm⟩
  obtain ⟨m₀, hm₀⟩ := List.exists_mem_of_ne_nil _ hne
  have rB : B.IsRigid := by rw [← hB m₀ hm₀]; exact endPose_rigid ((rigid_iff _).2 htc) _ _
  have rY := (rigid_iff _).2 hY
  have rt := (rigid_iff _).2 hk.2.1
  have rb := (rigid_iff _).2 hk.2.2
  refine ⟨k.cb * (B * k.tm) * (B * Y).inv, (rigid_iff _).1 ((rb.mul (rB.mul rt)).mul (rB.mul rY).inv), fun m hm => ?_⟩
  rw [hex m hm]
  unfold Calib.predicts
  simp only
  rw [hB m hm]
  simp only [Iso.mul_assoc]
  rw [Iso.inv_mul (rB.mul rY), Iso.mul_one]

/-! ### Example -/

/-- Two revolute joints with axes at right angles. -/
noncomputable def wristChain : DHChain :=
  ⟨[DHTransform.mk4 ⟨0, 0, 0, Real.pi / 2⟩ .revolute "a" 0, DHTransform.mk4 ⟨0, 0, 0, 0⟩ .revolute "b" 0], 1⟩

theorem wristChain_rigid : wristChain.base.IsRigid := Iso.IsRigid.one

theorem wrist_end (x y : ℝ) : nominalEnd wristChain [x, y] =
    ⟨⟨Real.cos x * Real.cos y, -(Real.cos x * Real.sin y), Real.sin x, Real.sin x * Real.cos y, -(Real.sin x * Real.sin y), -Real.cos x,
      Real.sin y, Real.cos y, 0⟩, ⟨0, 0, 0⟩⟩ := by
  have e : nominalEnd wristChain [x, y] = 1 * dhMatrix (0 + 0) (0 + 0 + x) (0 + 0) (Real.pi / 2 + 0) *
      dhMatrix (0 + 0) (0 + 0 + y) (0 + 0) (0 + 0) := rfl
  rw [e, Iso.one_mul, Iso.mul_def, M3.mul_def]
  ext <;> simp [dhMatrix, M3.mulVec]

def wrist0 : Iso := ⟨⟨1, 0, 0, 0, 0, -1, 0, 1, 0⟩, ⟨0, 0, 0⟩⟩
def wristA : Iso := ⟨⟨0, 0, 1, 1, 0, 0, 0, 1, 0⟩, ⟨0, 0, 0⟩⟩
def wristB : Iso := ⟨⟨0, -1, 0, 0, 0, -1, 1, 0, 0⟩, ⟨0, 0, 0⟩⟩

theorem wrist_0 : nominalEnd wristChain [0, 0] = wrist0 := by rw [wrist_end]; simp [wrist0]
theorem wrist_A : nominalEnd wristChain [Real.pi / 2, 0] = wristA := by rw [wrist_end]; simp [wristA]
theorem wrist_B : nominalEnd wristChain [0, Real.pi / 2] = wristB := by rw [wrist_end]; simp [wristB]

/-- First the target chain moves, then the camera chain. -/
noncomputable def wristJoints : List (List ℝ × List ℝ) :=
  [([0, 0], [0, 0]), ([0, 0], [Real.pi / 2, 0]), ([0, 0], [0, Real.pi / 2]), ([Real.pi / 2, 0], [0, 0]), ([0, Real.pi / 2], [0, 0])]

theorem wrist_target_alone : TargetTurnsAlone wristChain wristChain wristJoints := by
  refine ⟨([0, 0], [Real.pi / 2, 0]), by simp [wristJoints], ([0, 0], [0, 0]), by simp [wristJoints], ([0, 0], [0, Real.pi / 2]),
    by simp [wristJoints], ([0, 0], [0, 0]), by simp [wristJoints], ?_, ?_⟩
  · intro q hq
    simp only [List.mem_cons, List.not_mem_nil, or_false] at hq
    rcases hq with rfl | rfl | rfl <;> rfl
  · simp only
    rw [wrist_0, wrist_A, wrist_B]
    intro h
    have := congrArg V3.x h
    norm_num [turnVector, V3.cross, wrist0, wristA, wristB, Iso.inv, M3.tr, Iso.mul_def, M3.mul_def] at this

theorem wrist_camera : CameraTurns wristChain wristJoints := by
  refine ⟨([0, 0], [0, 0]), by simp [wristJoints], ([Real.pi / 2, 0], [0, 0]), by simp [wristJoints], ([0, 0], [0, 0]),
    by simp [wristJoints], ([0, Real.pi / 2], [0, 0]), by simp [wristJoints], ?_⟩
  simp only
  rw [wrist_0, wrist_A, wrist_B]
  intro h
  have := congrArg V3.x h
  norm_num [turnVector, V3.cross, wrist0, wristA, wristB, Iso.inv, M3.tr, Iso.mul_def, M3.mul_def] at this

/-- Both chains are such wrists; nothing is masked. -/
noncomputable def wristProblem : KinProblem where
  cameraChain := wristChain
  targetChain := wristChain
  cbToTb := shiftBy 10 (-10) 10

theorem wristProblem_sane : KinSane wristProblem := by
  constructor
  · intro a k hk; cases hk
  · intro a
    unfold kinSize wristProblem
    simp only [kinRows, DHChain.dof, wristChain]
    split
    · simp
    · split <;> simp

theorem wrist_returns {costs : List ((Nat → Mem) → Res (List ℝ))} (hne : costs ≠ [])
    (hev : ∀ f ∈ costs, ∃ l, f (kinInit wristProblem) = .ok l) : ∃ r, kinOptimize idKCeres wristProblem costs = .ok r :=
  C46_accepts idKCeres idKCeres_wf _ wristProblem_sane costs hne (by intro a k hk; cases hk) hev
    (by intro _ _ _ _; exact ⟨rfl, rfl⟩)

/-- The calibration of the example. -/
noncomputable def wristTruth (tm : Iso) : Calib := plainCalib wristChain wristChain 1 tm (shiftBy 10 (-10) 10)

theorem wrist_predicts (tm : Iso) (q : List ℝ × List ℝ) : (wristTruth tm).predicts wristChain wristChain q.1 q.2 =
    (nominalEnd wristChain q.1).inv * (shiftBy 10 (-10) 10 * (nominalEnd wristChain q.2 * tm)) := by
  rw [wristTruth, plain_predicts wristChain_rigid Iso.IsRigid.one, Iso.inv_one, Iso.one_mul]

/-- Non-vacuity of `C221_poses`: any target mount, measured exactly, with nothing known. -/
example (tm : Iso) (htm : RigidMotion tm) : ∃ (obs : List KinMeas) (r : KinResult), kinematic6 idKCeres wristProblem 1 obs = .ok r ∧
    Explains6 wristChain wristChain (wristTruth tm) obs ∧ (wristTruth tm).Rigid ∧
    Enough wristChain wristChain (jointsOf6 obs) (wristTruth tm) (calibOf r) := by
  obtain ⟨obs, hobs⟩ : ∃ obs : List KinMeas, obs =
    wristJoints.map fun q => ⟨(wristTruth tm).predicts wristChain wristChain q.1 q.2, q.1, q.2⟩ := ⟨_, rfl⟩
  have hj : jointsOf6 obs = wristJoints := by rw [hobs, jointsOf6, List.map_map]; exact List.map_id _
  obtain ⟨r, hr⟩ : ∃ r, kinematic6 idKCeres wristProblem 1 obs = .ok r := by
    refine wrist_returns (by rw [hobs]; simp [wristJoints]) fun f hf => ?_
    obtain ⟨m, hm, rfl⟩ := List.mem_map.1 hf
    unfold kinCost6
    rw [kinCameraToTarget_eq, if_pos, Res.ok_bind]
    · exact ⟨_, rfl⟩
    · rw [hobs] at hm
      obtain ⟨q, hq, rfl⟩ := List.mem_map.1 hm
      simp only [wristJoints, List.mem_cons, List.not_mem_nil, or_false] at hq
      rcases hq with rfl | rfl | rfl | rfl | rfl <;> simp [wristProblem, wristChain, DHChain.dof]
  refine ⟨obs, r, hr, ?_, ⟨(rigid_iff _).1 Iso.IsRigid.one, htm, (shiftBy_rep _ _ _).1⟩, ?_⟩
  · intro m hm
    rw [hobs] at hm
    obtain ⟨q, -, rfl⟩ := List.mem_map.1 hm
    rfl
  · rw [hj]
    exact .targetAlone wrist_target_alone wrist_camera

/-- The images of a square in the example. -/
noncomputable def wristImages : List KinObs :=
  wristJoints.map fun q => ⟨squareImage ⟨1, 1, 0, 0⟩ ((wristTruth 1).predicts wristChain wristChain q.1 q.2), q.1, q.2⟩

theorem wrist_depth {q : List ℝ × List ℝ} (hq : q ∈ wristJoints) :
    (∀ x ∈ squarePoints, 1 ≤ (((wristTruth 1).predicts wristChain wristChain q.1 q.2).apply x).z) ∧
    ((wristTruth 1).predicts wristChain wristChain q.1 q.2).inv.t.z ≠ 0 := by
  rw [wrist_predicts]
  simp only [wristJoints, List.mem_cons, List.not_mem_nil, or_false] at hq
  constructor
  · intro x hx
    simp only [squarePoints, List.mem_cons, List.not_mem_nil, or_false] at hx
    rcases hq with rfl | rfl | rfl | rfl | rfl <;> simp only [wrist_0, wrist_A, wrist_B] <;>
      rcases hx with rfl | rfl | rfl | rfl <;>
      norm_num [wrist0, wristA, wristB, shiftBy, Iso.apply, Iso.inv, M3.tr, M3.mulVec, Iso.mul_def, M3.mul_def]
  · rcases hq with rfl | rfl | rfl | rfl | rfl <;> simp only [wrist_0, wrist_A, wrist_B] <;>
      norm_num [wrist0, wristA, wristB, shiftBy, Iso.apply, Iso.inv, M3.tr, M3.mulVec, Iso.mul_def, M3.mul_def]

theorem kinRepresentable_shift (x y z : ℝ) : KinRepresentable (shiftBy x y z) :=
  ⟨(shiftBy_rep x y z).1, kinRepresentable_one.2⟩

/-- Non-vacuity of `C221_pixels`: perfect images with nothing known. -/
example : ∃ r, kinematic2 idKCeres wristProblem ⟨1, 1, 0, 0⟩ wristImages = .ok r ∧
    (∀ o ∈ wristImages, ∀ c ∈ o.correspondences,
      (((calibOf r).predicts wristChain wristChain o.cameraJoints o.targetJoints).apply c.inTarget).z > 1 / 10 ^ 10) ∧
    Explains2 wristChain wristChain ⟨1, 1, 0, 0⟩ (wristTruth 1) wristImages ∧
    (∀ o ∈ wristImages, SeesQuadrangle o.correspondences ∧
      ((wristTruth 1).predicts wristChain wristChain o.cameraJoints o.targetJoints).inv.t.z ≠ 0) ∧
    Enough wristChain wristChain (jointsOf2 wristImages) (wristTruth 1) (calibOf r) := by
  obtain ⟨r, hr⟩ : ∃ r, kinematic2 idKCeres wristProblem ⟨1, 1, 0, 0⟩ wristImages = .ok r := by
    refine wrist_returns (by simp [kinCosts2, wristImages, wristJoints, squareImage, squarePoints]) fun f hf => ?_
    obtain ⟨o, ho, hf⟩ := List.mem_flatMap.1 hf
    obtain ⟨c, -, rfl⟩ := List.mem_map.1 hf
    unfold kinCost2
    rw [kinCameraToTarget_eq, if_pos, Res.ok_bind]
    · exact ⟨_, rfl⟩
    · obtain ⟨q, hq, rfl⟩ := List.mem_map.1 ho
      simp only [wristJoints, List.mem_cons, List.not_mem_nil, or_false] at hq
      rcases hq with rfl | rfl | rfl | rfl | rfl <;> simp [wristProblem, wristChain, DHChain.dof]
  have hg : calibOf r = wristTruth 1 := by
    have h' := hr
    unfold kinematic2 at h'
    obtain ⟨R⟩ := kinOptimize_ok idKCeres_wf h'
    have hst : R.st = kinInit wristProblem := R.st_eq
    rw [← R.calibAt, hst]
    exact calibAt_init (p := wristProblem) kinRepresentable_one kinRepresentable_one (kinRepresentable_shift _ _ _)
  have hd : ∀ o ∈ wristImages, ∀ c ∈ o.correspondences,
      1 ≤ (((wristTruth 1).predicts wristChain wristChain o.cameraJoints o.targetJoints).apply c.inTarget).z := by
    intro o ho c hc
    obtain ⟨q, hq, rfl⟩ := List.mem_map.1 ho
    obtain ⟨x, hx, rfl⟩ := List.mem_map.1 hc
    exact (wrist_depth hq).1 x hx
  refine ⟨r, hr, ?_, ?_, ?_, ?_⟩
  · rw [hg]; intro o ho c hc
    exact lt_of_lt_of_le (by norm_num) (hd o ho c hc)
  · intro o ho c hc
    refine ⟨lt_of_lt_of_le one_pos (hd o ho c hc), ?_⟩
    obtain ⟨q, hq, rfl⟩ := List.mem_map.1 ho
    obtain ⟨x, hx, rfl⟩ := List.mem_map.1 hc
    rfl
  · intro o ho
    obtain ⟨q, hq, rfl⟩ := List.mem_map.1 ho
    exact ⟨squareImage_sees _ _, (wrist_depth hq).2⟩
  · have e : jointsOf2 wristImages = wristJoints := by rw [jointsOf2, wristImages, List.map_map]; exact List.map_id _
    rw [e]
    exact .targetAlone wrist_target_alone wrist_camera

/-- The same problem with a masked camera mount, guessed at `x`. -/
noncomputable def wristMasked (x : ℝ) : KinProblem :=
  { wristProblem with masks := fun a => if a = 2 ∨ a = 3 then [0, 1, 2] else [], cmToC := shiftBy x 0 0 }

theorem wristMasked_returns (x : ℝ) {obs : List KinMeas} (hj : jointsOf6 obs = wristJoints) :
    ∃ r, kinematic6 idKCeres (wristMasked x) 1 obs = .ok r := by
  obtain ⟨p, hp⟩ : ∃ p : KinProblem, p = wristMasked x := ⟨_, rfl⟩
  rw [← hp]
  have hmask : ∀ a, ∀ k ∈ p.masks a, (a = 2 ∨ a = 3) ∧ 0 ≤ k ∧ k < 3 := by
    rw [hp]
    intro a k hk
    simp only [wristMasked] at hk
    split at hk
    · rename_i h
      simp only [List.mem_cons, List.not_mem_nil, or_false] at hk
      exact ⟨h, by rcases hk with rfl | rfl | rfl <;> simp⟩
    · cases hk
  have hsize : ∀ a : Fin 8, (a = 2 ∨ a = 3 → kinSize p a = 3) ∧ kinSize p a < 2 ^ 31 := by
    rw [hp]
    intro a
    unfold kinSize wristMasked wristProblem
    simp only [kinRows, DHChain.dof, wristChain]
    constructor
    · rintro (rfl | rfl) <;> simp
    · split
      · simp
      · split <;> simp
  refine C46_accepts idKCeres idKCeres_wf _ ⟨fun a k hk => ?_, fun a => (hsize a).2⟩ _ ?_
    (fun a k hk => ?_) (fun f hf => ?_) (by intro _ _ _ _; exact ⟨rfl, rfl⟩)
  · obtain ⟨-, h1, h2⟩ := hmask a k hk
    unfold IsInt; constructor <;> linarith
  · intro h
    rw [List.map_eq_nil_iff] at h
    rw [h] at hj
    cases hj
  · obtain ⟨h0, h1, h2⟩ := hmask a k hk
    rw [(hsize a).1 h0]
    exact ⟨h1, h2⟩
  · obtain ⟨m, hm, rfl⟩ := List.mem_map.1 hf
    unfold kinCost6
    rw [kinCameraToTarget_eq, if_pos, Res.ok_bind]
    · exact ⟨_, rfl⟩
    · have hq : (m.cameraJoints, m.targetJoints) ∈ wristJoints := by rw [← hj]; exact List.mem_map.2 ⟨m, hm, rfl⟩
      simp only [wristJoints, List.mem_cons, List.not_mem_nil, or_false, Prod.mk.injEq] at hq
      rw [hp]
      rcases hq with ⟨h1, h2⟩ | ⟨h1, h2⟩ | ⟨h1, h2⟩ | ⟨h1, h2⟩ | ⟨h1, h2⟩ <;> rw [h1, h2] <;>
        simp [wristMasked, wristProblem, wristChain, DHChain.dof]

theorem wristMasked_masks (x : ℝ) (j : Fin 3) : (j.val : Int) ∈ (wristMasked x).masks 2 ∧ (j.val : Int) ∈ (wristMasked x).masks 3 := by
  fin_cases j <;> simp [wristMasked]

theorem wrist_target : TargetTurns wristChain wristJoints := by
  obtain ⟨a, ha, b, hb, c, hc, d, hd, -, h⟩ := wrist_target_alone
  exact ⟨a, ha, b, hb, c, hc, d, hd, h⟩

/-- Non-vacuity of `C221_masked`: the camera mount is masked, target mount and base are measured. -/
example (tm : Iso) (htm : RigidMotion tm) : ∃ (p : KinProblem) (obs : List KinMeas) (r : KinResult),
    kinematic6 idKCeres p 1 obs = .ok r ∧ p.cameraChain = wristChain ∧ p.targetChain = wristChain ∧ p.cmToC = 1 ∧
    p.cameraStdev ≠ 0 ∧ p.targetStdev ≠ 0 ∧ (∀ j : Fin 3, (j.val : Int) ∈ p.masks 2 ∧ (j.val : Int) ∈ p.masks 3) ∧
    Explains6 wristChain wristChain (wristTruth tm) obs ∧ TargetTurns wristChain (jointsOf6 obs) := by
  obtain ⟨obs, hobs⟩ : ∃ obs : List KinMeas, obs =
    wristJoints.map fun q => ⟨(wristTruth tm).predicts wristChain wristChain q.1 q.2, q.1, q.2⟩ := ⟨_, rfl⟩
  have hj : jointsOf6 obs = wristJoints := by rw [hobs, jointsOf6, List.map_map]; exact List.map_id _
  obtain ⟨r, hr⟩ := wristMasked_returns 0 hj
  refine ⟨_, obs, r, hr, rfl, rfl, ?_, by norm_num [wristMasked, wristProblem], by norm_num [wristMasked, wristProblem],
    wristMasked_masks 0, ?_, by rw [hj]; exact wrist_target⟩
  · rfl
  · intro m hm
    rw [hobs] at hm
    obtain ⟨q, -, rfl⟩ := List.mem_map.1 hm
    rfl

/-- Non-vacuity of `C221_camera_rests` and `C221_target_rests`: measurements with only one chain moving. -/
example (tm : Iso) : ∃ ms ms' : List KinMeas, ms.length = 2 ∧ ms'.length = 2 ∧
    Explains6 wristChain wristChain (wristTruth tm) (ms ++ ms') ∧
    (∀ m ∈ ms, endPose wristChain (wristTruth tm).offC m.cameraJoints = wrist0) ∧
    ∀ m ∈ ms', endPose wristChain (wristTruth tm).offT m.targetJoints = wrist0 := by
  obtain ⟨f, hf⟩ : ∃ f : List ℝ → List ℝ → KinMeas, f = fun a b => ⟨(wristTruth tm).predicts wristChain wristChain a b, a, b⟩ := ⟨_, rfl⟩
  refine ⟨[f [0, 0] [0, 0], f [0, 0] [1, 0]], [f [0, 0] [0, 0], f [1, 0] [0, 0]], rfl, rfl, ?_, ?_, ?_⟩
  · intro m hm
    simp only [List.cons_append, List.nil_append, List.mem_cons, List.not_mem_nil, or_false] at hm
    rcases hm with rfl | rfl | rfl | rfl <;> rw [hf]
  · intro m hm
    simp only [List.mem_cons, List.not_mem_nil, or_false] at hm
    rcases hm with rfl | rfl <;> rw [hf] <;> exact wrist_0
  · intro m hm
    simp only [List.mem_cons, List.not_mem_nil, or_false] at hm
    rcases hm with rfl | rfl <;> rw [hf] <;> exact wrist_0

end RCT
