import Verif.Lemmas.Kinematic
import Verif.Lemmas.Loops

/-! # C44-C47 Kinematic calibration -/

namespace RCT
open Spec

/-! ## C45 The pose residual is zero only for the measured pose -/

theorem kinPoseResidual_zero {X T : Iso} (hX : X.IsRigid) (hT : T.IsRigid) {w : ℝ} (hw : w ≠ 0) :
    ([(X * T.inv).t.x, (X * T.inv).t.y, (X * T.inv).t.z, w * X.R.toQuat.angularDistance T.R.toQuat] = [0, 0, 0, 0]) ↔
      T = X := by
  rw [angularDistance_eq hX hT]
  constructor
  · intro h
    simp only [List.cons.injEq, mul_eq_zero, hw, false_or, and_true] at h
    obtain ⟨h0, h1, h2, h3⟩ := h
    have hR := (rotAngle_eq_zero_iff hX hT).1 h3
    have ht : (X * T.inv).t = 0 := V3.ext h0 h1 h2
    have hm : X * T.inv = 1 := by
      have e : (X * T.inv).R = 1 := by
        simp only [Iso.mul_R, Iso.inv, hR]; exact hT.mul_tr
      calc X * T.inv = ⟨(X * T.inv).R, (X * T.inv).t⟩ := rfl
        _ = 1 := by rw [e, ht]; rfl
    have := congrArg (· * T) hm
    simp only [Iso.mul_assoc, Iso.inv_mul hT, Iso.mul_one, Iso.one_mul] at this
    exact this.symm
  · rintro rfl
    rw [Iso.mul_inv hX, (rotAngle_eq_zero_iff hX hX).2 rfl]
    simp

theorem kin_solve_loop {A B : Iso} (hA : A.IsRigid) (X : Iso) : A.inv * B = X ↔ A * X = B := by
  constructor
  · rintro rfl; exact Iso.mul_inv_cancel_left hA B
  · rintro rfl; exact Iso.inv_mul_cancel_left hA X

theorem ParamsAre.pose {cc tc : DHChain} {qc qt : List ℝ} {p : Nat → Mem} {offC offT : List V4} {cm tm cb : Iso}
    (hp : ParamsAre p cc.transforms.length tc.transforms.length offC offT cm tm cb)
    (h1 : qc.length ≤ cc.transforms.length) (h2 : qt.length ≤ tc.transforms.length) :
    kinCameraToTarget cc tc qc qt p =
      .ok ((endPose cc offC qc * cm).inv * (cb * endPose tc offT qt * tm)) := by
  obtain ⟨p0, p1, ⟨p2, a, p3, r3, b3⟩, ⟨p4, a', p5, r5, b5⟩, ⟨p6, a'', p7, r7, b7⟩⟩ := hp
  rw [kinCameraToTarget_eq, if_pos ⟨h1, h2⟩]
  unfold DHChain.dof
  rw [dhRows_eq p0, dhRows_eq p1, kinTransform_eq p2 p3 r3 b3, kinTransform_eq p4 p5 r5 b5, kinTransform_eq p6 p7 r7 b7]

theorem ParamsAre.rigid {p : Nat → Mem} {nc nt : Nat} {offC offT : List V4} {cm tm cb : Iso}
    (hp : ParamsAre p nc nt offC offT cm tm cb) : cm.IsRigid ∧ tm.IsRigid ∧ cb.IsRigid :=
  ⟨hp.2.2.1.2.choose_spec.2.1.rot, hp.2.2.2.1.2.choose_spec.2.1.rot, hp.2.2.2.2.2.choose_spec.2.1.rot⟩

/-- With a non-zero weight, the residual vanishes exactly when the measured pose closes the loop. -/
theorem C45_iff (cc tc : DHChain) (hcc : RigidMotion cc.base) (htc : RigidMotion tc.base) (w : ℝ) (hw : w ≠ 0)
    (m : KinMeas) (hm : RigidMotion m.cameraToTarget)
    (h1 : m.cameraJoints.length ≤ cc.transforms.length) (h2 : m.targetJoints.length ≤ tc.transforms.length)
    (p : Nat → Mem) (offC offT : List V4) (cm tm cb : Iso)
    (hp : ParamsAre p cc.transforms.length tc.transforms.length offC offT cm tm cb) :
    kinCost6 cc tc w m p = .ok [0, 0, 0, 0] ↔
      LoopCloses (endPose cc offC m.cameraJoints) cm m.cameraToTarget cb (endPose tc offT m.targetJoints) tm := by
  obtain ⟨r1, r2, r3⟩ := ParamsAre.rigid hp
  have hA : (endPose cc offC m.cameraJoints * cm).IsRigid := (endPose_rigid ((rigid_iff _).2 hcc) _ _).mul r1
  have hB : (cb * endPose tc offT m.targetJoints * tm).IsRigid :=
    (r3.mul (endPose_rigid ((rigid_iff _).2 htc) _ _)).mul r2
  unfold kinCost6 LoopCloses
  rw [ParamsAre.pose hp h1 h2, Res.ok_bind]
  simp only [Res.ok.injEq]
  rw [kinPoseResidual_zero ((rigid_iff _).2 hm) (hA.inv.mul hB) hw, kin_solve_loop hA]

/-! ## C44 Residuals are zero at the truth

Full statement: as below, without the condition of `ParamsAre` that rotation vectors are zero or longer than the double
epsilon, and without the condition on the depth. -/

/-- The pose residual is zero at the true parameters. -/
theorem C44_partial_pose (cc tc : DHChain) (hcc : RigidMotion cc.base) (htc : RigidMotion tc.base) (w : ℝ)
    (m : KinMeas) (hm : RigidMotion m.cameraToTarget)
    (h1 : m.cameraJoints.length ≤ cc.transforms.length) (h2 : m.targetJoints.length ≤ tc.transforms.length)
    (p : Nat → Mem) (offC offT : List V4) (cm tm cb : Iso)
    (hp : ParamsAre p cc.transforms.length tc.transforms.length offC offT cm tm cb)
    (hloop : LoopCloses (endPose cc offC m.cameraJoints) cm m.cameraToTarget cb (endPose tc offT m.targetJoints) tm) :
    kinCost6 cc tc w m p = .ok [0, 0, 0, 0] := by
  by_cases hw : w = 0
  · have := (C45_iff cc tc hcc htc 1 one_ne_zero m hm h1 h2 p offC offT cm tm cb hp).2 hloop
    unfold kinCost6 at this ⊢
    rw [ParamsAre.pose hp h1 h2, Res.ok_bind] at this ⊢
    simp only [Res.ok.injEq, List.cons.injEq, one_mul, and_true] at this ⊢
    rw [hw, zero_mul]
    exact ⟨this.1, this.2.1, this.2.2.1, rfl⟩
  · exact (C45_iff cc tc hcc htc w hw m hm h1 h2 p offC offT cm tm cb hp).2 hloop

theorem projectPointE_pinhole (i : Intr) (v : V3) (h : v.z > 1 / 10 ^ 10) : projectPointE i v = pinhole i v := by
  unfold projectPointE pinhole
  rw [sub_zero, if_pos h]
  simp only [M3.mulVec]
  ext <;> simp

/-- The pixel residual is zero at the true parameters, for a pixel that is the pinhole image of the point in front of the
camera. -/
theorem C44_partial_pixel (cc tc : DHChain) (hcc : RigidMotion cc.base) (intr : Intr) (X : Iso) (pt : V3)
    (qc qt : List ℝ) (ks : List Corr2) (h1 : qc.length ≤ cc.transforms.length) (h2 : qt.length ≤ tc.transforms.length)
    (p : Nat → Mem) (offC offT : List V4) (cm tm cb : Iso)
    (hp : ParamsAre p cc.transforms.length tc.transforms.length offC offT cm tm cb)
    (hloop : LoopCloses (endPose cc offC qc) cm X cb (endPose tc offT qt) tm) (hz : (X.apply pt).z > 1 / 10 ^ 10) :
    kinCost2 cc tc intr ⟨ks, qc, qt⟩ ⟨pinhole intr (X.apply pt), pt⟩ p = .ok [0, 0] := by
  have hA : (endPose cc offC qc * cm).IsRigid := (endPose_rigid ((rigid_iff _).2 hcc) _ _).mul (ParamsAre.rigid hp).1
  unfold kinCost2
  simp only
  rw [ParamsAre.pose hp h1 h2, Res.ok_bind, (kin_solve_loop hA X).2 hloop]
  simp only [projectPointE_pinhole intr _ hz, sub_self]

/-- Rotation vectors shorter than the double epsilon are replaced by zero: with such a true orientation the residual is not
zero at the truth. -/
theorem C44_negation (th : ℝ) (h0 : 0 < th) (h1 : th ≤ 1 / 2 ^ 52) (w : ℝ) (hw : w ≠ 0) :
    ∃ (cc tc : DHChain) (m : KinMeas) (p : Nat → Mem) (cm : Iso), RigidMotion cc.base ∧ RigidMotion tc.base ∧
      RigidMotion m.cameraToTarget ∧ StoresVec (p 2) cm.t ∧ StoresVec (p 3) ⟨0, 0, th⟩ ∧ IsRotVec ⟨0, 0, th⟩ cm.R ∧
      (∀ i o, i ≠ 3 → p i o = 0) ∧
      LoopCloses (endPose cc [] m.cameraJoints) cm m.cameraToTarget 1 (endPose tc [] m.targetJoints) 1 ∧
      kinCost6 cc tc w m p ≠ .ok [0, 0, 0, 0] := by
  have hu : (⟨0, 0, 1⟩ : V3).normSq = 1 := by simp [V3.normSq, V3.dot]
  have hrot : (AngleAxis.toMat ⟨th, ⟨0, 0, 1⟩⟩).IsRot := AngleAxis.toMat_isRot hu
  have hcm : (⟨AngleAxis.toMat ⟨th, ⟨0, 0, 1⟩⟩, 0⟩ : Iso).IsRigid := hrot
  have one_r : RigidMotion 1 := (rigid_iff 1).1 Iso.IsRigid.one
  refine ⟨⟨[], 1⟩, ⟨[], 1⟩, ⟨(⟨AngleAxis.toMat ⟨th, ⟨0, 0, 1⟩⟩, 0⟩ : Iso).inv, [], []⟩,
    fun i o => if i = 3 ∧ o = 2 then th else 0, ⟨AngleAxis.toMat ⟨th, ⟨0, 0, 1⟩⟩, 0⟩, one_r, one_r,
    (rigid_iff _).1 hcm.inv, by simp [StoresVec], by simp [StoresVec],
    ⟨⟨0, 0, 1⟩, th, turnsBy_toMat hu th, by ext <;> simp⟩, ?_, ?_, ?_⟩
  · intro i o hi; simp [hi]
  · unfold LoopCloses endPose
    rw [chainPose_nil_q]
    simp only [Iso.one_mul, Iso.mul_one]
    exact Iso.mul_inv hcm
  · have hz : (1 / 2 ^ 52 : ℝ) = dblEps := rfl
    have hsmall : kinTransform (Mem.v3 fun _ => 0) (⟨0, 0, th⟩ : V3) = 1 := by
      rw [kinTransform_small]
      · rfl
      · have : (⟨0, 0, th⟩ : V3).norm = th := by
          have := V3.norm_smul_unit hu th
          rw [abs_of_pos h0] at this
          have e : (⟨0, 0, th⟩ : V3) = V3.smul th ⟨0, 0, 1⟩ := by ext <;> simp
          rw [e]; exact this
        rw [this, ← hz]; exact not_lt.2 h1
    have hsm0 : kinTransform (Mem.v3 fun _ => 0) (Mem.v3 fun _ => 0) = 1 := by
      rw [kinTransform_small]
      · rfl
      · have : (Mem.v3 fun _ => 0) = 0 := rfl
        rw [this, V3.norm_eq_zero.2 rfl]; exact not_lt.2 dblEps_pos.le
    unfold kinCost6
    rw [kinCameraToTarget_eq, if_pos (by simp [DHChain.dof]), Res.ok_bind]
    have e3 : Mem.v3 (fun o => if True ∧ o = 2 then th else 0) = ⟨0, 0, th⟩ := by simp [Mem.v3]
    have hred : ∀ i : Nat, i ≠ 3 → (fun o : Nat => if i = 3 ∧ o = 2 then th else (0 : ℝ)) = fun _ => 0 := by
      intro i hi; funext o; simp [hi]
    simp only [hred 2 (by decide), hred 4 (by decide), hred 5 (by decide), hred 6 (by decide), hred 7 (by decide), e3,
      hsmall, hsm0, endPose, chainPose_nil_q, Iso.mul_one, Iso.inv_one]
    intro h
    simp only [Res.ok.injEq] at h
    have e := (kinPoseResidual_zero (T := 1) hcm.inv Iso.IsRigid.one hw).1 (by
      rw [← h]; simp only [Iso.inv_one, Iso.mul_one])
    have e' := congrArg (fun T : Iso => T.R.m01) e
    simp only [Iso.one_R, M3.one_m01, Iso.inv, M3.tr, AngleAxis.toMat] at e'
    have hs : Real.sin th > 0 := Real.sin_pos_of_pos_of_lt_pi h0 (by
      have := Real.pi_gt_three
      have h52 : (1 / 2 ^ 52 : ℝ) < 1 := by norm_num
      linarith)
    simp only [mul_zero, mul_one, zero_add] at e'
    linarith

/-! ## Non-vacuity -/

/-- Zero offsets and identity transforms: all parameters zero. -/
theorem paramsAre_zero (nc nt : Nat) :
    ParamsAre (fun _ _ => 0) nc nt (List.replicate nc 0) (List.replicate nt 0) 1 1 1 := by
  have hv : ∀ v : V3, v = 0 → StoresVec (fun _ => 0) v := by rintro v rfl; exact ⟨rfl, rfl, rfl⟩
  have hu : (⟨0, 0, 1⟩ : V3).normSq = 1 := by simp [V3.normSq, V3.dot]
  have hr : IsRotVec 0 (1 : M3) := by
    refine ⟨⟨0, 0, 1⟩, 0, ?_, by ext <;> simp⟩
    have := turnsBy_toMat hu 0
    rwa [AngleAxis.toMat_zero_angle] at this
  have ht : ∀ n : Nat, StoresTable (fun _ => 0) n (List.replicate n 0) := by
    intro n
    refine ⟨List.length_replicate, fun r v h c => ?_⟩
    have := List.mem_of_getElem? h
    rw [List.mem_replicate] at this
    rw [this.2]
    fin_cases c <;> rfl
  exact ⟨ht _, ht _, ⟨hv _ rfl, 0, hv _ rfl, hr, Or.inl rfl⟩, ⟨hv _ rfl, 0, hv _ rfl, hr, Or.inl rfl⟩,
    ⟨hv _ rfl, 0, hv _ rfl, hr, Or.inl rfl⟩⟩

/-- One revolute joint that carries the camera, turned by `q`, a fixed target at height 1. -/
noncomputable def kinExCamera : DHChain := ⟨[DHTransform.mk4 ⟨0, 0, 0, 0⟩ .revolute "j" 0], 1⟩
def kinExTarget : DHChain := ⟨[], ⟨1, ⟨0, 0, 1⟩⟩⟩

example (q w : ℝ) : kinCost6 kinExCamera kinExTarget w
    ⟨(endPose kinExCamera [0] [q]).inv * ⟨1, ⟨0, 0, 1⟩⟩, [q], []⟩ (fun _ _ => 0) = .ok [0, 0, 0, 0] := by
  have hb : kinExCamera.base.IsRigid := Iso.IsRigid.one
  have ht : kinExTarget.base.IsRigid := M3.IsRot.one
  have he := endPose_rigid hb [0] [q]
  refine C44_partial_pose _ _ ((rigid_iff _).1 hb) ((rigid_iff _).1 ht) w _ ((rigid_iff _).1 (he.inv.mul ht)) (by simp [kinExCamera])
    (by simp [kinExTarget]) _ [0] [] 1 1 1 (paramsAre_zero 1 0) ?_
  unfold LoopCloses
  simp only [Iso.one_mul, Iso.mul_one]
  rw [Iso.mul_inv_cancel_left he]
  rfl

example (q : ℝ) (intr : Intr) : kinCost2 kinExCamera kinExTarget intr ⟨[], [q], []⟩
    ⟨pinhole intr (((endPose kinExCamera [0] [q]).inv * ⟨1, ⟨0, 0, 1⟩⟩).apply 0), 0⟩ (fun _ _ => 0) = .ok [0, 0] := by
  have hb : kinExCamera.base.IsRigid := Iso.IsRigid.one
  have he := endPose_rigid hb [0] [q]
  refine C44_partial_pixel _ _ ((rigid_iff _).1 hb) intr _ 0 [q] [] [] (by simp [kinExCamera])
    (by simp [kinExTarget]) _ [0] [] 1 1 1 (paramsAre_zero 1 0) ?_ ?_
  · unfold LoopCloses
    simp only [Iso.one_mul, Iso.mul_one]
    rw [Iso.mul_inv_cancel_left he]
    rfl
  · simp [endPose, kinExCamera, DHTransform.mk4, chainPose, jointPose, dhMatrix, Iso.apply, Iso.inv, M3.tr, M3.mulVec,
      Iso.mul_def, M3.mul_def]
    norm_num

/-! ## Facts about a returned result -/

theorem kinMasks_find (p : KinProblem) (i : Fin 8) : (kinMasks p).find i.val = some (p.masks i) := by
  have h : List.finRange 8 = [0, 1, 2, 3, 4, 5, 6, 7] := by decide
  unfold kinMasks
  rw [h]
  simp only [List.foldl_cons, List.foldl_nil, SMap.find_insert]
  fin_cases i <;> rfl

theorem kinLabels_size (p : KinProblem) : (kinLabels p).size = 8 := by
  unfold kinLabels
  simp only
  generalize concatLabels _ = a
  generalize concatLabels _ = b
  simp [SMap.insert, SMap.size]

theorem chainLabels_length (c : DHChain) (s : String) : (chainLabels c s).length = kinRows c := by
  unfold chainLabels kinRows
  split <;> simp [DHChain.getParamLabels, DHChain.dof]

theorem concatLabels_length (l : List (Fin 4 → String)) : (concatLabels l).length = 4 * l.length := by
  have h : List.finRange 4 = [0, 1, 2, 3] := by decide
  unfold concatLabels
  rw [h]
  simp; omega

/-- Every group has as many labels as parameters. -/
theorem C46_label_count (p : KinProblem) (a : Fin 8) :
    ∃ l, (kinLabels p).find a.val = some l ∧ l.length = kinSize p a.val := by
  unfold kinLabels
  simp only [SMap.find_insert]
  fin_cases a
  · exact ⟨_, rfl, by rw [concatLabels_length, chainLabels_length]; rfl⟩
  · exact ⟨_, rfl, by rw [concatLabels_length, chainLabels_length]; rfl⟩
  all_goals exact ⟨_, rfl, rfl⟩

theorem usedBlocks_kin {costs : List ((Nat → Mem) → Res (List ℝ))} (h : costs ≠ []) :
    (usedBlocks (costs.map fun f => (⟨List.range 8, evalKin f⟩ : ResBlock Mem))).Perm (List.range 8) :=
  usedBlocks_const costs h (fun f => (⟨List.range 8, evalKin f⟩ : ResBlock Mem)) (List.range 8) List.nodup_range
    (fun _ _ => rfl)

theorem isConstantBlock_ok {blocks : List Block} {a : Nat} {c : Bool} (h : isConstantBlock blocks a = .ok c) :
    ∃ b ∈ blocks, b.addr = a ∧ b.constant = c := by
  unfold isConstantBlock at h
  split at h
  · rename_i b hb
    refine ⟨b, List.mem_of_find?_eq_some hb, ?_, ?_⟩
    · have := List.find?_some hb; simpa using this
    · cases h; rfl
  · cases h

/-- What a successful mask call holds constant: everything it is asked to, in any case. -/
theorem maskBlock_holds {masks : SMap Nat (List Int)} {b b' : Block} (h : maskBlock masks b = (b', .ok ())) :
    b'.addr = b.addr ∧ b'.size = b.size ∧ (∀ k, b.subset = none → b.Held k → b'.Held k) ∧
      ∀ k : Nat, (k : Int) ∈ b.requested masks → b'.Held k := by
  by_cases hr : b.requested masks = []
  · rw [maskBlock_nil _ _ hr] at h
    cases h
    simp [hr]
  · rw [maskBlock_cons _ _ hr] at h
    split at h
    · simp at h
    · split at h
      · cases h
        exact ⟨rfl, rfl, fun k _ _ => Or.inl rfl, fun k _ => Or.inl rfl⟩
      · split at h
        · cases h
          refine ⟨rfl, rfl, ?_, fun k hk => Or.inr ⟨_, rfl, (mem_sortUnique _ _).2 hk⟩⟩
          rintro k hs (h | ⟨s, h, -⟩)
          · exact Or.inl h
          · rw [hs] at h; cases h
        · simp at h

/-- Everything known about a returned result. -/
structure KinRun (K : KCeres) (p : KinProblem) (costs : List ((Nat → Mem) → Res (List ℝ))) (r : KinResult) : Type where
  blocks : List Block
  prior0 : List (ResBlock Mem)
  prior1 : List (ResBlock Mem)
  pb0 : List (ResBlock Mem)
  pb : List (ResBlock Mem)
  st : Nat → Mem
  pb0_eq : pb0 = costs.map fun f => ⟨List.range 8, evalKin f⟩
  pb_eq : pb = pb0 ++ prior0 ++ prior1
  ne : costs ≠ []
  masked : addSubsetParameterization (kinBlocks p (K.order pb0)) (kinMasks p) = (blocks, .ok ())
  h0 : kinPrior blocks 0 p.cameraChain p.cameraStdev = .ok prior0
  h1 : kinPrior blocks 1 p.targetChain p.targetStdev = .ok prior1
  printed : kinPrint blocks (kinLabels p) (kinMasks p) = .ok r.printed
  eval : ∀ f ∈ costs, ∃ l, f (kinInit p) = .ok l
  st_eq : st = (K.run blocks).solve pb (kinInit p)
  cov : computeCovariance ((K.run blocks).covSolverF pb st (kinSize p)) (K.order pb) (kinLabels p) (kinMasks p) =
    .ok r.covariance
  initialCost : r.initialCost = costPerObs pb (kinInit p)
  finalCost : r.finalCost = costPerObs pb st
  cmToC : r.cmToC = kinTransform (st 2).v3 (st 3).v3
  tmToT : r.tmToT = kinTransform (st 4).v3 (st 5).v3
  cbToTb : r.cbToTb = kinTransform (st 6).v3 (st 7).v3
  cameraOffsets : r.cameraOffsets = kinOffsets p.cameraChain (st 0)
  targetOffsets : r.targetOffsets = kinOffsets p.targetChain (st 1)

theorem kinOptimize_ok {K : KCeres} (hK : K.WF) {p : KinProblem} {costs : List ((Nat → Mem) → Res (List ℝ))}
    {r : KinResult} (h : kinOptimize K p costs = .ok r) : Nonempty (KinRun K p costs r) := by
  unfold kinOptimize at h
  simp only at h
  obtain ⟨pb0, hpb0⟩ : ∃ pb0, pb0 = costs.map fun f => (⟨List.range 8, evalKin f⟩ : ResBlock Mem) := ⟨_, rfl⟩
  rw [← hpb0] at h
  split at h
  · cases h
  · rename_i hne
    simp only [Res.bind_ok_iff] at h
    obtain ⟨u, hu, prior0, h0, prior1, h1, printed, hp, ls, hl, cov, hc, hr⟩ := h
    obtain ⟨bl, hbl⟩ : ∃ bl, bl = addSubsetParameterization (kinBlocks p (K.order pb0)) (kinMasks p) := ⟨_, rfl⟩
    rw [← hbl] at hu h0 h1 hp hc hr
    obtain ⟨pb, hpb⟩ : ∃ pb, pb = pb0 ++ prior0 ++ prior1 := ⟨_, rfl⟩
    rw [← hpb] at hc hr
    obtain ⟨st, hst⟩ : ∃ st, st = (K.run bl.1).solve pb (kinInit p) := ⟨_, rfl⟩
    rw [← hst] at hc hr
    have hmask : addSubsetParameterization (kinBlocks p (K.order pb0)) (kinMasks p) =
        (bl.1, .ok ()) := by rw [← hbl]; exact Prod.ext rfl hu
    have hcosts : costs ≠ [] := by
      rintro rfl
      have hp0 : pb0 = [] := hpb0
      have hord : K.order pb0 = [] := by
        have := hK.order_perm pb0
        rw [hp0, usedBlocks_nil] at this
        rw [hp0]; exact this.eq_nil
      by_cases hd : p.cameraChain.dof = 0
      · exact hne ⟨Or.inl hd, by simp [hp0]⟩
      · unfold kinPrior at h0
        rw [if_pos hd, Res.bind_ok_iff] at h0
        obtain ⟨c, hcst, -⟩ := h0
        obtain ⟨b, hb, -⟩ := isConstantBlock_ok hcst
        rw [hbl, hord, addSubset_eq_loop] at hb
        simp [kinBlocks, maskLoop] at hb
    have hev : ∀ f ∈ costs, ∃ l, f (kinInit p) = .ok l := by
      intro f hf
      rw [Res.mapList_ok_iff] at hl
      obtain ⟨l, -, hl⟩ := Forall₂.mem_left hl hf
      exact ⟨l, hl⟩
    simp only [Res.ok.injEq] at hr
    subst hr
    exact ⟨⟨bl.1, prior0, prior1, pb0, pb, st, hpb0, hpb, hcosts, hmask, h0, h1, hp, hev, hst, hc, rfl, rfl, rfl, rfl, rfl, rfl, rfl⟩⟩

namespace KinRun
variable {K : KCeres} {p : KinProblem} {costs : List ((Nat → Mem) → Res (List ℝ))} {r : KinResult}

theorem used0 (R : KinRun K p costs r) : (usedBlocks R.pb0).Perm (List.range 8) := by
  rw [R.pb0_eq]; exact usedBlocks_kin R.ne

/-- The blocks after masking. -/
theorem blocks_rel (R : KinRun K p costs r) :
    List.Forall₂ (fun b b' => maskBlock (kinMasks p) b = (b', .ok ())) (kinBlocks p (K.order R.pb0)) R.blocks := by
  have := R.masked
  rw [addSubset_eq_loop, maskLoop_ok] at this
  exact this

theorem block_of (R : KinRun K p costs r) (hK : K.WF) (a : Fin 8) :
    ∃ b ∈ R.blocks, b.addr = a.val ∧ b.size = kinSize p a.val ∧
      (∀ k : Nat, (k : Int) ∈ p.masks a → b.Held k) ∧
      ((a = 0 ∧ p.cameraChain.dof = 0) ∨ (a = 1 ∧ p.targetChain.dof = 0) → ∀ k, b.Held k) := by
  have hmem : a.val ∈ K.order R.pb0 := by
    rw [(hK.order_perm R.pb0).mem_iff, R.used0.mem_iff, List.mem_range]; exact a.2
  have hb : (⟨a.val, kinSize p a.val, decide (a.val = 0 ∧ p.cameraChain.dof = 0) || decide (a.val = 1 ∧ p.targetChain.dof = 0),
      none⟩ : Block) ∈ kinBlocks p (K.order R.pb0) := List.mem_map.2 ⟨a.val, hmem, rfl⟩
  obtain ⟨b', hb', hm⟩ := Forall₂.mem_left R.blocks_rel hb
  obtain ⟨h1, h2, h3, h4⟩ := maskBlock_holds hm
  refine ⟨b', hb', h1, h2, ?_, ?_⟩
  · intro k hk
    apply h4
    unfold Block.requested
    rw [kinMasks_find]; exact hk
  · intro hd k
    apply h3 k rfl
    left
    simp only [Bool.or_eq_true, decide_eq_true_eq]
    rcases hd with ⟨h, hd⟩ | ⟨h, hd⟩
    · left; exact ⟨by rw [h]; rfl, hd⟩
    · right; exact ⟨by rw [h]; rfl, hd⟩

/-- Masked elements keep their initial value. -/
theorem held (R : KinRun K p costs r) (hK : K.WF) (a : Fin 8) (k : Nat) (hk : (k : Int) ∈ p.masks a) :
    R.st a.val k = kinInit p a.val k := by
  obtain ⟨b, hb, ha, -, hh, -⟩ := R.block_of hK a
  rw [R.st_eq, ← ha]
  exact hK.held _ _ _ b hb k (hh k hk)

end KinRun

theorem kinOffsets_get {c : DHChain} {m : Mem} {r : Nat} {v : V4} (h : (kinOffsets c m)[r]? = some v) (j : Fin 4) :
    entry v j = m (c.transforms.length * j + r) := by
  unfold kinOffsets at h
  split at h
  · rename_i h0; rw [h0] at h; simp at h
  · rename_i h0
    unfold kinRows at h
    rw [if_pos h0] at h
    unfold Mem.dhRows at h
    rw [List.getElem?_map, Option.map_eq_some_iff] at h
    obtain ⟨r', hr', rfl⟩ := h
    have : r' = r := by
      rw [List.getElem?_eq_some_iff] at hr'
      obtain ⟨hlt, he⟩ := hr'
      simpa using he.symm
    subst this
    unfold DHChain.dof
    fin_cases j <;> simp [entry, mul_comm]

theorem kinOffsets_length (c : DHChain) (m : Mem) : (kinOffsets c m).length = c.transforms.length := by
  unfold kinOffsets
  split
  · simp [DHChain.dof]
  · rename_i h
    rw [dhRows_length, kinRows, if_pos h]; rfl

/-! ## C46 Blocks, labels and masks stay aligned -/

/-- Masks 0 and 1 freeze the listed entries of the camera and target chain offsets (position `rows * column + row`). -/
theorem C46_offsets_frozen (K : KCeres) (hK : K.WF) (p : KinProblem) (costs : List ((Nat → Mem) → Res (List ℝ)))
    (r : KinResult) (h : kinOptimize K p costs = .ok r) (row : Nat) (c : Fin 4) (v : V4) :
    (((p.cameraChain.transforms.length * c + row : Nat) : Int) ∈ p.masks 0 → r.cameraOffsets[row]? = some v →
      entry v c = 0) ∧
    (((p.targetChain.transforms.length * c + row : Nat) : Int) ∈ p.masks 1 → r.targetOffsets[row]? = some v →
      entry v c = 0) := by
  obtain ⟨R⟩ := kinOptimize_ok hK h
  constructor
  · intro hm hv
    rw [R.cameraOffsets] at hv
    rw [kinOffsets_get hv]
    have := R.held hK 0 _ hm
    simpa [kinInit] using this
  · intro hm hv
    rw [R.targetOffsets] at hv
    rw [kinOffsets_get hv]
    have := R.held hK 1 _ hm
    simpa [kinInit] using this

/-- Together with the mask made from a table of flags: a flagged entry of either table is reported as zero. -/
theorem C46_flagged_offsets (K : KCeres) (hK : K.WF) (p : KinProblem) (costs : List ((Nat → Mem) → Res (List ℝ)))
    (r : KinResult) (h : kinOptimize K p costs = .ok r) (flags flags' : Nat → Nat → Bool)
    (hm : p.masks 0 = (createDHMask p.cameraChain.transforms.length flags).map fun k : Nat => (k : Int))
    (hm' : p.masks 1 = (createDHMask p.targetChain.transforms.length flags').map fun k : Nat => (k : Int))
    (row : Nat) (c : Fin 4) (v : V4) :
    (r.cameraOffsets[row]? = some v → flags row c = true → entry v c = 0) ∧
    (r.targetOffsets[row]? = some v → flags' row c = true → entry v c = 0) := by
  obtain ⟨R⟩ := kinOptimize_ok hK h
  have hf := C46_offsets_frozen K hK p costs r h row c v
  constructor
  · intro hv hfl
    refine hf.1 ?_ hv
    rw [hm, List.mem_map]
    refine ⟨_, (createDHMask_mem _ _ _).2 ?_, rfl⟩
    have : row < r.cameraOffsets.length := (List.getElem?_eq_some_iff.1 hv).1
    rw [R.cameraOffsets, kinOffsets_length] at this
    exact ⟨row, c, this, c.2, hfl, rfl⟩
  · intro hv hfl
    refine hf.2 ?_ hv
    rw [hm', List.mem_map]
    refine ⟨_, (createDHMask_mem _ _ _).2 ?_, rfl⟩
    have : row < r.targetOffsets.length := (List.getElem?_eq_some_iff.1 hv).1
    rw [R.targetOffsets, kinOffsets_length] at this
    exact ⟨row, c, this, c.2, hfl, rfl⟩

/-- A component of a vector. -/
def vcomp (v : V3) (j : Fin 3) : ℝ := match j with | 0 => v.x | 1 => v.y | 2 => v.z

theorem V3.mem_vcomp (v : V3) (j : Fin 3) : v.mem j = vcomp v j := by fin_cases j <;> rfl

theorem kinTransform_t (t aa : V3) : (kinTransform t aa).t = t := by
  by_cases h : aa.norm > dblEps
  · rw [kinTransform_big h]
  · rw [kinTransform_small h]

theorem Mem.v3_vcomp (m : Mem) (j : Fin 3) : vcomp m.v3 j = m j := by fin_cases j <;> rfl

/-- Masks 2, 4 and 6 freeze components of the positions of the three reported transforms. -/
theorem C46_positions_frozen (K : KCeres) (hK : K.WF) (p : KinProblem) (costs : List ((Nat → Mem) → Res (List ℝ)))
    (r : KinResult) (h : kinOptimize K p costs = .ok r) (j : Fin 3) :
    ((j.val : Int) ∈ p.masks 2 → vcomp r.cmToC.t j = vcomp p.cmToC.t j) ∧
    ((j.val : Int) ∈ p.masks 4 → vcomp r.tmToT.t j = vcomp p.tmToT.t j) ∧
    ((j.val : Int) ∈ p.masks 6 → vcomp r.cbToTb.t j = vcomp p.cbToTb.t j) := by
  obtain ⟨R⟩ := kinOptimize_ok hK h
  rw [R.cmToC, R.tmToT, R.cbToTb, kinTransform_t, kinTransform_t, kinTransform_t]
  refine ⟨fun hm => ?_, fun hm => ?_, fun hm => ?_⟩
  · rw [Mem.v3_vcomp, ← V3.mem_vcomp]; exact R.held hK 2 j hm
  · rw [Mem.v3_vcomp, ← V3.mem_vcomp]; exact R.held hK 4 j hm
  · rw [Mem.v3_vcomp, ← V3.mem_vcomp]; exact R.held hK 6 j hm

/-- A rigid transform that position and rotation vector represent exactly: no rotation, or an angle above the double
epsilon. -/
def KinRepresentable (T : Iso) : Prop := RigidMotion T ∧ (rotAngle T.R = 0 ∨ rotAngle T.R > 1 / 2 ^ 52)

theorem kinTransform_aaOf {T : Iso} (h : KinRepresentable T) (t : V3) : kinTransform t (aaOf T) = ⟨T.R, t⟩ := by
  have hr : T.R.IsRot := (rigid_iff T).2 h.1
  obtain ⟨h1, h2, h3⟩ := hr.toAngleAxis
  have hang := toAngleAxis_angle hr
  have hn : (aaOf T).norm = rotAngle T.R := by
    unfold aaOf
    rw [V3.norm_smul_unit h1, abs_of_nonneg h2, hang]
  rcases h.2 with h0 | h0
  · rw [kinTransform_small (by rw [hn, h0]; exact not_lt.2 dblEps_pos.le)]
    congr 1
    rw [← h3]
    have : T.R.toAngleAxis = ⟨0, T.R.toAngleAxis.axis⟩ := by rw [← h0, ← hang]
    rw [this, AngleAxis.toMat_zero_angle]
  · have hb : (aaOf T).norm > dblEps := by rw [hn]; exact h0
    rw [kinTransform_big hb]
    congr 1
    have hv : IsRotVec (aaOf T) T.R := by
      refine ⟨T.R.toAngleAxis.axis, T.R.toAngleAxis.angle, ?_, rfl⟩
      have := turnsBy_toMat h1 T.R.toAngleAxis.angle
      rwa [show (⟨T.R.toAngleAxis.angle, T.R.toAngleAxis.axis⟩ : AngleAxis).toMat = T.R from h3] at this
    exact (IsRotVec.eq hv (ne_zero_of_norm hb)).symm

theorem v3_of_held {K : KCeres} (hK : K.WF) {p : KinProblem} {costs : List ((Nat → Mem) → Res (List ℝ))} {r : KinResult}
    (R : KinRun K p costs r) (a : Fin 8) (h : ∀ j : Fin 3, (j.val : Int) ∈ p.masks a) :
    (R.st a.val).v3 = (kinInit p a.val).v3 := by
  have h0 := R.held hK a 0 (h 0)
  have h1 := R.held hK a 1 (h 1)
  have h2 := R.held hK a 2 (h 2)
  simp only [Mem.v3, h0, h1, h2]

/-- Complete masks 3, 5 and 7 freeze the rotations of the three reported transforms. -/
theorem C46_rotations_frozen (K : KCeres) (hK : K.WF) (p : KinProblem) (costs : List ((Nat → Mem) → Res (List ℝ)))
    (r : KinResult) (h : kinOptimize K p costs = .ok r) :
    ((∀ j : Fin 3, (j.val : Int) ∈ p.masks 3) → KinRepresentable p.cmToC → r.cmToC.R = p.cmToC.R) ∧
    ((∀ j : Fin 3, (j.val : Int) ∈ p.masks 5) → KinRepresentable p.tmToT → r.tmToT.R = p.tmToT.R) ∧
    ((∀ j : Fin 3, (j.val : Int) ∈ p.masks 7) → KinRepresentable p.cbToTb → r.cbToTb.R = p.cbToTb.R) := by
  obtain ⟨R⟩ := kinOptimize_ok hK h
  rw [R.cmToC, R.tmToT, R.cbToTb]
  refine ⟨fun hm hr => ?_, fun hm hr => ?_, fun hm hr => ?_⟩
  · have := v3_of_held hK R 3 hm
    have this : (R.st 3).v3 = aaOf p.cmToC := this
    rw [this, kinTransform_aaOf hr]
  · have := v3_of_held hK R 5 hm
    have this : (R.st 5).v3 = aaOf p.tmToT := this
    rw [this, kinTransform_aaOf hr]
  · have := v3_of_held hK R 7 hm
    have this : (R.st 7).v3 = aaOf p.cbToTb := this
    rw [this, kinTransform_aaOf hr]

/-- The suffixes of the four DH parameters. -/
def dhSuffix (c : Fin 4) : String := match c with | 0 => "_d" | 1 => "_theta" | 2 => "_r" | 3 => "_alpha"

theorem chainLabels_get {c : DHChain} (s : String) {row : Nat} {t : DHTransform} (h : c.transforms[row]? = some t)
    (col : Fin 4) : (concatLabels (chainLabels c s))[c.transforms.length * col + row]? = some (t.name ++ dhSuffix col) := by
  have hlt : row < c.transforms.length := (List.getElem?_eq_some_iff.1 h).1
  have hd : c.dof ≠ 0 := by unfold DHChain.dof; omega
  have hl : (chainLabels c s).length = c.transforms.length := by
    rw [chainLabels_length, kinRows, if_pos hd]; rfl
  have hrow : row < (chainLabels c s).length := by omega
  have := concatLabels_get (chainLabels c s) row col hrow
  rw [hl] at this
  rw [this]
  congr 1
  have e : c.transforms[row]? = some t := h
  have hc : chainLabels c s = (c.transforms.map fun t => t.paramLabels).map fun l i => l.getD i.val "" := by
    unfold chainLabels DHChain.getParamLabels
    rw [if_pos hd]
  have hg : (chainLabels c s)[row]? = some fun i : Fin 4 => t.paramLabels.getD i.val "" := by
    rw [hc, List.getElem?_map, List.getElem?_map, e]; rfl
  rw [(List.getElem?_eq_some_iff.1 hg).2]
  fin_cases col <;> rfl

/-- Labels of the DH blocks: position `rows * column + row` carries the name of joint `row` and the suffix of the parameter. -/
theorem C46_dh_labels (p : KinProblem) (l l' : List String) (h : (kinLabels p).find 0 = some l)
    (h' : (kinLabels p).find 1 = some l') (row : Nat) (t : DHTransform) (col : Fin 4) :
    (p.cameraChain.transforms[row]? = some t →
      l[p.cameraChain.transforms.length * col + row]? = some (t.name ++ dhSuffix col)) ∧
    (p.targetChain.transforms[row]? = some t →
      l'[p.targetChain.transforms.length * col + row]? = some (t.name ++ dhSuffix col)) := by
  unfold kinLabels at h h'
  simp only [SMap.find_insert] at h h'
  have e0 : concatLabels (chainLabels p.cameraChain "camera_chain_placeholder") = l := by simpa using h
  have e1 : concatLabels (chainLabels p.targetChain "target_chain_placeholder") = l' := by simpa using h'
  subst e0 e1
  exact ⟨fun ht => chainLabels_get _ ht col, fun ht => chainLabels_get _ ht col⟩

/-! ## C47 Result -/

/-- One row of offsets per joint; the tables can be fed back into the chains: forward kinematics accepts them for every
joint vector the chain accepts. -/
theorem C47_tables (K : KCeres) (hK : K.WF) (p : KinProblem) (costs : List ((Nat → Mem) → Res (List ℝ)))
    (r : KinResult) (h : kinOptimize K p costs = .ok r) :
    r.cameraOffsets.length = p.cameraChain.transforms.length ∧ r.targetOffsets.length = p.targetChain.transforms.length ∧
    (∀ q, q.length ≤ p.cameraChain.transforms.length →
      p.cameraChain.getFK q r.cameraOffsets = .ok (endPose p.cameraChain r.cameraOffsets q)) ∧
    ∀ q, q.length ≤ p.targetChain.transforms.length →
      p.targetChain.getFK q r.targetOffsets = .ok (endPose p.targetChain r.targetOffsets q) := by
  obtain ⟨R⟩ := kinOptimize_ok hK h
  have h1 : r.cameraOffsets.length = p.cameraChain.transforms.length := by rw [R.cameraOffsets, kinOffsets_length]
  have h2 : r.targetOffsets.length = p.targetChain.transforms.length := by rw [R.targetOffsets, kinOffsets_length]
  refine ⟨h1, h2, fun q hq => ?_, fun q hq => ?_⟩
  · rw [getFK_eq, if_pos ⟨hq, by omega⟩]; rfl
  · rw [getFK_eq, if_pos ⟨hq, by omega⟩]; rfl

/-- Reported transforms are rigid. -/
theorem C47_rigid (K : KCeres) (hK : K.WF) (p : KinProblem) (costs : List ((Nat → Mem) → Res (List ℝ)))
    (r : KinResult) (h : kinOptimize K p costs = .ok r) :
    RigidMotion r.cmToC ∧ RigidMotion r.tmToT ∧ RigidMotion r.cbToTb := by
  obtain ⟨R⟩ := kinOptimize_ok hK h
  rw [R.cmToC, R.tmToT, R.cbToTb]
  exact ⟨(rigid_iff _).1 (kinTransform_rigid _ _), (rigid_iff _).1 (kinTransform_rigid _ _),
    (rigid_iff _).1 (kinTransform_rigid _ _)⟩

end RCT
