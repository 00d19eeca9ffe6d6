import Verif.Props.SimObservations
import Verif.Props.Kinematic
import Verif.Props.DHChain

/-!
# Simulated kinematic data and perturbations (C117 - C121, C123)
-/

namespace RCT
open Spec

/-- True camera and target poses of a simulated state, in the base of the camera chain. -/
noncomputable def SimSetup.cameraPose (S : SimSetup) (q : List ℝ) : Iso := nominalEnd S.cameraChain q * S.mountToCamera
noncomputable def SimSetup.targetPose (S : SimSetup) (q : List ℝ) : Iso :=
  S.cameraBaseToTargetBase * nominalEnd S.targetChain q * S.mountToTarget

theorem sampleAll_length (E : Engine) (ts : List DHTransform) (s : Option E.St) : (sampleAll E ts s).1.length = ts.length := by
  induction ts generalizing s with
  | nil => rfl
  | cons t ts ih => simp [sampleAll, ih]

theorem getFK0_eq (c : DHChain) (q : List ℝ) (h : q.length ≤ c.transforms.length) : c.getFK0 q = .ok (nominalEnd c q) := by
  unfold DHChain.getFK0
  rw [getFK_eq, if_pos ⟨h, by simpa [DHChain.dof] using h⟩]
  rfl

theorem simSample_eq (E : Engine) (S : SimSetup) (s : EngSt E) : ∃ qc qt s', simSample E S s =
    .ok ((qc, qt, S.cameraPose qc, S.targetPose qt), s') ∧ qc.length = S.cameraChain.transforms.length ∧
    qt.length = S.targetChain.transforms.length ∧
    (E.InRange → (∀ t ∈ S.cameraChain.transforms, t.min ≤ t.max) → WithinLimits S.cameraChain qc) ∧
    (E.InRange → (∀ t ∈ S.targetChain.transforms, t.min ≤ t.max) → WithinLimits S.targetChain qt) := by
  refine ⟨(S.cameraChain.createUniformlyRandomPose E s).1,
    (S.targetChain.createUniformlyRandomPose E (S.cameraChain.createUniformlyRandomPose E s).2).1,
    (S.targetChain.createUniformlyRandomPose E (S.cameraChain.createUniformlyRandomPose E s).2).2, ?_,
    sampleAll_length _ _ _, sampleAll_length _ _ _, fun hE hl => C15_limits E hE _ _ hl, fun hE hl => C15_limits E hE _ _ hl⟩
  · unfold simSample
    simp only
    have h : ∀ (c : DHChain) (s : EngSt E), c.getFK0 (c.createUniformlyRandomPose E s).1 =
        .ok (nominalEnd c (c.createUniformlyRandomPose E s).1) := fun c s => getFK0_eq _ _ (sampleAll_length E c.transforms s).le
    rw [h, Res.ok_bind, h, Res.ok_bind]
    rfl

/-! ### C117 The sampling loop -/

open Classical in
/-- What every simulated camera observation satisfies: one value per joint, the camera faces the target, and the
correspondences, of which there is at least one, are the visible target points. -/
def SimObsOk (S : SimSetup) (cam : SimCamera) (pts : List V3) (o : KinObs) : Prop :=
  o.cameraJoints.length = S.cameraChain.transforms.length ∧ o.targetJoints.length = S.targetChain.transforms.length ∧
  Faces (S.cameraPose o.cameraJoints) (S.targetPose o.targetJoints) ∧ o.correspondences ≠ [] ∧
  o.correspondences = (pts.filter fun p => decide (Visible cam.intr cam.width cam.height
      ((S.cameraPose o.cameraJoints).inv.apply ((S.targetPose o.targetJoints).apply p)))).map fun p =>
    ⟨pinhole cam.intr ((S.cameraPose o.cameraJoints).inv.apply ((S.targetPose o.targetJoints).apply p)), p⟩

/-- Both chains are inside their limits. -/
def SimObsIn (S : SimSetup) (o : KinObs) : Prop :=
  WithinLimits S.cameraChain o.cameraJoints ∧ WithinLimits S.targetChain o.targetJoints

theorem faces_iff (a b : Iso) : a.zAxis.dot b.zAxis < -(2 / 10) ↔ Faces a b := by
  unfold Faces Iso.zAxis V3.dot
  rw [show (-(2 / 10) : ℝ) = -(1 / 5) by norm_num]

theorem simStep_eq (E : Engine) (S : SimSetup) (cam : SimCamera) (pts : List V3) (l : SimLoop E) :
    ∃ l', simStep E S cam pts l = .ok l' ∧ l'.attempts = l.attempts + 1 ∧
      ((l'.observations = l.observations ∧ l'.correspondences = l.correspondences) ∨
        ∃ o, SimObsOk S cam pts o ∧ l'.observations = l.observations ++ [o] ∧
          l'.correspondences = l.correspondences + o.correspondences.length ∧
          (E.InRange → (∀ t ∈ S.cameraChain.transforms, t.min ≤ t.max) → (∀ t ∈ S.targetChain.transforms, t.min ≤ t.max) →
            SimObsIn S o)) := by
  obtain ⟨qc, qt, s', hs, h1, h2, h3, h4⟩ := simSample_eq E S l.rng
  unfold simStep
  rw [hs, Res.ok_bind]
  simp only [C114_visible]
  by_cases hf : Faces (S.cameraPose qc) (S.targetPose qt)
  · rw [if_pos ((faces_iff _ _).2 hf)]
    split_ifs with he
    · exact ⟨_, rfl, rfl, Or.inl ⟨rfl, rfl⟩⟩
    · refine ⟨_, rfl, rfl, Or.inr ⟨⟨_, qc, qt⟩, ⟨h1, h2, hf, ?_, rfl⟩, rfl, rfl, fun a b c => ⟨h3 a b, h4 a c⟩⟩⟩
      simpa [List.isEmpty_iff] using he
  · rw [if_neg (mt (faces_iff _ _).1 hf)]
    exact ⟨_, rfl, rfl, Or.inl ⟨rfl, rfl⟩⟩

/-- Invariant of the loop. -/
def SimLoop.Inv (E : Engine) (S : SimSetup) (cam : SimCamera) (pts : List V3) (l : SimLoop E) : Prop :=
  (∀ o ∈ l.observations, SimObsOk S cam pts o ∧ (E.InRange → (∀ t ∈ S.cameraChain.transforms, t.min ≤ t.max) →
    (∀ t ∈ S.targetChain.transforms, t.min ≤ t.max) → SimObsIn S o)) ∧
  l.correspondences = (l.observations.map fun o => o.correspondences.length).sum

theorem simLoop_eq (E : Engine) (S : SimSetup) (cam : SimCamera) (pts : List V3) (needed fuel : Nat) (l : SimLoop E)
    (hi : l.Inv E S cam pts) (ha : l.attempts ≤ 10000) (hf : 10000 ≤ fuel + l.attempts) :
    ∃ l', simLoop E S cam pts needed fuel l = .ok (some l') ∧ l'.Inv E S cam pts ∧ l'.attempts ≤ 10000 := by
  induction fuel generalizing l with
  | zero =>
    unfold simLoop
    rw [if_neg (by omega)]
    exact ⟨l, rfl, hi, ha⟩
  | succ n ih =>
    unfold simLoop
    by_cases hc : l.correspondences < needed ∧ l.attempts < 10000
    · rw [if_pos hc]
      obtain ⟨l', h1, h2, h3⟩ := simStep_eq E S cam pts l
      simp only [h1, Res.ok_bind]
      apply ih l'
      · rcases h3 with ⟨h4, h5⟩ | ⟨o, h4, h5, h6, h7⟩
        · refine ⟨?_, ?_⟩
          · rw [h4]; exact hi.1
          · rw [h4, h5]; exact hi.2
        · refine ⟨?_, ?_⟩
          · rw [h5]
            intro o' ho'
            rcases List.mem_append.1 ho' with h | h
            · exact hi.1 o' h
            · rw [List.mem_singleton] at h; subst h; exact ⟨h4, h7⟩
          · rw [h5, h6, hi.2]; simp
      · omega
      · omega
    · rw [if_neg hc]; exact ⟨l, rfl, hi, ha⟩

/-- C117: after at most 10000 attempts the creator either throws a runtime error or returns observations that are all usable
and together contain at least the requested number of correspondences. -/
theorem C117_outcome (E : Engine) (S : SimSetup) (cam : SimCamera) (pts : List V3) (n fuel : Nat) (hf : 10000 ≤ fuel)
    (s : EngSt E) :
    simKinObs2 E S cam pts n fuel s = .throw .runtimeError ∨
    ∃ obs s', simKinObs2 E S cam pts n fuel s = .ok (some (obs, s')) ∧
      n * pts.length ≤ (obs.map fun o => o.correspondences.length).sum ∧
      (∀ o ∈ obs, SimObsOk S cam pts o) ∧
      (E.InRange → (∀ t ∈ S.cameraChain.transforms, t.min ≤ t.max) → (∀ t ∈ S.targetChain.transforms, t.min ≤ t.max) →
        ∀ o ∈ obs, SimObsIn S o) := by
  obtain ⟨l, h1, h2, h3⟩ := simLoop_eq E S cam pts (n * pts.length) fuel ⟨[], 0, 0, s⟩ ⟨by simp, by simp⟩ (by simp) (by simpa using hf)
  unfold simKinObs2
  simp only
  rw [h1, Res.ok_bind]
  simp only
  split_ifs with hb
  · exact Or.inl rfl
  · push Not at hb
    refine Or.inr ⟨_, _, rfl, ?_, fun o ho => (h2.1 o ho).1, fun a b c o ho => (h2.1 o ho).2 a b c⟩
    rw [← h2.2]; exact hb.2

theorem SimObsOk.le {S : SimSetup} {cam : SimCamera} {pts : List V3} {o : KinObs} (h : SimObsOk S cam pts o) :
    o.correspondences.length ≤ pts.length := by
  rw [h.2.2.2.2, List.length_map]; exact List.length_filter_le ..

/-- C117: at least as many observations as requested are returned. -/
theorem C117_count (E : Engine) (S : SimSetup) (cam : SimCamera) (pts : List V3) (n fuel : Nat) (hf : 10000 ≤ fuel)
    (s : EngSt E) (obs : List KinObs) (s' : EngSt E) (h : simKinObs2 E S cam pts n fuel s = .ok (some (obs, s')))
    (hp : pts ≠ []) : n ≤ obs.length := by
  rcases C117_outcome E S cam pts n fuel hf s with h' | ⟨obs', s'', h', hs, ho, -⟩
  · rw [h] at h'; cases h'
  · rw [h] at h'; cases h'
    have : (obs.map fun o => o.correspondences.length).sum ≤ obs.length * pts.length := by
      clear h hs
      induction obs with
      | nil => simp
      | cons o obs ih =>
        simp only [List.map_cons, List.sum_cons, List.length_cons, Nat.add_mul, Nat.one_mul]
        have h1 := (ho o (by simp)).le
        have h2 := ih fun o ho' => ho o (by simp [ho'])
        omega
    exact Nat.le_of_mul_le_mul_right (hs.trans this) (List.length_pos_of_ne_nil hp)

/-- C117: if no state of the chains shows the target to the camera, the creator throws. -/
theorem C117_throws (E : Engine) (S : SimSetup) (cam : SimCamera) (pts : List V3) (n fuel : Nat) (hf : 10000 ≤ fuel)
    (s : EngSt E) (hn : 0 < n) (hp : pts ≠ [])
    (hno : ∀ qc qt, ¬ Faces (S.cameraPose qc) (S.targetPose qt) ∨ ∀ p ∈ pts, ¬ Visible cam.intr cam.width cam.height
      ((S.cameraPose qc).inv.apply ((S.targetPose qt).apply p))) :
    simKinObs2 E S cam pts n fuel s = .throw .runtimeError := by
  rcases C117_outcome E S cam pts n fuel hf s with h | ⟨obs, s', h, hs, ho, -⟩
  · exact h
  · exfalso
    have hc := C117_count E S cam pts n fuel hf s obs s' h hp
    cases obs with
    | nil => simp at hc; omega
    | cons o obs =>
      obtain ⟨-, -, h1, h2, h3⟩ := ho o (by simp)
      rcases hno o.cameraJoints o.targetJoints with h4 | h4
      · exact h4 h1
      · apply h2
        rw [h3, List.map_eq_nil_iff, List.filter_eq_nil_iff]
        intro p hp; simpa using h4 p hp

/-! ### C118 Zero residuals at the truth -/

theorem SimSetup.loop {S : SimSetup} (h1 : S.cameraChain.base.IsRigid) (h2 : S.mountToCamera.IsRigid) (qc qt : List ℝ) :
    LoopCloses (nominalEnd S.cameraChain qc) S.mountToCamera ((S.cameraPose qc).inv * S.targetPose qt)
      S.cameraBaseToTargetBase (nominalEnd S.targetChain qt) S.mountToTarget := by
  unfold LoopCloses
  exact Iso.mul_inv_cancel_left ((endPose_rigid h1 _ _).mul h2) _

theorem simKinMeas_eq (E : Engine) (S : SimSetup) (n : Nat) (s : EngSt E) : ∃ ms s', simKinMeas E S n s = .ok (ms, s') ∧
    ms.length = n ∧ ∀ m ∈ ms, m.cameraJoints.length = S.cameraChain.transforms.length ∧
      m.targetJoints.length = S.targetChain.transforms.length ∧
      m.cameraToTarget = (S.cameraPose m.cameraJoints).inv * S.targetPose m.targetJoints := by
  induction n generalizing s with
  | zero => exact ⟨[], s, rfl, rfl, by simp⟩
  | succ n ih =>
    obtain ⟨qc, qt, s1, h, h1, h2, -⟩ := simSample_eq E S s
    obtain ⟨ms, s2, h3, h4, h5⟩ := ih s1
    refine ⟨⟨(S.cameraPose qc).inv * S.targetPose qt, qc, qt⟩ :: ms, s2, ?_, by simp [h4], ?_⟩
    · simp only [simKinMeas, h, Res.ok_bind, h3]
    · intro m hm
      rcases List.mem_cons.1 hm with rfl | hm
      · exact ⟨h1, h2, rfl⟩
      · exact h5 m hm

theorem simKinObs3_eq (E : Engine) (S : SimSetup) (pts : List V3) (n : Nat) (s : EngSt E) :
    ∃ os s', simKinObs3 E S pts n s = .ok (os, s') ∧
    os.length = n ∧ ∀ o ∈ os, o.cameraJoints.length = S.cameraChain.transforms.length ∧
      o.targetJoints.length = S.targetChain.transforms.length ∧
      o.correspondences = pts.map fun p => ⟨(S.cameraPose o.cameraJoints).inv.apply ((S.targetPose o.targetJoints).apply p), p⟩ := by
  induction n generalizing s with
  | zero => exact ⟨[], s, rfl, rfl, by simp⟩
  | succ n ih =>
    obtain ⟨qc, qt, s1, h, h1, h2, -⟩ := simSample_eq E S s
    obtain ⟨os, s2, h3, h4, h5⟩ := ih s1
    refine ⟨⟨simCorrs3 (S.cameraPose qc) (S.targetPose qt) pts, qc, qt⟩ :: os, s2, ?_, by simp [h4], ?_⟩
    · simp only [simKinObs3, h, Res.ok_bind, h3]
    · intro o ho
      rcases List.mem_cons.1 ho with rfl | ho
      · exact ⟨h1, h2, C114_3d _ _ _⟩
      · exact h5 o ho

/-- C118: `n` measurements are returned; each closes the loop and has zero residuals at the true parameters. -/
theorem C118_measurements (E : Engine) (S : SimSetup) (hc : RigidMotion S.cameraChain.base)
    (ht : RigidMotion S.targetChain.base) (n : Nat) (s : EngSt E) (w : ℝ) (p : Nat → Mem)
    (hp : ParamsAre p S.cameraChain.transforms.length S.targetChain.transforms.length
      (List.replicate S.cameraChain.transforms.length 0) (List.replicate S.targetChain.transforms.length 0)
      S.mountToCamera S.mountToTarget S.cameraBaseToTargetBase) :
    ∃ ms s', simKinMeas E S n s = .ok (ms, s') ∧ ms.length = n ∧ ∀ m ∈ ms,
      LoopCloses (nominalEnd S.cameraChain m.cameraJoints) S.mountToCamera m.cameraToTarget
        S.cameraBaseToTargetBase (nominalEnd S.targetChain m.targetJoints) S.mountToTarget ∧
      kinCost6 S.cameraChain S.targetChain w m p = .ok [0, 0, 0, 0] := by
  obtain ⟨r1, r2, r3⟩ := ParamsAre.rigid hp
  have hc' := (rigid_iff _).2 hc
  have ht' := (rigid_iff _).2 ht
  obtain ⟨ms, s', h, hl, hm⟩ := simKinMeas_eq E S n s
  refine ⟨ms, s', h, hl, fun m hmm => ?_⟩
  obtain ⟨h1, h2, h3⟩ := hm m hmm
  have hloop := SimSetup.loop (S := S) hc' r1 m.cameraJoints m.targetJoints
  rw [← h3] at hloop
  have hr : m.cameraToTarget.IsRigid := by
    rw [h3]
    exact ((endPose_rigid hc' _ _).mul r1).inv.mul ((r3.mul (endPose_rigid ht' _ _)).mul r2)
  exact ⟨hloop, C44_partial_pose _ _ hc ht w m ((rigid_iff _).1 hr) h1.le h2.le p _ _ _ _ _ hp hloop⟩

/-- C118: every correspondence of the simulated observations more than 1e-10 in front of the camera has zero residuals at the
true parameters. -/
theorem C118_pixels (E : Engine) (S : SimSetup) (hc : RigidMotion S.cameraChain.base) (cam : SimCamera) (pts : List V3)
    (n fuel : Nat) (hf : 10000 ≤ fuel) (s : EngSt E) (obs : List KinObs) (s' : EngSt E)
    (h : simKinObs2 E S cam pts n fuel s = .ok (some (obs, s'))) (p : Nat → Mem)
    (hp : ParamsAre p S.cameraChain.transforms.length S.targetChain.transforms.length
      (List.replicate S.cameraChain.transforms.length 0) (List.replicate S.targetChain.transforms.length 0)
      S.mountToCamera S.mountToTarget S.cameraBaseToTargetBase) :
    ∀ o ∈ obs, ∀ k ∈ o.correspondences,
      ((S.cameraPose o.cameraJoints).inv.apply ((S.targetPose o.targetJoints).apply k.inTarget)).z > 1 / 10 ^ 10 →
      kinCost2 S.cameraChain S.targetChain cam.intr o k p = .ok [0, 0] := by
  rcases C117_outcome E S cam pts n fuel hf s with h' | ⟨obs', s'', h', -, ho, -⟩
  · rw [h] at h'; cases h'
  · rw [h] at h'; cases h'
    intro o hoo k hk hz
    obtain ⟨h1, h2, -, -, h5⟩ := ho o hoo
    rw [h5] at hk
    obtain ⟨q, -, rfl⟩ := List.mem_map.1 hk
    simp only [← Iso.apply_mul] at hz ⊢
    exact C44_partial_pixel _ _ hc cam.intr _ q o.cameraJoints o.targetJoints o.correspondences h1.le h2.le p _ _ _ _ _ hp
      (SimSetup.loop ((rigid_iff _).2 hc) (ParamsAre.rigid hp).1 _ _) hz

/-- C118: without a camera `n` observations are returned, of all target points in camera coordinates. -/
theorem C118_3d (E : Engine) (S : SimSetup) (pts : List V3) (n : Nat) (s : EngSt E) :
    ∃ os s', simKinObs3 E S pts n s = .ok (os, s') ∧ os.length = n ∧ ∀ o ∈ os, o.correspondences = pts.map fun p =>
      ⟨(S.cameraPose o.cameraJoints).inv.apply ((S.targetPose o.targetJoints).apply p), p⟩ := by
  obtain ⟨os, s', h, hl, ho⟩ := simKinObs3_eq E S pts n s
  exact ⟨os, s', h, hl, fun o h => (ho o h).2.2⟩

/-! ### C123 Conversion to Cartesian observations -/

theorem SimSetup.camera_inv {S : SimSetup} (hc : S.cameraChain.base.IsRigid) (q : List ℝ) (v : V3) :
    S.mountToCamera.inv.apply ((nominalEnd S.cameraChain q).inv.apply v) = (S.cameraPose q).inv.apply v := by
  unfold SimSetup.cameraPose
  rw [Iso.mul_inv_rev (show (nominalEnd S.cameraChain q).IsRigid from endPose_rigid hc _ _), Iso.apply_mul]

theorem simChainObs3_eq (E : Engine) (S : SimSetup) (pts : List V3) (n : Nat) (s : EngSt E) :
    ∃ obs, simChainObs3 E S pts n s = .ok obs ∧ obs.length = n ∧ ∀ o ∈ obs, ∃ qc qt, o.toCameraMount = nominalEnd S.cameraChain qc ∧
      o.toTargetMount = nominalEnd S.targetChain qt ∧
      o.corrs = pts.map fun p => ⟨(S.cameraPose qc).inv.apply ((S.targetPose qt).apply p), p⟩ := by
  obtain ⟨os, s', h, hl, ho⟩ := simKinObs3_eq E S pts n s
  unfold simChainObs3
  rw [h, Res.ok_bind]
  refine ⟨_, Res.mapList_ok_of_forall (g := fun o => ⟨o.correspondences, nominalEnd S.cameraChain o.cameraJoints,
    nominalEnd S.targetChain o.targetJoints⟩) ?_, by simp [hl], ?_⟩
  · intro o hoo
    obtain ⟨h1, h2, -⟩ := ho o hoo
    simp only [getFK0_eq _ _ h1.le, getFK0_eq _ _ h2.le, Res.ok_bind]
  · intro o hoo
    obtain ⟨o', ho', rfl⟩ := List.mem_map.1 hoo
    exact ⟨o'.cameraJoints, o'.targetJoints, rfl, rfl, (ho o' ho').2.2⟩

theorem Iso.apply_inj {A : Iso} (hA : A.IsRigid) {p q : V3} : A.apply p = A.apply q ↔ p = q := by
  constructor
  · intro h
    have := congrArg A.inv.apply h
    rwa [Iso.inv_apply_apply hA, Iso.inv_apply_apply hA] at this
  · rintro rfl; rfl

/-- C123 (exact condition). Full statement: the Cartesian observations made from two chains are explained by the true mount
transforms. In fact a correspondence is explained exactly if the target point, as seen from the base of the target chain, is a
fixed point of the transform between the two bases. -/
theorem C123_partial_iff (E : Engine) (S : SimSetup) (hc : RigidMotion S.cameraChain.base) (hm : RigidMotion S.mountToCamera)
    (pts : List V3) (n : Nat) (s : EngSt E) :
    ∃ obs, simChainObs3 E S pts n s = .ok obs ∧ obs.length = n ∧ ∀ f ∈ features obs,
      (inCamera3 S.mountToCamera S.mountToTarget f = f.2.inImage ↔
        S.cameraBaseToTargetBase.apply ((f.1.toTargetMount * S.mountToTarget).apply f.2.inTarget) =
          (f.1.toTargetMount * S.mountToTarget).apply f.2.inTarget) := by
  have hc := (rigid_iff _).2 hc; have hm := (rigid_iff _).2 hm
  obtain ⟨obs, h, hl, ho⟩ := simChainObs3_eq E S pts n s
  refine ⟨obs, h, hl, fun f hf => ?_⟩
  obtain ⟨h1, h2⟩ := mem_features.1 hf
  obtain ⟨qc, qt, e1, e2, e3⟩ := ho _ h1
  rw [e3] at h2
  obtain ⟨p, -, hp⟩ := List.mem_map.1 h2
  unfold inCamera3 targetInCamera
  rw [← hp, e1, e2]
  simp only [Iso.apply_mul, SimSetup.camera_inv hc]
  rw [Iso.apply_inj (show (S.cameraPose qc).inv.IsRigid from ((endPose_rigid hc _ _).mul hm).inv)]
  unfold SimSetup.targetPose
  simp only [Iso.apply_mul]
  exact eq_comm

/-- C123 (positive part): with coinciding bases all correspondences are explained. -/
theorem C123_partial (E : Engine) (S : SimSetup) (hc : RigidMotion S.cameraChain.base) (hm : RigidMotion S.mountToCamera)
    (hB : S.cameraBaseToTargetBase = 1) (pts : List V3) (n : Nat) (s : EngSt E) :
    ∃ obs, simChainObs3 E S pts n s = .ok obs ∧ obs.length = n ∧ ∀ f ∈ features obs,
      inCamera3 S.mountToCamera S.mountToTarget f = f.2.inImage := by
  obtain ⟨obs, h, hl, ho⟩ := C123_partial_iff E S hc hm pts n s
  refine ⟨obs, h, hl, fun f hf => (ho f hf).2 ?_⟩
  rw [hB, Iso.apply_one]

/-- C123 is false: if one base is shifted against the other, no correspondence is explained. -/
theorem C123_negation (E : Engine) (S : SimSetup) (hc : RigidMotion S.cameraChain.base) (hm : RigidMotion S.mountToCamera)
    (v : V3) (hv : v ≠ 0) (hB : S.cameraBaseToTargetBase = ⟨1, v⟩) (pts : List V3) (n : Nat) (s : EngSt E) :
    ∃ obs, simChainObs3 E S pts n s = .ok obs ∧ obs.length = n ∧ ∀ f ∈ features obs,
      inCamera3 S.mountToCamera S.mountToTarget f ≠ f.2.inImage := by
  obtain ⟨obs, h, hl, ho⟩ := C123_partial_iff E S hc hm pts n s
  refine ⟨obs, h, hl, fun f hf he => hv ?_⟩
  have := (ho f hf).1 he
  rw [hB] at this
  generalize (f.1.toTargetMount * S.mountToTarget).apply f.2.inTarget = w at this
  have hx := congrArg V3.x this; have hy := congrArg V3.y this; have hz := congrArg V3.z this
  simp [Iso.apply, M3.mulVec] at hx hy hz
  ext <;> simp [hx, hy, hz]

/-- C123, with a camera (positive part): with coinciding bases every image point is the projection of a point in front of the
camera. -/
theorem C123_partial_camera (E : Engine) (S : SimSetup) (hc : RigidMotion S.cameraChain.base)
    (hm : RigidMotion S.mountToCamera) (hB : S.cameraBaseToTargetBase = 1) (cam : SimCamera) (pts : List V3) (n fuel : Nat)
    (hf : 10000 ≤ fuel) (s : EngSt E) (obs : List (Obs Corr2))
    (h : simChainObs2 E S cam pts n fuel s = .ok (some obs)) : ∀ f ∈ features obs,
      Visible cam.intr cam.width cam.height (inCamera2 S.mountToCamera S.mountToTarget f) ∧
      f.2.inImage = pinhole cam.intr (inCamera2 S.mountToCamera S.mountToTarget f) := by
  have hc := (rigid_iff _).2 hc; have hm := (rigid_iff _).2 hm
  unfold simChainObs2 at h
  rcases C117_outcome E S cam pts n fuel hf s with h' | ⟨obs', s'', h', -, ho, -⟩
  · rw [h'] at h; simp at h
  · rw [h', Res.ok_bind] at h
    simp only at h
    rw [Res.mapList_ok_of_forall (g := fun o => ⟨o.correspondences, nominalEnd S.cameraChain o.cameraJoints,
      nominalEnd S.targetChain o.targetJoints⟩) (fun o hoo => by
        obtain ⟨h1, h2, -⟩ := ho o hoo
        simp only [getFK0_eq _ _ h1.le, getFK0_eq _ _ h2.le, Res.ok_bind]), Res.ok_bind] at h
    simp only [Res.ok.injEq, Option.some.injEq] at h
    subst h
    intro f hf
    obtain ⟨h1, h2⟩ := mem_features.1 hf
    obtain ⟨o', ho', e⟩ := List.mem_map.1 h1
    obtain ⟨f1, f2⟩ := f
    simp only at h1 h2 e
    subst e
    simp only at h2
    obtain ⟨-, -, -, -, h5⟩ := ho o' ho'
    rw [h5] at h2
    simp only [List.mem_map, List.mem_filter, decide_eq_true_eq] at h2
    obtain ⟨p, ⟨-, hv⟩, rfl⟩ := h2
    have e : ∀ (l : List Corr2) (k : Corr2), inCamera2 S.mountToCamera S.mountToTarget ((⟨l, nominalEnd S.cameraChain o'.cameraJoints,
        nominalEnd S.targetChain o'.targetJoints⟩ : Obs Corr2), k) =
        (S.cameraPose o'.cameraJoints).inv.apply ((S.targetPose o'.targetJoints).apply k.inTarget) := by
      intro l k
      unfold inCamera2 targetInCamera
      simp only [Iso.apply_mul, SimSetup.camera_inv hc]
      unfold SimSetup.targetPose
      rw [hB, Iso.one_mul, Iso.apply_mul]
    rw [e]
    exact ⟨hv, rfl⟩

/-! ### C119, C120 perturbPose -/

theorem rotAngle_toMat_le {u : V3} (hu : u.normSq = 1) (a : ℝ) : rotAngle (AngleAxis.toMat ⟨a, u⟩) ≤ |a| := by
  have : ((AngleAxis.toMat ⟨a, u⟩).m00 + (AngleAxis.toMat ⟨a, u⟩).m11 + (AngleAxis.toMat ⟨a, u⟩).m22 - 1) / 2
      = Real.cos a := by
    simp only [AngleAxis.toMat, V3.normSq, V3.dot] at *
    linear_combination ((1 - Real.cos a) / 2) * hu
  unfold rotAngle
  rw [this, ← Real.cos_abs]
  by_cases h : |a| ≤ Real.pi
  · rw [Real.arccos_cos (abs_nonneg _) h]
  · exact (Real.arccos_le_pi _).trans (not_le.1 h).le

theorem perturbPose_eq (E : Engine) (seed : Nat) (pose : Iso) (s a : ℝ) : perturbPose E seed pose s a =
    pose * ⟨AngleAxis.toMat ⟨(E.draw (E.seed seed) (-a) a).1, (draw3 E (E.seed seed) (-1) 1).normalized⟩,
      draw3 E (E.seed seed) (-s) s⟩ := by
  unfold perturbPose Iso.translateBy Iso.rotateBy
  simp only
  rw [Iso.mul_assoc]
  congr 1
  simp [Iso.mul_def, M3.one_mul, V3.zero_add]

/-- C119: the perturbed pose is the given one times a rigid motion that shifts at most by the spatial noise along each axis
and turns at most by the angular noise, provided the numbers drawn for the axis are not all zero. -/
theorem C119_bounded (E : Engine) (hE : E.InRange) (seed : Nat) (pose : Iso) (hp : RigidMotion pose) (s a : ℝ) (hs : 0 ≤ s)
    (ha : 0 ≤ a) (hax : draw3 E (E.seed seed) (-1) 1 ≠ 0) :
    RigidMotion (perturbPose E seed pose s a) ∧ ∃ D : Iso, perturbPose E seed pose s a = pose * D ∧ RigidMotion D ∧
      |D.t.x| ≤ s ∧ |D.t.y| ≤ s ∧ |D.t.z| ≤ s ∧ rotAngle D.R ≤ a := by
  have hu := V3.normSq_normalized hax
  have hD : (⟨AngleAxis.toMat ⟨(E.draw (E.seed seed) (-a) a).1, (draw3 E (E.seed seed) (-1) 1).normalized⟩,
      draw3 E (E.seed seed) (-s) s⟩ : Iso).IsRigid := AngleAxis.toMat_isRot hu
  have hb : ∀ st, |(E.draw st (-s) s).1| ≤ s := fun st => abs_le.2 (hE st (-s) s (by linarith))
  rw [perturbPose_eq]
  refine ⟨(rigid_iff _).1 (((rigid_iff _).2 hp).mul hD), _, rfl, (rigid_iff _).1 hD, hb _, hb _, hb _, ?_⟩
  exact (rotAngle_toMat_le hu _).trans (abs_le.2 (hE _ (-a) a (by linarith)))

/-- The first `n` numbers drawn from an engine in state `st`. -/
def Spec.drawn (E : Engine) (lo hi : ℝ) : Nat → E.St → List ℝ
  | 0, _ => []
  | n + 1, st => (E.draw st lo hi).1 :: drawn E lo hi n (E.draw st lo hi).2

/-- C119: the coordinates of the shift are the first three numbers drawn after seeding, in an order that depends on the compiler;
the angle is the first number. -/
theorem C119_draws (E : Engine) (seed : Nat) (pose : Iso) (s a : ℝ) : ∃ (D : Iso) (u : V3), perturbPose E seed pose s a = pose * D ∧
    [D.t.x, D.t.y, D.t.z].Perm (drawn E (-s) s 3 (E.seed seed)) ∧
    (drawn E (-1) 1 3 (E.seed seed) ≠ [0, 0, 0] → ∃ th, drawn E (-a) a 1 (E.seed seed) = [th] ∧ TurnsBy D.R u th) := by
  rw [perturbPose_eq]
  refine ⟨_, (draw3 E (E.seed seed) (-1) 1).normalized, rfl, List.Perm.refl _, fun h => ⟨_, rfl,
    turnsBy_toMat (V3.normSq_normalized fun h0 => h ?_) _⟩⟩
  have h1 := congrArg V3.x h0
  have h2 := congrArg V3.y h0
  have h3 := congrArg V3.z h0
  simp only [draw3, V3.zero_x, V3.zero_y, V3.zero_z] at h1 h2 h3
  simp only [drawn, h1, h2, h3]

/-- C119: without noise the pose is unchanged. -/
theorem C119_zero (E : Engine) (hE : E.InRange) (seed : Nat) (pose : Iso) :
    perturbPose E seed pose 0 0 = pose := by
  have h0 : ∀ st, (E.draw st 0 0).1 = 0 := fun st => le_antisymm (hE st 0 0 le_rfl).2 (hE st 0 0 le_rfl).1
  rw [perturbPose_eq]
  simp only [neg_zero, draw3, h0]
  rw [AngleAxis.toMat_zero_angle]
  exact Iso.mul_one pose

/-- C120. Full statement: shift, axis and angle of the perturbation vary independently; in particular some seeds give a
shift across the rotation axis. This is false: the three distributions own copies of one freshly seeded engine, so the shift is
always along the rotation axis (the rotation leaves it unchanged), and the angle is proportional to its first component. -/
theorem C120_negation (E : Engine) (hE : E.Scaled) (seed : Nat) (pose : Iso) (s a : ℝ)
    (hax : draw3 E (E.seed seed) (-1) 1 ≠ 0) :
    ∃ (D : Iso) (u : V3) (th : ℝ), perturbPose E seed pose s a = pose * D ∧ TurnsBy D.R u th ∧
      Parallel D.t u ∧ D.R.mulVec D.t = D.t ∧ s * th = a * D.t.x := by
  obtain ⟨can, next, -, hd⟩ := hE
  rw [perturbPose_eq]
  have hu := V3.normSq_normalized hax
  have ht := turnsBy_toMat hu (E.draw (E.seed seed) (-a) a).1
  have e : draw3 E (E.seed seed) (-s) s = V3.smul s (draw3 E (E.seed seed) (-1) 1) := by
    simp only [draw3, hd]; ext <;> simp <;> ring
  have e2 : draw3 E (E.seed seed) (-1) 1 = V3.smul (draw3 E (E.seed seed) (-1) 1).norm (draw3 E (E.seed seed) (-1) 1).normalized := by
    rw [V3.normalized_of_ne hax]
    have := V3.norm_pos hax
    ext <;> simp <;> field_simp
  refine ⟨_, _, _, rfl, ht, ?_, ?_, ?_⟩
  · rw [e]
    generalize hn : (draw3 E (E.seed seed) (-1) 1).normalized = u at *
    rw [e2]
    unfold Parallel
    ext <;> simp [V3.cross] <;> ring
  · rw [ht.2, e]
    generalize hn : (draw3 E (E.seed seed) (-1) 1).normalized = u at *
    rw [e2]
    simp only [V3.normSq, V3.dot] at hu
    generalize (draw3 E (E.seed seed) (-1) 1).norm = c
    generalize (E.draw (E.seed seed) (-a) a).1 = th
    ext <;> simp [V3.cross, V3.dot]
    · linear_combination (s * c * (1 - Real.cos th) * u.x) * hu
    · linear_combination (s * c * (1 - Real.cos th) * u.y) * hu
    · linear_combination (s * c * (1 - Real.cos th) * u.z) * hu
  · simp only [draw3, hd]; ring

/-- C120 (what holds): each noise level acts on its own part. The shift depends on the spatial noise only and is proportional
to it, and the rotation depends on the angular noise only: its axis is the same for all levels and its angle is proportional
to the level. Missing: shift, axis and angle of one level vary independently over the seeds, see `C120_negation`. -/
theorem C120_partial (E : Engine) (hE : E.Scaled) (seed : Nat) (hax : draw3 E (E.seed seed) (-1) 1 ≠ 0) :
    ∃ (t u : V3) (th : ℝ), u.normSq = 1 ∧ ∀ (pose : Iso) (s a : ℝ), ∃ D : Iso,
      perturbPose E seed pose s a = pose * D ∧ D.t = V3.smul s t ∧ TurnsBy D.R u (a * th) := by
  obtain ⟨can, next, -, hd⟩ := hE
  have hu := V3.normSq_normalized hax
  refine ⟨draw3 E (E.seed seed) (-1) 1, (draw3 E (E.seed seed) (-1) 1).normalized, (E.draw (E.seed seed) (-1) 1).1, hu,
    fun pose s a => ⟨_, perturbPose_eq E seed pose s a, ?_, ?_⟩⟩
  · simp only [draw3, hd]; ext <;> simp <;> ring
  · have e : (E.draw (E.seed seed) (-a) a).1 = a * (E.draw (E.seed seed) (-1) 1).1 := by simp only [hd]; ring
    rw [← e]
    exact turnsBy_toMat hu _

/-- An engine with alternating canonical values meets the hypotheses of C119 and C120. -/
noncomputable def simExEngine : Engine where
  St := Bool
  seed _ := false
  draw s lo hi := (lo + (hi - lo) * (if s then 1 / 4 else 0), !s)

theorem simExEngine_scaled : simExEngine.Scaled :=
  ⟨fun s : Bool => if s then 1 / 4 else 0, fun s : Bool => !s, fun s => by cases s <;> norm_num, fun _ _ _ => rfl⟩

theorem Engine.Scaled.inRange {E : Engine} (h : E.Scaled) : E.InRange := by
  obtain ⟨can, next, hc, hd⟩ := h
  intro s lo hi hl
  rw [hd]
  have := hc s
  constructor
  · nlinarith
  · nlinarith

example : simExEngine.Scaled ∧ simExEngine.InRange ∧ draw3 simExEngine (simExEngine.seed 0) (-1) 1 ≠ 0 := by
  refine ⟨simExEngine_scaled, simExEngine_scaled.inRange, fun h => ?_⟩
  have := congrArg V3.x h
  simp [draw3, simExEngine] at this

/-! ### C121 perturbDHChain -/

theorem perturbDHChain_eq (c : DHChain) (noise : Nat → V4) (seed : Nat) : perturbDHChain c noise seed =
    .ok ⟨c.transforms.mapIdx fun i t => DHTransform.mk4 (t.params + noise i) t.type ("j" ++ toString (i + 1)) seed, c.base⟩ := by
  unfold perturbDHChain
  simp only
  rw [show (List.range c.getJointTypes.length) = List.range c.transforms.length by simp [DHChain.getJointTypes]]
  have h := (Res.mapList_ok_iff (fun i => (Res.idxList (c.getDHTable.mapIdx fun i row => row + noise i) i).bind fun row =>
    (Res.idxList c.getJointTypes i).bind fun type => Res.ok (DHTransform.mk4 row type ("j" ++ toString (i + 1)) seed))
    (List.range c.transforms.length)
    (c.transforms.mapIdx fun i t => DHTransform.mk4 (t.params + noise i) t.type ("j" ++ toString (i + 1)) seed)).2 (by
      rw [List.forall₂_iff_get]
      refine ⟨by simp, fun i h1 h2 => ?_⟩
      have hi : i < c.transforms.length := by simpa using h1
      simp [Res.idxList, DHChain.getDHTable, DHChain.getJointTypes, hi, Res.ok_bind])
  rw [h]
  rfl

/-- C121 (what holds). Full statement: the perturbed chain differs from the given one only in the DH parameters, which are
shifted by the noise. Base, number, types and shifted parameters are as stated; names and limits are not kept. -/
theorem C121_partial (c : DHChain) (noise : Nat → V4) (seed : Nat) :
    ∃ c', perturbDHChain c noise seed = .ok c' ∧ c'.base = c.base ∧ c'.transforms.length = c.transforms.length ∧
      ∀ (i : Nat) (t : DHTransform), c.transforms[i]? = some t → ∃ t', c'.transforms[i]? = some t' ∧ t'.type = t.type ∧
        t'.params = t.params + noise i ∧ t'.name = "j" ++ toString (i + 1) ∧ t'.min = -Real.pi ∧ t'.max = Real.pi := by
  refine ⟨_, perturbDHChain_eq c noise seed, rfl, by simp, fun i t h => ?_⟩
  simp only [List.getElem?_mapIdx, h, Option.map_some]
  exact ⟨_, rfl, rfl, rfl, rfl, rfl, rfl⟩

/-- C121: the pose of the perturbed chain is that of the given chain with the noise as offsets. -/
theorem C121_partial_pose (c c' : DHChain) (noise : Nat → V4) (seed : Nat) (h : perturbDHChain c noise seed = .ok c')
    (q : List ℝ) (hq : q.length ≤ c.transforms.length) :
    c'.getFK0 q = c.getFK q ((List.range c.transforms.length).map noise) := by
  rw [perturbDHChain_eq] at h
  injection h with h
  subst h
  rw [getFK0_eq _ _ (by simpa using hq), getFK_eq, if_pos ⟨hq, by simpa using hq⟩]
  congr 1
  have := chainPose_zipWith c.base c.transforms ((List.range c.transforms.length).map noise) q c.transforms.length hq
  unfold nominalEnd endPose DHChain.joints
  rw [← this]
  simp only [List.length_mapIdx]
  congr 1
  apply List.ext_getElem?
  intro i
  by_cases hi : i < c.transforms.length
  · simp [hi, DHTransform.mk4]
  · simp [hi]

/-- C121 is false: joint limits other than ±π are lost, even without noise; so are names that do not follow the scheme. -/
theorem C121_negation (c : DHChain) (noise : Nat → V4) (seed : Nat) (i : Nat) (t : DHTransform)
    (hi : c.transforms[i]? = some t) (hl : t.max ≠ Real.pi ∨ t.min ≠ -Real.pi ∨ t.name ≠ "j" ++ toString (i + 1)) :
    ∃ c' t', perturbDHChain c noise seed = .ok c' ∧ c'.transforms[i]? = some t' ∧
      (t'.max ≠ t.max ∨ t'.min ≠ t.min ∨ t'.name ≠ t.name) := by
  obtain ⟨c', h, -, -, h1⟩ := C121_partial c noise seed
  obtain ⟨t', h2, -, -, h3, h4, h5⟩ := h1 i t hi
  refine ⟨c', t', h, h2, ?_⟩
  rw [h3, h4, h5]
  rcases hl with h | h | h
  · exact Or.inl h.symm
  · exact Or.inr (Or.inl h.symm)
  · exact Or.inr (Or.inr h.symm)

/-- The two axis positioner of the tests: the limits of the second joint are ±2π. -/
example (seed : Nat) : ∃ t, (twoAxisPositioner seed).transforms[1]? = some t ∧ t.max ≠ Real.pi := by
  refine ⟨_, rfl, ?_⟩
  have := Real.pi_pos
  simp only; intro h; linarith

/-! ### Examples for the kinematic creators -/

/-- A camera without chain looking down at a target below it. -/
def simExSetup : SimSetup where
  cameraChain := ⟨[], 1⟩
  targetChain := ⟨[], 1⟩
  mountToCamera := 1
  mountToTarget := ⟨⟨1, 0, 0, 0, -1, 0, 0, 0, -1⟩, ⟨0, 0, 1⟩⟩
  cameraBaseToTargetBase := 1

/-- The camera of this set-up faces and sees the target, so usable observations exist. -/
example : ∃ o, SimObsOk simExSetup ⟨⟨550, 550, 320, 240⟩, 640, 480⟩ [0] o := by
  have h1 : simExSetup.cameraPose [] = 1 := by
    simp [SimSetup.cameraPose, simExSetup, nominalEnd, endPose, chainPose, Iso.mul_one]
  have h2 : simExSetup.targetPose [] = ⟨⟨1, 0, 0, 0, -1, 0, 0, 0, -1⟩, ⟨0, 0, 1⟩⟩ := by
    simp [SimSetup.targetPose, simExSetup, nominalEnd, endPose, chainPose, Iso.one_mul]
  have hv : Visible ⟨550, 550, 320, 240⟩ 640 480 ((simExSetup.cameraPose []).inv.apply ((simExSetup.targetPose []).apply 0)) := by
    rw [h1, h2]
    simp [Visible, pinhole, Iso.inv_one, Iso.apply, M3.mulVec]; norm_num
  refine ⟨⟨[⟨pinhole ⟨550, 550, 320, 240⟩ ((simExSetup.cameraPose []).inv.apply ((simExSetup.targetPose []).apply 0)), 0⟩],
    [], []⟩, rfl, rfl, ?_, by simp, ?_⟩
  · simp only [h1, h2, Faces]; norm_num
  · simp only
    rw [List.filter_cons_of_pos (by simpa using hv)]
    rfl

/-- With the target turned away no state shows it. -/
example : ∀ qc qt, ¬ Faces ({ simExSetup with mountToTarget := 1 }.cameraPose qc)
    ({ simExSetup with mountToTarget := 1 }.targetPose qt) := by
  intro qc qt
  have h1 : ({ simExSetup with mountToTarget := 1 } : SimSetup).cameraPose qc = 1 := by
    simp [SimSetup.cameraPose, simExSetup, nominalEnd, endPose, chainPose, Iso.mul_one]
  have h2 : ({ simExSetup with mountToTarget := 1 } : SimSetup).targetPose qt = 1 := by
    simp [SimSetup.targetPose, simExSetup, nominalEnd, endPose, chainPose]
  rw [h1, h2]
  simp [Faces]; norm_num

example : ParamsAre (fun _ _ => 0) 2 1 (List.replicate 2 0) (List.replicate 1 0) 1 1 1 := paramsAre_zero 2 1

end RCT
