import Verif.Model.Serialization
import Verif.Spec.Geometry
import Verif.Lemmas.Pose
import Verif.Lemmas.PoseSpec

/-!
# Serialisation and equality: C61, C62, C63, C64, C65
-/

namespace RCT
open Spec Yaml

/-! ## C62, C63 -/

theorem decV2_enc {P : YamlPrinter} (hP : P.WF) (v : V2) : decV2 (encV2 P v) = .ok v := by
  simp [decV2, encV2, Yaml.field, Yaml.key, List.lookup, asNode, hP.asReal]

theorem decV3_enc {P : YamlPrinter} (hP : P.WF) (v : V3) : decV3 (encV3 P v) = .ok v := by
  simp [decV3, encV3, Yaml.field, Yaml.key, List.lookup, asNode, hP.asReal]

/-- A rigid transform written as translation and quaternion is read back unchanged. -/
theorem C63_isometry (P : YamlPrinter) (hP : P.WF) (T : Iso) (hT : RigidMotion T) : decIso (encIso P T) = .ok T := by
  have h := ((rigid_iff T).2 hT : T.R.IsRot).toQuat.2
  simp [decIso, encIso, Yaml.field, Yaml.key, List.lookup, asNode, hP.asReal]
  rw [show (⟨T.R.toQuat.w, T.R.toQuat.x, T.R.toQuat.y, T.R.toQuat.z⟩ : Quat) = T.R.toQuat from rfl, h]

theorem decIso_enc {P : YamlPrinter} (hP : P.WF) {T : Iso} (hT : T.IsRigid) : decIso (encIso P T) = .ok T :=
  C63_isometry P hP T ((rigid_iff T).1 hT)

theorem C62_intrinsics (P : YamlPrinter) (hP : P.WF) (i : Intr) : decIntr (encIntr P i) = .ok i := by
  simp [decIntr, encIntr, Yaml.field, Yaml.key, Yaml.size, List.lookup, asNode, hP.asReal]

theorem C62_correspondence (P : YamlPrinter) (hP : P.WF) (c : Corr2) : decCorr2 (encCorr2 P c) = .ok c := by
  simp [decCorr2, encCorr2, Yaml.field, Yaml.key, Yaml.size, List.lookup, asNode, decV2_enc hP, decV3_enc hP]

theorem C62_correspondence_3d (P : YamlPrinter) (hP : P.WF) (c : Corr3) : decCorr3 (encCorr3 P c) = .ok c := by
  simp [decCorr3, encCorr3, Yaml.field, Yaml.key, Yaml.size, List.lookup, asNode, decV3_enc hP]

theorem asVector_enc {α : Type} {dec : Yaml → Res α} {enc : α → Yaml} {l : List α} (h : ∀ a ∈ l, dec (enc a) = .ok a) :
    asVector dec (.seq (l.map enc)) = .ok l := by
  unfold asVector
  rw [Res.mapList_ok_iff]
  induction l with
  | nil => exact .nil
  | cons a l ih => exact .cons (h a (by simp)) (ih fun b hb => h b (List.mem_cons_of_mem _ hb))

/-- An observation whose mount transforms are rigid. -/
def RigidObs {κ : Type} (o : Obs κ) : Prop := RigidMotion o.toCameraMount ∧ RigidMotion o.toTargetMount

theorem decObs_enc {κ : Type} {P : YamlPrinter} (hP : P.WF) {dec : Yaml → Res κ} {enc : κ → Yaml}
    (h : ∀ c, dec (enc c) = .ok c) (o : Obs κ) (ho : RigidObs o) : decObs dec (encObs P enc o) = .ok o := by
  have h1 := C63_isometry P hP _ ho.1
  have h2 := C63_isometry P hP _ ho.2
  have h3 : asVector dec (.seq (o.corrs.map enc)) = .ok o.corrs := asVector_enc fun c _ => h c
  simp [decObs, encObs, Yaml.field, Yaml.key, Yaml.size, List.lookup, asNode, h1, h2, h3]

theorem C62_observation (P : YamlPrinter) (hP : P.WF) (o : Obs Corr2) (ho : RigidObs o) :
    decObs decCorr2 (encObs P (encCorr2 P) o) = .ok o := decObs_enc hP (C62_correspondence P hP) o ho

theorem C62_observation_3d (P : YamlPrinter) (hP : P.WF) (o : Obs Corr3) (ho : RigidObs o) :
    decObs decCorr3 (encObs P (encCorr3 P) o) = .ok o := decObs_enc hP (C62_correspondence_3d P hP) o ho

/-- The data of a problem (the labels are not part of the document and get their default values). -/
theorem C62_problem (P : YamlPrinter) (hP : P.WF) (p : HandEyeProblem Corr2) (hc : RigidMotion p.cameraGuess)
    (ht : RigidMotion p.targetGuess) (ho : ∀ o ∈ p.observations, RigidObs o) :
    ∃ q, decProblem2 (encProblem2 P p) = .ok q ∧ q.observations = p.observations ∧ q.intr = p.intr ∧
      q.cameraGuess = p.cameraGuess ∧ q.targetGuess = p.targetGuess ∧
      q.labels = ["x", "y", "z", "rx", "ry", "rz"] ∧ q.labelCamera = "camera_mount_to_camera" ∧ q.labelTarget = "target_mount_to_target" := by
  have h1 := C63_isometry P hP _ hc
  have h2 := C63_isometry P hP _ ht
  have h3 : asVector (decObs decCorr2) (.seq (p.observations.map (encObs P (encCorr2 P)))) = .ok p.observations :=
    asVector_enc fun o h => C62_observation P hP o (ho o h)
  have h4 := C62_intrinsics P hP p.intr
  refine ⟨⟨p.observations, p.intr, p.targetGuess, p.cameraGuess, "camera_mount_to_camera", "target_mount_to_target", labelsIsometry3d⟩,
    ?_, rfl, rfl, rfl, rfl, rfl, rfl, rfl⟩
  simp [decProblem2, encProblem2, Yaml.field, Yaml.key, Yaml.size, List.lookup, asNode, h1, h2, h3, h4]

theorem C62_problem_3d (P : YamlPrinter) (hP : P.WF) (p : HandEyeProblem Corr3) (hc : RigidMotion p.cameraGuess)
    (ht : RigidMotion p.targetGuess) (ho : ∀ o ∈ p.observations, RigidObs o) :
    ∃ q, decProblem3 (encProblem3 P p) = .ok q ∧ q.observations = p.observations ∧
      q.cameraGuess = p.cameraGuess ∧ q.targetGuess = p.targetGuess ∧
      q.labels = ["x", "y", "z", "rx", "ry", "rz"] ∧ q.labelCamera = "camera_mount_to_camera" ∧ q.labelTarget = "target_mount_to_target" := by
  have h1 := C63_isometry P hP _ hc
  have h2 := C63_isometry P hP _ ht
  have h3 : asVector (decObs decCorr3) (.seq (p.observations.map (encObs P (encCorr3 P)))) = .ok p.observations :=
    asVector_enc fun o h => C62_observation_3d P hP o (ho o h)
  refine ⟨⟨p.observations, ⟨0, 0, 0, 0⟩, p.targetGuess, p.cameraGuess, "camera_mount_to_camera", "target_mount_to_target",
    labelsIsometry3d⟩, ?_, rfl, rfl, rfl, rfl, rfl, rfl⟩
  simp [decProblem3, encProblem3, Yaml.field, Yaml.key, Yaml.size, List.lookup, asNode, h1, h2, h3]

/-- A node with the wrong number of entries is rejected. -/
theorem C62_rejects (n : Yaml) :
    (n.size ≠ 4 → decIntr n = .throw .yaml ∧ decProblem2 n = .throw .yaml) ∧
    (n.size ≠ 2 → decCorr2 n = .throw .yaml ∧ decCorr3 n = .throw .yaml) ∧
    (n.size ≠ 3 → decObs decCorr2 n = .throw .yaml ∧ decObs decCorr3 n = .throw .yaml ∧ decProblem3 n = .throw .yaml) := by
  refine ⟨fun h => ⟨?_, ?_⟩, fun h => ⟨?_, ?_⟩, fun h => ⟨?_, ?_, ?_⟩⟩
  · rw [decIntr, if_pos h]
  · rw [decProblem2, if_pos h]
  · rw [decCorr2, if_pos h]
  · rw [decCorr3, if_pos h]
  · rw [decObs, if_pos h]
  · rw [decObs, if_pos h]
  · rw [decProblem3, if_pos h]

/-- The entry `k` of the document is the number `x`. -/
def HasNumber (n : Yaml) (k : String) (x : ℝ) : Prop :=
  ∃ l s, n = .map l ∧ l.lookup k = some (.scalar s) ∧ s.num = some (some x)

theorem field_real {n : Yaml} {k : String} {x : ℝ} : n.field k asReal = .ok x ↔ HasNumber n k x := by
  unfold HasNumber
  cases n with
  | null => simp [Yaml.field, Yaml.key, asNode]
  | scalar s => simp [Yaml.field, Yaml.key]
  | seq l => simp [Yaml.field, Yaml.key, asNode]
  | map l =>
    cases hl : l.lookup k with
    | none => simp [Yaml.field, Yaml.key, asNode, hl]
    | some m =>
      cases m with
      | scalar s =>
        cases hs : s.num with
        | none => simp [Yaml.field, Yaml.key, asNode, hl, asReal, asRealN, hs]
        | some o => cases o <;> simp [Yaml.field, Yaml.key, asNode, hl, asReal, asRealN, hs]
      | null => simp [Yaml.field, Yaml.key, asNode, hl, asReal, asRealN]
      | seq l => simp [Yaml.field, Yaml.key, asNode, hl, asReal, asRealN]
      | map l => simp [Yaml.field, Yaml.key, asNode, hl, asReal, asRealN]

/-- No default values: intrinsics are read exactly from documents of four entries that hold all four numbers. -/
theorem C62_exact (n : Yaml) (i : Intr) :
    decIntr n = .ok i ↔ n.size = 4 ∧ HasNumber n "fx" i.fx ∧ HasNumber n "fy" i.fy ∧ HasNumber n "cx" i.cx ∧ HasNumber n "cy" i.cy := by
  unfold decIntr
  split
  · rename_i h
    simp [h]
  · rename_i h
    simp only [Res.bind_ok_iff, field_real, Res.ok.injEq]
    constructor
    · rintro ⟨cx, h1, cy, h2, fx, h3, fy, h4, rfl⟩
      exact ⟨by omega, h3, h4, h1, h2⟩
    · rintro ⟨-, h3, h4, h1, h2⟩
      exact ⟨_, h1, _, h2, _, h3, _, h4, rfl⟩

/-- A printer with the contract, and a rigid transform that is not the identity. -/
noncomputable def exPrinter : YamlPrinter := ⟨fun x => ⟨"", some x, none, none⟩, fun b => ⟨"", none, none, some b⟩⟩

theorem exPrinter_wf : exPrinter.WF := ⟨fun _ => rfl, fun _ => rfl⟩

example : exPrinter.WF ∧ RigidMotion ⟨AngleAxis.toMat ⟨1, ⟨1, 0, 0⟩⟩, ⟨1, 2, 3⟩⟩ :=
  ⟨exPrinter_wf, (rigid_iff _).1 (AngleAxis.toMat_isRot (by simp [V3.normSq, V3.dot]))⟩

/-! ## C64 Results of the hand-eye calibration

Full statement: for every result with rigid transforms, `decResult (encResult P euler r)` is a result with the same
transforms. It is false, see `C64_negation`; `C64_partial` says exactly when it holds. -/

/-- Textbook rotation with yaw `a`, pitch `b`, roll `c`: first roll about x, then pitch about y, then yaw about z. -/
noncomputable def Spec.rotZYX (a b c : ℝ) : M3 :=
  ⟨Real.cos a * Real.cos b, Real.cos a * Real.sin b * Real.sin c - Real.sin a * Real.cos c,
     Real.cos a * Real.sin b * Real.cos c + Real.sin a * Real.sin c,
   Real.sin a * Real.cos b, Real.sin a * Real.sin b * Real.sin c + Real.cos a * Real.cos c,
     Real.sin a * Real.sin b * Real.cos c - Real.cos a * Real.sin c,
   -Real.sin b, Real.cos b * Real.sin c, Real.cos b * Real.cos c⟩

/-- What `eulerAngles(2, 1, 0)` promises: yaw, pitch and roll of the rotation. -/
def EulerWF (euler : M3 → V3) : Prop := ∀ R : M3, R.IsRot → rotZYX (euler R).x (euler R).y (euler R).z = R

theorem toIsometry_eq (t e : V3) : toIsometry t e = ⟨rotZYX e.z e.y e.x, t⟩ := by
  unfold toIsometry rotZYX
  simp only [AngleAxis.toMat, M3.mul_def, Iso.mk.injEq, M3.mk.injEq, and_true]
  refine ⟨?_, ?_, ?_, ?_, ?_, ?_, ?_, ?_, ?_⟩ <;> ring

theorem decResult_enc {P : YamlPrinter} (hP : P.WF) (euler : M3 → V3) (r : HandEyeResult) :
    ∃ q, decResult (encResult P euler r) = .ok q ∧ q.converged = r.converged ∧ q.initialCost = r.initialCost ∧
      q.finalCost = r.finalCost ∧
      q.targetMountToTarget = ⟨rotZYX (euler r.targetMountToTarget.R).z (euler r.targetMountToTarget.R).y
        (euler r.targetMountToTarget.R).x, r.targetMountToTarget.t⟩ ∧
      q.cameraMountToCamera = ⟨rotZYX (euler r.cameraMountToCamera.R).z (euler r.cameraMountToCamera.R).y
        (euler r.cameraMountToCamera.R).x, r.cameraMountToCamera.t⟩ := by
  have hr : ∀ v : V3, v.reverse.reverse = v := fun v => rfl
  refine ⟨⟨r.converged, r.initialCost, r.finalCost,
    toIsometry r.targetMountToTarget.t (euler r.targetMountToTarget.R),
    toIsometry r.cameraMountToCamera.t (euler r.cameraMountToCamera.R),
    ⟨[], [], [], ⟨0, 0, fun _ _ => 0⟩, ⟨0, 0, fun _ _ => 0⟩⟩⟩, ?_, rfl, rfl, rfl, ?_, ?_⟩
  · simp [decResult, encResult, Yaml.field, Yaml.key, Yaml.size, List.lookup, asNode, hP.asRealN, hP.asBool, decV3_enc hP, hr]
  · exact toIsometry_eq _ _
  · exact toIsometry_eq _ _

/-- Exchanging yaw and roll does not change the rotation. -/
def Exchangeable (yaw pitch roll : ℝ) : Prop :=
  (Real.cos pitch ≠ 0 ∧ Real.cos yaw = Real.cos roll ∧ Real.sin yaw = Real.sin roll) ∨
  (Real.sin pitch = 1 ∧ Real.sin (yaw - roll) = 0) ∨ Real.sin pitch = -1

theorem rotZYX_swap (a b c : ℝ) : rotZYX c b a = rotZYX a b c ↔ Exchangeable a b c := by
  unfold rotZYX Exchangeable
  simp only [M3.mk.injEq, Real.sin_sub]
  have ha := Real.sin_sq_add_cos_sq a
  have hb := Real.sin_sq_add_cos_sq b
  have hc := Real.sin_sq_add_cos_sq c
  generalize Real.sin a = sa at *
  generalize Real.cos a = ca at *
  generalize Real.sin b = sb at *
  generalize Real.cos b = cb at *
  generalize Real.sin c = sc at *
  generalize Real.cos c = cc at *
  by_cases h0 : cb = 0
  · subst h0
    have hs : (sb - 1) * (sb + 1) = 0 := by linear_combination hb
    rcases mul_eq_zero.1 hs with h | h
    · have : sb = 1 := by linarith
      subst this
      constructor
      · rintro ⟨-, h1, h2, -, h4, h5, -, -, -⟩
        right; left
        exact ⟨rfl, by linarith⟩
      · rintro (⟨h, -⟩ | ⟨-, h⟩ | h)
        · exact absurd rfl h
        · refine ⟨?_, ?_, ?_, ?_, ?_, ?_, ?_, ?_, ?_⟩ <;> first | trivial | linarith
        · norm_num at h
    · have : sb = -1 := by linarith
      subst this
      constructor
      · intro _; right; right; rfl
      · intro _
        refine ⟨?_, ?_, ?_, ?_, ?_, ?_, ?_, ?_, ?_⟩ <;> first | trivial | ring
  · constructor
    · rintro ⟨-, -, -, -, -, -, -, h7, h8⟩
      left
      exact ⟨h0, mul_left_cancel₀ h0 h8, mul_left_cancel₀ h0 h7⟩
    · rintro (⟨-, h1, h2⟩ | ⟨h, -⟩ | h)
      · subst h1; subst h2
        simp
      · exact absurd (by subst h; nlinarith : cb = 0) h0
      · exact absurd (by subst h; nlinarith : cb = 0) h0

/-- Positions, costs and the convergence flag survive. Of each orientation the yaw and roll angles are exchanged, so a
transform survives exactly if that exchange does not matter. Missing: all other orientations. -/
theorem C64_partial (P : YamlPrinter) (hP : P.WF) (euler : M3 → V3) (he : EulerWF euler) (r : HandEyeResult)
    (ht : RigidMotion r.targetMountToTarget) (hc : RigidMotion r.cameraMountToCamera) :
    ∃ q, decResult (encResult P euler r) = .ok q ∧ q.converged = r.converged ∧ q.initialCost = r.initialCost ∧
      q.finalCost = r.finalCost ∧
      (∃ a b c, r.targetMountToTarget.R = rotZYX a b c ∧ q.targetMountToTarget = ⟨rotZYX c b a, r.targetMountToTarget.t⟩ ∧
        (q.targetMountToTarget = r.targetMountToTarget ↔ Exchangeable a b c)) ∧
      (∃ a b c, r.cameraMountToCamera.R = rotZYX a b c ∧ q.cameraMountToCamera = ⟨rotZYX c b a, r.cameraMountToCamera.t⟩ ∧
        (q.cameraMountToCamera = r.cameraMountToCamera ↔ Exchangeable a b c)) := by
  obtain ⟨q, h, h1, h2, h3, h4, h5⟩ := decResult_enc hP euler r
  refine ⟨q, h, h1, h2, h3, ⟨_, _, _, (he _ ((rigid_iff _).2 ht)).symm, h4, ?_⟩,
    ⟨_, _, _, (he _ ((rigid_iff _).2 hc)).symm, h5, ?_⟩⟩
  · rw [h4, ← rotZYX_swap, he _ ((rigid_iff _).2 ht), Iso.ext_iff]
    simp
  · rw [h5, ← rotZYX_swap, he _ ((rigid_iff _).2 hc), Iso.ext_iff]
    simp

/-- Full C64 fails: a quarter turn about the z axis comes back as a different rotation, for both transforms and however
the Euler angles are chosen. -/
theorem C64_negation (P : YamlPrinter) (hP : P.WF) (euler : M3 → V3) (he : EulerWF euler) (r : HandEyeResult)
    (hr : r.targetMountToTarget.R = ⟨0, -1, 0, 1, 0, 0, 0, 0, 1⟩) :
    RigidMotion r.targetMountToTarget ∧
      ∃ q, decResult (encResult P euler r) = .ok q ∧ q.targetMountToTarget ≠ r.targetMountToTarget := by
  have hrot : r.targetMountToTarget.R.IsRot := by
    rw [hr]
    refine ⟨?_, ?_⟩
    · simp [M3.tr, M3.mul_def, M3.one_def]
    · simp [M3.det]
  refine ⟨(rigid_iff _).1 hrot, ?_⟩
  obtain ⟨q, h, -, -, -, h4, -⟩ := decResult_enc hP euler r
  refine ⟨q, h, ?_⟩
  have e := he _ hrot
  intro heq
  rw [h4] at heq
  have h5 := congrArg Iso.R heq
  simp only at h5
  rw [hr] at e h5
  unfold rotZYX at e h5
  simp only [M3.mk.injEq] at e h5
  obtain ⟨e1, -⟩ := e
  obtain ⟨-, -, -, -, -, -, -, -, h9⟩ := h5
  rw [mul_comm] at e1
  rw [e1] at h9
  norm_num at h9

theorem atan2_cos {y x r : ℝ} (hr : 0 ≤ r) (h : x ^ 2 + y ^ 2 = r ^ 2) : r * Real.cos (atan2 y x) = x ∧ r * Real.sin (atan2 y x) = y := by
  have hn : ‖(⟨x, y⟩ : ℂ)‖ = r := by
    rw [Complex.norm_def, Complex.normSq_apply]
    simp only
    rw [show x * x + y * y = r ^ 2 by linear_combination h, Real.sqrt_sq hr]
  unfold atan2
  have h1 := Complex.norm_mul_cos_arg (⟨x, y⟩ : ℂ)
  have h2 := Complex.norm_mul_sin_arg (⟨x, y⟩ : ℂ)
  rw [hn] at h1 h2
  exact ⟨h1, h2⟩

/-- The method of Eigen keeps the promise. -/
theorem eulerAngles210_wf : EulerWF eulerAngles210 := by
  intro R hR
  obtain ⟨k1, k2, k3, k4, k5, k6, k7, k8, k9⟩ := hR.cof
  have ht := hR.tr
  have hcol : R.m00 ^ 2 + R.m10 ^ 2 + R.m20 ^ 2 = 1 := by
    have := congrArg M3.m00 hR.1
    simp only [M3.mul_def, M3.tr, M3.one_def] at this
    linear_combination this
  have hrow : R.m20 ^ 2 + R.m21 ^ 2 + R.m22 ^ 2 = 1 := by
    have := congrArg M3.m22 ht.1
    simp only [M3.mul_def, M3.tr, M3.one_def] at this
    linear_combination this
  obtain ⟨ρ, hρ⟩ : ∃ ρ, ρ = Real.sqrt (R.m22 * R.m22 + R.m21 * R.m21) := ⟨_, rfl⟩
  have hρ0 : 0 ≤ ρ := hρ ▸ Real.sqrt_nonneg _
  have hρ2 : ρ ^ 2 = R.m22 ^ 2 + R.m21 ^ 2 := by
    rw [hρ, Real.sq_sqrt (by nlinarith [mul_self_nonneg R.m22, mul_self_nonneg R.m21])]; ring
  obtain ⟨hc0, hs0⟩ := atan2_cos (y := R.m10) (x := R.m00) hρ0 (by linear_combination hcol - hrow - hρ2)
  -- the angles of both branches
  have key : ∃ z y, (eulerAngles210 R).x = z ∧ (eulerAngles210 R).y = y ∧
      (eulerAngles210 R).z = atan2 (Real.sin z * R.m02 - Real.cos z * R.m12) (Real.cos z * R.m11 - Real.sin z * R.m01) ∧
      Real.sin y = -R.m20 ∧ Real.cos y * Real.cos z = R.m00 ∧ Real.cos y * Real.sin z = R.m10 := by
    refine ⟨_, _, rfl, rfl, rfl, ?_⟩
    unfold eulerAngles210
    simp only [← hρ]
    split
    · obtain ⟨a, b⟩ := atan2_cos (y := -R.m20) (x := -ρ) zero_le_one (by linear_combination hrow + hρ2)
      rw [one_mul] at a b
      rw [a, b, Real.cos_add_pi, Real.sin_add_pi]
      exact ⟨rfl, by linarith, by linarith⟩
    · obtain ⟨a, b⟩ := atan2_cos (y := -R.m20) (x := ρ) zero_le_one (by linear_combination hrow + hρ2)
      rw [one_mul] at a b
      rw [a, b]
      exact ⟨rfl, by linarith, by linarith⟩
  obtain ⟨z, y, ez, ey, ex, sy, c1, c2⟩ := key
  rw [ez, ey, ex]
  have hz := Real.sin_sq_add_cos_sq z
  have hcol1 : R.m01 ^ 2 + R.m11 ^ 2 + R.m21 ^ 2 = 1 := by
    have := congrArg M3.m11 hR.1
    simp only [M3.mul_def, M3.tr, M3.one_def] at this
    linear_combination this
  have hr00 : R.m00 ^ 2 + R.m01 ^ 2 + R.m02 ^ 2 = 1 := by
    have := congrArg M3.m00 ht.1
    simp only [M3.mul_def, M3.tr, M3.one_def] at this
    linear_combination this
  have hr11 : R.m10 ^ 2 + R.m11 ^ 2 + R.m12 ^ 2 = 1 := by
    have := congrArg M3.m11 ht.1
    simp only [M3.mul_def, M3.tr, M3.one_def] at this
    linear_combination this
  have hr01 : R.m00 * R.m10 + R.m01 * R.m11 + R.m02 * R.m12 = 0 := by
    have := congrArg M3.m01 ht.1
    simp only [M3.mul_def, M3.tr, M3.one_def] at this
    linear_combination this
  obtain ⟨cx, sx⟩ := atan2_cos (y := Real.sin z * R.m02 - Real.cos z * R.m12) (x := Real.cos z * R.m11 - Real.sin z * R.m01)
    zero_le_one (by
      linear_combination Real.sin z ^ 2 * hr00 + Real.cos z ^ 2 * hr11 - 2 * Real.sin z * Real.cos z * hr01 + hz
        - (Real.sin z * R.m00 - Real.cos z * R.m10) * (Real.cos z * c2 - Real.sin z * c1))
  rw [one_mul] at cx sx
  unfold rotZYX
  rw [cx, sx, sy]
  clear cx sx ex ey ez hρ hρ0 hρ2 hc0 hs0
  generalize Real.sin z = s at *
  generalize Real.cos z = c at *
  generalize Real.cos y = d at *
  ext <;> simp only <;> grind

/-- A result that meets the hypotheses of both theorems. -/
example : ∃ r : HandEyeResult, r.targetMountToTarget.R = ⟨0, -1, 0, 1, 0, 0, 0, 0, 1⟩ ∧ RigidMotion r.cameraMountToCamera :=
  ⟨⟨true, some 1, some 0, ⟨⟨0, -1, 0, 1, 0, 0, 0, 0, 1⟩, 0⟩, 1, ⟨[], [], [], ⟨0, 0, fun _ _ => 0⟩, ⟨0, 0, fun _ _ => 0⟩⟩⟩,
    rfl, (rigid_iff 1).1 Iso.IsRigid.one⟩

/-- A document with the wrong number of entries is rejected. -/
theorem C64_rejects_partial (n : Yaml) (h : n.size ≠ 7) : decResult n = .throw .yaml := by
  rw [decResult, if_pos h]

/-! ## C65 DH chains -/

/-- The document `n` describes the joint: type number 0 or 1, the four parameters and the name. -/
def JointDoc (n : Yaml) (t : DHTransform) : Prop :=
  (∃ l s k, n = .map l ∧ l.lookup "type" = some (.scalar s) ∧ s.uns = some k ∧
    ((k = 0 ∧ t.type = .linear) ∨ (k = 1 ∧ t.type = .revolute))) ∧
  HasNumber n "d" t.params.d ∧ HasNumber n "theta" t.params.theta ∧ HasNumber n "r" t.params.r ∧
  HasNumber n "alpha" t.params.alpha ∧
  ∃ l s, n = .map l ∧ l.lookup "joint_name" = some (.scalar s) ∧ s.text = t.name

theorem field_unsigned {n : Yaml} {k : String} {x : Nat} :
    n.field k asUnsigned = .ok x ↔ ∃ l s, n = .map l ∧ l.lookup k = some (.scalar s) ∧ s.uns = some x := by
  cases n with
  | null => simp [Yaml.field, Yaml.key, asNode]
  | scalar s => simp [Yaml.field, Yaml.key]
  | seq l => simp [Yaml.field, Yaml.key, asNode]
  | map l =>
    cases hl : l.lookup k with
    | none => simp [Yaml.field, Yaml.key, asNode, hl]
    | some m =>
      cases m with
      | scalar s => cases hs : s.uns <;> simp [Yaml.field, Yaml.key, asNode, hl, asUnsigned, hs]
      | null => simp [Yaml.field, Yaml.key, asNode, hl, asUnsigned]
      | seq l => simp [Yaml.field, Yaml.key, asNode, hl, asUnsigned]
      | map l => simp [Yaml.field, Yaml.key, asNode, hl, asUnsigned]

theorem field_string {n : Yaml} {k : String} {x : String} :
    n.field k asString = .ok x ↔ ∃ l s, n = .map l ∧ l.lookup k = some (.scalar s) ∧ s.text = x := by
  cases n with
  | null => simp [Yaml.field, Yaml.key, asNode]
  | scalar s => simp [Yaml.field, Yaml.key]
  | seq l => simp [Yaml.field, Yaml.key, asNode]
  | map l =>
    cases hl : l.lookup k with
    | none => simp [Yaml.field, Yaml.key, asNode, hl]
    | some m =>
      cases m with
      | scalar s => simp [Yaml.field, Yaml.key, asNode, hl, asString]
      | null => simp [Yaml.field, Yaml.key, asNode, hl, asString]
      | seq l => simp [Yaml.field, Yaml.key, asNode, hl, asString]
      | map l => simp [Yaml.field, Yaml.key, asNode, hl, asString]

/-- A joint is loaded exactly from the documents that describe it; the limits are one turn. -/
theorem C65_joint (seed : Nat) (n : Yaml) (t : DHTransform) :
    decDHTransform seed n = .ok t ↔ JointDoc n t ∧ t.min = -Real.pi ∧ t.max = Real.pi ∧ t.seed = seed := by
  have hk : ∀ k x, (∃ a, n.key k = .ok a ∧ asNode asReal a = .ok x) ↔ HasNumber n k x := by
    intro k x
    rw [← field_real, Yaml.field, Res.bind_ok_iff]
  unfold decDHTransform JointDoc
  simp only [Res.bind_ok_iff, field_unsigned, field_string, Res.ok.injEq]
  constructor
  · rintro ⟨ty, ⟨l, s, rfl, h1, h2⟩, type, hty, d, hd, th, hth, r, hr, al, hal, d', hd', th', hth', r', hr', al', hal', name,
      hn, rfl⟩
    refine ⟨⟨⟨l, s, ty, rfl, h1, h2, ?_⟩, (hk _ _).1 ⟨_, hd, hd'⟩, (hk _ _).1 ⟨_, hth, hth'⟩, (hk _ _).1 ⟨_, hr, hr'⟩,
      (hk _ _).1 ⟨_, hal, hal'⟩, hn⟩, rfl, rfl, rfl⟩
    split at hty
    · cases hty; left; exact ⟨by assumption, rfl⟩
    · split at hty
      · cases hty; right; exact ⟨by assumption, rfl⟩
      · cases hty
  · rintro ⟨⟨⟨l, s, ty, rfl, h1, h2, h3⟩, hd, hth, hr, hal, hn⟩, hmin, hmax, hseed⟩
    obtain ⟨d, hd, hd'⟩ := (hk _ _).2 hd
    obtain ⟨th, hth, hth'⟩ := (hk _ _).2 hth
    obtain ⟨r, hr, hr'⟩ := (hk _ _).2 hr
    obtain ⟨al, hal, hal'⟩ := (hk _ _).2 hal
    refine ⟨ty, ⟨l, s, rfl, h1, h2⟩, t.type, ?_, d, hd, th, hth, r, hr, al, hal, _, hd', _, hth', _, hr', _, hal', _, hn, ?_⟩
    · rcases h3 with ⟨rfl, h⟩ | ⟨rfl, h⟩ <;> simp [h]
    · rw [← hmin, ← hmax, ← hseed]

/-- Any other type number gives an exception. -/
theorem C65_type (seed : Nat) (l : List (String × Yaml)) (s : YScalar) (k : Nat) (h : l.lookup "type" = some (.scalar s))
    (hs : s.uns = some k) (h0 : k ≠ 0) (h1 : k ≠ 1) : decDHTransform seed (.map l) = .throw .runtimeError := by
  unfold decDHTransform
  rw [field_unsigned.2 ⟨l, s, rfl, h, hs⟩, Res.ok_bind, if_neg h0, if_neg h1, Res.throw_bind]

theorem chainFold {seed : Nat → Nat} {t : Yaml} (k : Nat) (m : Nat) (acc ts : List DHTransform) :
    Res.foldList (fun (acc : List DHTransform) i =>
      (t.idx i).bind fun e => (asNode (decDHTransform (seed i)) e).bind fun j => .ok (acc ++ [j])) acc
      (List.range' k m) = .ok ts ↔
    ∃ js : List DHTransform, ts = acc ++ js ∧ js.length = m ∧
      ∀ (i : Nat) (j : DHTransform), js[i]? = some j →
        ∃ e, t.idx (k + i) = .ok (some e) ∧ decDHTransform (seed (k + i)) e = .ok j := by
  induction m generalizing k acc with
  | zero =>
    simp only [List.range'_zero, Res.foldList_nil, Res.ok.injEq]
    constructor
    · rintro rfl
      exact ⟨[], by simp, rfl, by simp⟩
    · rintro ⟨js, rfl, hl, -⟩
      rw [List.length_eq_zero_iff.1 hl, List.append_nil]
  | succ m ih =>
    rw [List.range'_succ, Res.foldList_cons]
    simp only [Res.bind_ok_iff, ih, Res.ok.injEq]
    constructor
    · rintro ⟨acc', ⟨e, he, j, hj, rfl⟩, js, rfl, hl, hjs⟩
      refine ⟨j :: js, by simp, by simp [hl], ?_⟩
      intro i j' hi
      match i with
      | 0 =>
        simp only [List.getElem?_cons_zero, Option.some.injEq] at hi
        subst hi
        cases e with
        | none => cases hj
        | some e => exact ⟨e, he, hj⟩
      | i + 1 =>
        rw [List.getElem?_cons_succ] at hi
        have := hjs i j' hi
        rwa [show k + 1 + i = k + (i + 1) by omega] at this
    · rintro ⟨js, rfl, hl, hjs⟩
      cases js with
      | nil => simp at hl
      | cons j js =>
        obtain ⟨e, he, hj⟩ := hjs 0 j rfl
        refine ⟨acc ++ [j], ⟨some e, he, j, hj, rfl⟩, js, by simp, by simpa using hl, ?_⟩
        intro i j' hi
        have := hjs (i + 1) j' (by simpa using hi)
        rwa [show k + (i + 1) = k + 1 + i by omega] at this

/-- The joints listed in a document: the entries of a list. -/
def ListedJoints (n : Yaml) (js : List Yaml) : Prop := ∃ l, n = .map l ∧ l.lookup "dh_transforms" = some (.seq js)

/-- A chain is loaded from a document with a list of joints exactly if the base transform can be read and every listed
joint is described; there is one joint per entry, in order. -/
theorem C65_chain (seed : Nat → Nat) (n : Yaml) (js : List Yaml) (hj : ListedJoints n js) (c : DHChain) :
    decDHChain seed n = .ok c ↔ n.field "base_transform" decIso = .ok c.base ∧ c.transforms.length = js.length ∧
      ∀ (i : Nat) (t : DHTransform), c.transforms[i]? = some t →
        ∃ e, js[i]? = some e ∧ JointDoc e t ∧ t.min = -Real.pi ∧ t.max = Real.pi ∧ t.seed = seed i := by
  obtain ⟨l, rfl, hl⟩ := hj
  unfold decDHChain
  have hkey : (Yaml.map l).key "dh_transforms" = .ok (some (.seq js)) := by rw [Yaml.key, hl]
  have ha : ∀ {α : Type} (d : Yaml → Res α) (m : Yaml), asNode d (some m) = d m := fun _ _ => rfl
  simp only [hkey, Res.ok_bind, Res.bind_ok_iff, ha, List.range_eq_range', chainFold]
  simp only [Yaml.size, Yaml.idx, Nat.zero_add, List.nil_append, Res.ok.injEq, C65_joint]
  constructor
  · rintro ⟨b, hb, ts, ⟨us, rfl, hlen, hus⟩, rfl⟩
    exact ⟨hb, hlen, hus⟩
  · rintro ⟨hb, hlen, hus⟩
    exact ⟨_, hb, c.transforms, ⟨_, rfl, hlen, hus⟩, rfl⟩

/-- A joint of an unknown type anywhere in the list, with all joints before it described: no chain is loaded. -/
theorem C65_unknown_type (seed : Nat → Nat) (n : Yaml) (js : List Yaml) (hj : ListedJoints n js) (i : Nat)
    (l : List (String × Yaml)) (s : YScalar) (k : Nat) (hi : js[i]? = some (.map l)) (h : l.lookup "type" = some (.scalar s))
    (hs : s.uns = some k) (h0 : k ≠ 0) (h1 : k ≠ 1) (c : DHChain) : decDHChain seed n ≠ .ok c := by
  intro hc
  obtain ⟨-, hlen, hall⟩ := (C65_chain seed n js hj c).1 hc
  have hlt : i < c.transforms.length := by rw [hlen]; exact (List.getElem?_eq_some_iff.1 hi).1
  obtain ⟨e, he, ⟨⟨l', s', k', hl', h', hs', hk⟩, -⟩, -⟩ := hall i _ (List.getElem?_eq_getElem hlt)
  rw [hi] at he
  cases he
  cases hl'
  rw [h] at h'
  cases h'
  rw [hs] at hs'
  cases hs'
  rcases hk with ⟨rfl, -⟩ | ⟨rfl, -⟩
  · exact h0 rfl
  · exact h1 rfl

/-- Without a list of joints no chain is loaded. -/
theorem C65_missing (seed : Nat → Nat) (l : List (String × Yaml)) (h : l.lookup "dh_transforms" = none) (c : DHChain) :
    decDHChain seed (.map l) ≠ .ok c := by
  intro hc
  unfold decDHChain at hc
  simp only [Yaml.key, h, Res.ok_bind, Res.bind_ok_iff, asNode] at hc
  obtain ⟨b, -, ts, hts, -⟩ := hc
  cases hts

/-- A described joint. -/
example : JointDoc (.map [("type", .scalar ⟨"1", none, some 1, none⟩), ("d", .scalar ⟨"0.5", some (some 0.5), none, none⟩),
    ("theta", .scalar ⟨"0", some (some 0), none, none⟩), ("r", .scalar ⟨"1", some (some 1), none, none⟩),
    ("alpha", .scalar ⟨"2", some (some 2), none, none⟩), ("joint_name", .scalar ⟨"j1", none, none, none⟩)])
    ⟨⟨0.5, 0, 1, 2⟩, .revolute, -Real.pi, Real.pi, "j1", 7⟩ :=
  ⟨⟨_, _, 1, rfl, rfl, rfl, .inr ⟨rfl, rfl⟩⟩, ⟨_, _, rfl, rfl, rfl⟩, ⟨_, _, rfl, rfl, rfl⟩, ⟨_, _, rfl, rfl, rfl⟩,
    ⟨_, _, rfl, rfl, rfl⟩, _, _, rfl, rfl, rfl⟩

/-- A document with a list that contains a joint of type 2. -/
example : ListedJoints (.map [("dh_transforms", .seq [.map [("type", .scalar ⟨"2", none, some 2, none⟩)]])])
      [.map [("type", .scalar ⟨"2", none, some 2, none⟩)]] ∧
    ([("type", .scalar ⟨"2", none, some 2, none⟩)] : List (String × Yaml)).lookup "type" = some (.scalar ⟨"2", none, some 2, none⟩) :=
  ⟨⟨_, rfl, rfl⟩, rfl⟩

/-! ## C61 Equality

Full statement: kinematic observations compare equal only if their correspondences are equal too. It is false, see
`C61_negation`; `C61_partial` says what is compared. -/

/-- Equal up to a relative error of 1e-12. -/
def Close (diff a b : ℝ) : Prop := diff ≤ 1 / 10 ^ 12 * min a b

theorem approxSq_iff {d a b : ℝ} (ha : 0 ≤ a) (hb : 0 ≤ b) : approxSq d a b = true ↔ Close (Real.sqrt d) (Real.sqrt a) (Real.sqrt b) := by
  unfold approxSq Close dummyPrecision
  rw [decide_eq_true_iff]
  have hm : 0 ≤ min a b := le_min ha hb
  have hs : min (Real.sqrt a) (Real.sqrt b) = Real.sqrt (min a b) :=
    ((show Monotone Real.sqrt from fun _ _ h => Real.sqrt_le_sqrt h).map_min).symm
  rw [hs, Real.sqrt_le_iff, mul_pow, Real.sq_sqrt hm]
  constructor
  · intro h
    exact ⟨by positivity, by linarith⟩
  · rintro ⟨-, h⟩
    linarith

/-- Same length and equal up to the tolerance (euclidean norm). -/
def CloseVec (a b : List ℝ) : Prop :=
  a.length = b.length ∧ Close (Real.sqrt ((a.zip b).map fun p => (p.1 - p.2) ^ 2).sum) (Real.sqrt (a.map (· ^ 2)).sum)
    (Real.sqrt (b.map (· ^ 2)).sum)

def CloseV2 (a b : V2) : Prop := Close (a - b).norm a.norm b.norm
def CloseV3 (a b : V3) : Prop := Close (a - b).norm a.norm b.norm

theorem sum_sq_nonneg (l : List ℝ) : 0 ≤ (l.map fun x => x * x).sum := by
  apply List.sum_nonneg
  intro y hy
  obtain ⟨x, -, rfl⟩ := List.mem_map.1 hy
  exact mul_self_nonneg _

theorem vecIsApprox_iff (a b : List ℝ) : vecIsApprox a b = .ok true ↔ CloseVec a b := by
  unfold vecIsApprox CloseVec
  split
  · rename_i h
    simp [h]
  · rename_i h
    push Not at h
    simp only [pow_two]
    rw [Res.ok.injEq, approxSq_iff (sum_sq_nonneg a) (sum_sq_nonneg b)]
    simp [h]

theorem V2.isApprox_iff (a b : V2) : a.isApprox b = true ↔ CloseV2 a b :=
  approxSq_iff (by unfold V2.normSq; nlinarith [mul_self_nonneg a.x, mul_self_nonneg a.y])
    (by unfold V2.normSq; nlinarith [mul_self_nonneg b.x, mul_self_nonneg b.y])

theorem V3.normSq_nn (a : V3) : 0 ≤ a.normSq := by
  unfold V3.normSq V3.dot
  nlinarith [mul_self_nonneg a.x, mul_self_nonneg a.y, mul_self_nonneg a.z]

theorem V3.isApprox_iff (a b : V3) : a.isApprox b = true ↔ CloseV3 a b := approxSq_iff a.normSq_nn b.normSq_nn

theorem vectorEq_iff {α : Type} (eq : α → α → Bool) (as bs : List α) :
    vectorEq eq as bs = true ↔ List.Forall₂ (fun a b => eq a b = true) as bs := by
  induction as generalizing bs with
  | nil => cases bs <;> simp [vectorEq]
  | cons a as ih => cases bs <;> simp [vectorEq, ih]

/-- Two correspondences are equal up to the tolerance. -/
def CloseCorr2 (a b : Corr2) : Prop := CloseV2 a.inImage b.inImage ∧ CloseV3 a.inTarget b.inTarget

theorem Corr2.eq_iff (a b : Corr2) : a.eq b = true ↔ CloseCorr2 a b := by
  unfold Corr2.eq CloseCorr2
  rw [Bool.and_eq_true, V2.isApprox_iff, V3.isApprox_iff]

theorem Corr2.eq_self (a : Corr2) : a.eq a = true := by
  have h2 : a.inImage.isApprox a.inImage = true := by
    unfold V2.isApprox approxSq
    rw [decide_eq_true_iff, show a.inImage - a.inImage = ⟨a.inImage.x - a.inImage.x, a.inImage.y - a.inImage.y⟩ from rfl, min_self]
    simp only [V2.normSq, sub_self, mul_zero, add_zero, dummyPrecision]
    nlinarith [mul_self_nonneg a.inImage.x, mul_self_nonneg a.inImage.y]
  have h3 : a.inTarget.isApprox a.inTarget = true := by
    unfold V3.isApprox approxSq
    rw [decide_eq_true_iff, V3.sub_self, min_self]
    have := a.inTarget.normSq_nn
    have h0 : (0 : V3).normSq = 0 := by simp [V3.normSq, V3.dot]
    rw [h0]
    unfold dummyPrecision
    positivity
  rw [Corr2.eq, h2, h3, Bool.and_self]

/-- Full C61 fails: the result never depends on the correspondences, of either side. -/
theorem C61_negation (a b : KinObs) (ca cb : List Corr2) :
    KinObs.eq { a with correspondences := ca } { b with correspondences := cb } = KinObs.eq a b := by
  have h : ∀ l : List Corr2, vectorEq Corr2.eq l l = true := by
    intro l
    rw [vectorEq_iff]
    induction l with
    | nil => exact .nil
    | cons c l ih => exact .cons c.eq_self ih
  unfold KinObs.eq
  simp only [h]

/-- Hence observations with no correspondence and with one correspondence compare equal. -/
theorem C61_negation_concrete : KinObs.eq ⟨[], [1, 2], [3]⟩ ⟨[⟨⟨5, 6⟩, ⟨7, 8, 9⟩⟩], [1, 2], [3]⟩ = .ok true := by
  have h1 : vecIsApprox [1, 2] [1, 2] = .ok true := (vecIsApprox_iff _ _).2 ⟨rfl, by simp [Close]⟩
  have h2 : vecIsApprox [3] [3] = .ok true := (vecIsApprox_iff _ _).2 ⟨rfl, by simp [Close]⟩
  simp [KinObs.eq, h1, h2, vectorEq]

/-- What is compared: the joint values of both chains. Missing: the correspondences. -/
theorem C61_partial (a b : KinObs) :
    KinObs.eq a b = .ok true ↔ CloseVec a.cameraJoints b.cameraJoints ∧ CloseVec a.targetJoints b.targetJoints := by
  have h : vectorEq Corr2.eq a.correspondences a.correspondences = true := by
    rw [vectorEq_iff]
    induction a.correspondences with
    | nil => exact .nil
    | cons c l ih => exact .cons c.eq_self ih
  unfold KinObs.eq
  rw [h, ← vecIsApprox_iff, ← vecIsApprox_iff]
  cases h1 : vecIsApprox a.cameraJoints b.cameraJoints with
  | ok c =>
    cases c with
    | false => simp
    | true =>
      cases h2 : vecIsApprox a.targetJoints b.targetJoints with
      | ok t => cases t <;> simp
      | throw e => simp
      | abort => simp
      | ub => simp
  | throw e => simp
  | abort => simp
  | ub => simp

/-- Two transforms are equal up to the tolerance, as matrices of four rows and columns. -/
def CloseIso (a b : Iso) : Prop :=
  Close (Real.sqrt ((a.R.m00 - b.R.m00) ^ 2 + (a.R.m01 - b.R.m01) ^ 2 + (a.R.m02 - b.R.m02) ^ 2 + (a.R.m10 - b.R.m10) ^ 2 + (a.R.m11 - b.R.m11) ^ 2 +
      (a.R.m12 - b.R.m12) ^ 2 + (a.R.m20 - b.R.m20) ^ 2 + (a.R.m21 - b.R.m21) ^ 2 + (a.R.m22 - b.R.m22) ^ 2 +
      (a.t.x - b.t.x) ^ 2 + (a.t.y - b.t.y) ^ 2 + (a.t.z - b.t.z) ^ 2))
    (Real.sqrt (a.R.m00 ^ 2 + a.R.m01 ^ 2 + a.R.m02 ^ 2 + a.R.m10 ^ 2 + a.R.m11 ^ 2 + a.R.m12 ^ 2 + a.R.m20 ^ 2 + a.R.m21 ^ 2 + a.R.m22 ^ 2 +
      a.t.x ^ 2 + a.t.y ^ 2 + a.t.z ^ 2 + 1))
    (Real.sqrt (b.R.m00 ^ 2 + b.R.m01 ^ 2 + b.R.m02 ^ 2 + b.R.m10 ^ 2 + b.R.m11 ^ 2 + b.R.m12 ^ 2 + b.R.m20 ^ 2 + b.R.m21 ^ 2 + b.R.m22 ^ 2 +
      b.t.x ^ 2 + b.t.y ^ 2 + b.t.z ^ 2 + 1))

theorem isApprox_close (a b : Iso) : a.isApprox b = true ↔ CloseIso a b := by
  have hf : ∀ m : M3, 0 ≤ m.frobSq := by intro m; unfold M3.frobSq; simp only [← pow_two]; positivity
  have hn : ∀ v : V3, 0 ≤ v.normSq := by intro v; unfold V3.normSq V3.dot; simp only [← pow_two]; positivity
  unfold Iso.isApprox CloseIso
  rw [approxSq_iff (by linarith [hf a.R, hn a.t]) (by linarith [hf b.R, hn b.t])]
  simp only [M3.frobSq, V3.normSq, V3.dot, V3.sub_x, V3.sub_y, V3.sub_z, ← pow_two, add_assoc]

/-- The pose measurements are compared in all their data. -/
theorem C61_measurement_partial (a b : KinMeas) :
    KinMeas.eq a b = .ok true ↔ CloseIso a.cameraToTarget b.cameraToTarget ∧
      CloseVec a.cameraJoints b.cameraJoints ∧ CloseVec a.targetJoints b.targetJoints := by
  unfold KinMeas.eq
  rw [← vecIsApprox_iff, ← vecIsApprox_iff, ← isApprox_close]
  cases h0 : a.cameraToTarget.isApprox b.cameraToTarget with
  | false => simp
  | true =>
    cases h1 : vecIsApprox a.cameraJoints b.cameraJoints with
    | ok c => cases c <;> simp
    | throw e => simp
    | abort => simp
    | ub => simp

/-- Full C61 fails for chains of different lengths: comparing the joint values of robots with different numbers of joints is outside the
contract of Eigen, for observations as well as for measurements of the same pose. -/
theorem C61_sizes_negation (a b : KinObs) (m n : KinMeas) (h1 : a.cameraJoints.length ≠ b.cameraJoints.length)
    (h2 : m.cameraJoints.length ≠ n.cameraJoints.length) (h3 : CloseIso m.cameraToTarget n.cameraToTarget) :
    KinObs.eq a b = .ub ∧ KinMeas.eq m n = .ub := by
  have h4 := (isApprox_close _ _).2 h3
  simp [KinObs.eq, KinMeas.eq, vecIsApprox, h1, h2, h4]

example : ∃ (a b : KinObs) (m n : KinMeas), a.cameraJoints.length ≠ b.cameraJoints.length ∧ m.cameraJoints.length ≠ n.cameraJoints.length ∧
    CloseIso m.cameraToTarget n.cameraToTarget :=
  ⟨⟨[], [1, 2], [3]⟩, ⟨[], [1], [3]⟩, ⟨1, [1, 2], [3]⟩, ⟨1, [1], [3]⟩, by simp, by simp, by simp [CloseIso, Close]⟩

/-- The other observations are compared in all their data. -/
theorem C61_observation_partial (a b : Obs Corr2) :
    Obs.eq Corr2.eq a b = true ↔ CloseIso a.toCameraMount b.toCameraMount ∧
      CloseIso a.toTargetMount b.toTargetMount ∧ List.Forall₂ CloseCorr2 a.corrs b.corrs := by
  unfold Obs.eq
  rw [← isApprox_close, ← isApprox_close]
  rw [Bool.and_eq_true, Bool.and_eq_true, vectorEq_iff, and_assoc]
  simp only [Corr2.eq_iff]

/-- `isApprox` of transforms implies that rotation entries and translations differ by at most the tolerance times the norm. -/
theorem C61_transform_partial (a b : Iso) (h : a.isApprox b = true) :
    (a.t - b.t).norm ≤ 1 / 10 ^ 12 * Real.sqrt (a.R.frobSq + a.t.normSq + 1) := by
  unfold Iso.isApprox approxSq dummyPrecision at h
  rw [decide_eq_true_iff] at h
  have hf : ∀ m : M3, 0 ≤ m.frobSq := by intro m; unfold M3.frobSq; simp only [← pow_two]; positivity
  have h1 : (a.t - b.t).normSq ≤ 1 / 10 ^ 12 * (1 / 10 ^ 12) * (a.R.frobSq + a.t.normSq + 1) := by
    refine le_trans (le_trans (le_add_of_nonneg_left (hf _)) h) ?_
    exact mul_le_mul_of_nonneg_left (min_le_left _ _) (by norm_num)
  have hn : 0 ≤ a.R.frobSq + a.t.normSq + 1 := by have := hf a.R; have := a.t.normSq_nn; linarith
  unfold V3.norm
  rw [Real.sqrt_le_iff, mul_pow, Real.sq_sqrt hn]
  exact ⟨by positivity, by linarith⟩

end RCT
