import Verif.Props.Mains
import Verif.Props.Plugins

/-!
# C208 and C209: loaders of poses that return a flag, and the angles stored with results
-/

namespace RCT

open Spec Yaml

/-! ## C208 -/

theorem loadPoseParam_outcome (param : Option XVal) : (∃ T, loadPoseParam param = .ok T) ∨ loadPoseParam param = .throw .other := by
  unfold loadPoseParam
  cases param with
  | none => exact Or.inr rfl
  | some xml =>
    have h : ∀ k, OkOr .other (needDouble xml k) := needDouble_outcome xml
    exact OkOr.bind (h _) fun _ => OkOr.bind (h _) fun _ => OkOr.bind (h _) fun _ => OkOr.bind (h _) fun _ =>
      OkOr.bind (h _) fun _ => OkOr.bind (h _) fun _ => OkOr.bind (h _) fun _ => Or.inl ⟨_, rfl⟩

/-- The overload that returns a flag: true with the loaded pose, or false with the caller's pose; it never throws. -/
theorem C208_parameters (param : Option XVal) (pose : Iso) :
    (∃ T, loadPoseParam param = .ok T ∧ tryLoadPoseParam param pose = .ok (true, T)) ∨
    ((∀ T, loadPoseParam param ≠ .ok T) ∧ tryLoadPoseParam param pose = .ok (false, pose)) := by
  unfold tryLoadPoseParam
  rcases loadPoseParam_outcome param with ⟨T, h⟩ | h
  · left; refine ⟨T, h, ?_⟩; rw [h]; rfl
  · right; rw [h]; exact ⟨fun i hi => (by cases hi), rfl⟩

/-- It returns true exactly for parameters with the seven numbers of a pose. -/
theorem C208_parameters_exact (param : String → Option XVal) (hp : ProperParams param) (k : String) (pose T : Iso) :
    tryLoadPoseParam (param k) pose = .ok (true, T) ↔ PoseParam (param k) T := by
  rw [← poseParam_ok_iff hp]
  rcases C208_parameters (param k) pose with ⟨S, h1, h2⟩ | ⟨h1, h2⟩ <;> rw [h2]
  · rw [h1]; simp
  · simp [h1 T]

theorem decIso_outcome (n : Yaml) : OkOr .yaml (decIso n) := by
  unfold decIso
  have h : ∀ k, OkOr .yaml (n.field k asReal) := fun k => OkOr.field n k OkOr.asReal
  exact OkOr.bind (h _) fun _ => OkOr.bind (h _) fun _ => OkOr.bind (h _) fun _ => OkOr.bind (h _) fun _ =>
    OkOr.bind (h _) fun _ => OkOr.bind (h _) fun _ => OkOr.bind (h _) fun _ => Or.inl ⟨_, rfl⟩

theorem loadPoseFile_outcome {Img : Type} (fs : FS Img) (path : String) :
    (∃ T, loadPoseFile fs path = .ok T) ∨ loadPoseFile fs path = .throw .badFile := by
  have h : OkOr .yaml ((loadYaml fs path).bind decIso) := by
    refine OkOr.bind ?_ decIso_outcome
    unfold loadYaml
    split
    · exact Or.inl ⟨_, rfl⟩
    · exact Or.inr rfl
  unfold loadPoseFile
  rcases h with ⟨T, h⟩ | h <;> rw [h]
  · exact Or.inl ⟨T, rfl⟩
  · exact Or.inr rfl

/-- The same for files. -/
theorem C208_file {Img : Type} (fs : FS Img) (path : String) (pose : Iso) :
    (∃ T, loadPoseFile fs path = .ok T ∧ tryLoadPoseFileInto fs path pose = .ok (true, T)) ∨
    ((∀ T, loadPoseFile fs path ≠ .ok T) ∧ tryLoadPoseFileInto fs path pose = .ok (false, pose)) := by
  unfold tryLoadPoseFileInto
  rcases loadPoseFile_outcome fs path with ⟨T, h⟩ | h
  · left; refine ⟨T, h, ?_⟩; rw [h]; rfl
  · right; rw [h]; exact ⟨fun i hi => (by cases hi), rfl⟩

/-- It returns true exactly for documents with the seven numbers; here the quaternion is not normalised. -/
theorem C208_file_exact {Img : Type} (fs : FS Img) (path : String) (pose T : Iso) :
    tryLoadPoseFileInto fs path pose = .ok (true, T) ↔ ∃ y, ∃ q : Quat, fs.files path = some (.yaml y) ∧
      (HasNumber y "x" T.t.x ∧ HasNumber y "y" T.t.y ∧ HasNumber y "z" T.t.z) ∧
      (HasNumber y "qw" q.w ∧ HasNumber y "qx" q.x ∧ HasNumber y "qy" q.y ∧ HasNumber y "qz" q.z) ∧ T.R = q.toMat := by
  have h1 : tryLoadPoseFileInto fs path pose = .ok (true, T) ↔ loadPoseFile fs path = .ok T := by
    rcases C208_file fs path pose with ⟨S, h1, h2⟩ | ⟨h1, h2⟩ <;> rw [h2]
    · rw [h1]; simp
    · simp [h1 T]
  rw [h1, loadPoseFile_ok_iff]
  constructor
  · rintro ⟨y, hy, hd⟩
    unfold decIso at hd
    simp only [Res.bind_ok_iff] at hd
    obtain ⟨a, ha, b, hb, c, hc, qw, hqw, qx, hqx, qy, hqy, qz, hqz, hd⟩ := hd
    cases hd
    exact ⟨y, ⟨qw, qx, qy, qz⟩, hy, ⟨field_real.1 ha, field_real.1 hb, field_real.1 hc⟩,
      ⟨field_real.1 hqw, field_real.1 hqx, field_real.1 hqy, field_real.1 hqz⟩, rfl⟩
  · rintro ⟨y, q, hy, ⟨ha, hb, hc⟩, ⟨hqw, hqx, hqy, hqz⟩, hR⟩
    refine ⟨y, hy, ?_⟩
    unfold decIso
    rw [field_real.2 ha, field_real.2 hb, field_real.2 hc, field_real.2 hqw, field_real.2 hqx, field_real.2 hqy, field_real.2 hqz]
    simp only [Res.ok_bind, ← hR]

/-- The variant used by the reader of data sets is this one without the pose that is kept on failure. -/
theorem C208_data_sets {Img : Type} (fs : FS Img) (path : String) (pose : Iso) :
    tryLoadPoseFile fs path = (tryLoadPoseFileInto fs path pose).bind fun r => .ok (if r.1 = true then some r.2 else none) := by
  unfold tryLoadPoseFile tryLoadPoseFileInto
  rcases loadPoseFile_outcome fs path with ⟨T, h⟩ | h <;> rw [h] <;> rfl

/-- A quarter turn is loaded from a parameter; a pose without `qw` is not, and the caller's pose stays. -/
example : (∃ T, tryLoadPoseParam (some (.struct [("x", .double 1), ("y", .double 2), ("z", .double 3), ("qx", .double 0),
      ("qy", .double 0), ("qz", .double 1), ("qw", .double 1)])) (shiftBy 7 7 7) = .ok (true, T)) ∧
    tryLoadPoseParam (some (.struct [("x", .double 1), ("y", .double 2), ("z", .double 3), ("qx", .double 0),
      ("qy", .double 0), ("qz", .double 1)])) (shiftBy 7 7 7) = .ok (false, shiftBy 7 7 7) := by
  constructor
  · simp [tryLoadPoseParam, loadPoseParam, needDouble, readDouble, XVal.member, List.lookup, XVal.asDouble, Res.bind, Res.tryCatch]
  · simp [tryLoadPoseParam, loadPoseParam, needDouble, readDouble, XVal.member, List.lookup, XVal.asDouble, Res.bind, Res.tryCatch]

/-! ## C209 -/

/-- The angles stored with a result as `x`, `y`, `z` are roll, pitch and yaw: turning about the x axis, then about y, then about z
by them gives the orientation. The positions are stored unchanged. -/
theorem C209_stored (P : YamlPrinter) (hP : P.WF) (euler : M3 → V3) (he : EulerWF euler) (r : HandEyeResult)
    (ht : RigidMotion r.targetMountToTarget) (hc : RigidMotion r.cameraMountToCamera) :
    (∃ v, (encResult P euler r).field "target_mount_to_target_rpy" decV3 = .ok v ∧
      rotZYX v.z v.y v.x = r.targetMountToTarget.R) ∧
    (∃ v, (encResult P euler r).field "camera_mount_to_camera_rpy" decV3 = .ok v ∧
      rotZYX v.z v.y v.x = r.cameraMountToCamera.R) ∧
    (encResult P euler r).field "target_mount_to_target_pos" decV3 = .ok r.targetMountToTarget.t ∧
    (encResult P euler r).field "camera_mount_to_camera_pos" decV3 = .ok r.cameraMountToCamera.t := by
  refine ⟨⟨(euler r.targetMountToTarget.R).reverse, ?_, he _ ((rigid_iff _).2 ht)⟩,
    ⟨(euler r.cameraMountToCamera.R).reverse, ?_, he _ ((rigid_iff _).2 hc)⟩, ?_, ?_⟩ <;>
  simp [encResult, Yaml.field, Yaml.key, List.lookup, asNode, decV3_enc hP]

/-- The textbook rotation is the product of the three turns. -/
theorem C209_turns (v : V3) : rotZYX v.z v.y v.x =
    (⟨Real.cos v.z, -Real.sin v.z, 0, Real.sin v.z, Real.cos v.z, 0, 0, 0, 1⟩ : M3) *
    ((⟨Real.cos v.y, 0, Real.sin v.y, 0, 1, 0, -Real.sin v.y, 0, Real.cos v.y⟩ : M3) *
     (⟨1, 0, 0, 0, Real.cos v.x, -Real.sin v.x, 0, Real.sin v.x, Real.cos v.x⟩ : M3)) := by
  unfold rotZYX
  simp only [M3.mul_def, M3.mk.injEq]
  refine ⟨?_, ?_, ?_, ?_, ?_, ?_, ?_, ?_, ?_⟩ <;> ring

example : EulerWF eulerAngles210 ∧ ∃ r : HandEyeResult, RigidMotion r.targetMountToTarget ∧ RigidMotion r.cameraMountToCamera ∧
    r.targetMountToTarget ≠ 1 :=
  ⟨eulerAngles210_wf, ⟨true, none, none, quarterX, quarterZ, ⟨[], [], [], ⟨0, 0, fun _ _ => 0⟩, ⟨0, 0, fun _ _ => 0⟩⟩⟩, quarterX_rep.1,
    quarterZ_rep.1, fun h => by
      have := congrArg (fun T : Iso => T.t.x) h
      norm_num [quarterX, Iso.one_def] at this⟩

end RCT
