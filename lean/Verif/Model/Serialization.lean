import Verif.Model.Yaml
import Verif.Model.HandEye
import Verif.Model.DHChain
import Verif.Model.Kinematic

/-!
# Serialisation and equality of the data types

Models `rct_optimizations/include/rct_optimizations/serialization/{eigen,types,problems}.h` and the comparison operators
of `types.h` and `extrinsic_hand_eye.h`. A `decode` that returns `false` makes `as<T>()` throw.
-/

namespace RCT

open Yaml

/-! ### eigen.h -/

/-- `serialization/eigen.h` 13-19. -/
def encV2 (P : YamlPrinter) (v : V2) : Yaml := .map [("x", P.num v.x), ("y", P.num v.y)]

/-- `serialization/eigen.h` 21-27. -/
def decV2 (n : Yaml) : Res V2 :=
  (n.field "x" asReal).bind fun x => (n.field "y" asReal).bind fun y => .ok ⟨x, y⟩

/-- `serialization/eigen.h` 35-42. -/
def encV3 (P : YamlPrinter) (v : V3) : Yaml := .map [("x", P.num v.x), ("y", P.num v.y), ("z", P.num v.z)]

/-- `serialization/eigen.h` 44-51. -/
def decV3 (n : Yaml) : Res V3 :=
  (n.field "x" asReal).bind fun x => (n.field "y" asReal).bind fun y => (n.field "z" asReal).bind fun z => .ok ⟨x, y, z⟩

/-- `serialization/eigen.h` 59-73. -/
noncomputable def encIso (P : YamlPrinter) (T : Iso) : Yaml :=
  let q := T.R.toQuat
  .map [("x", P.num T.t.x), ("y", P.num T.t.y), ("z", P.num T.t.z),
    ("qw", P.num q.w), ("qx", P.num q.x), ("qy", P.num q.y), ("qz", P.num q.z)]

/-- `serialization/eigen.h` 75-91; the quaternion is not normalised. -/
def decIso (n : Yaml) : Res Iso :=
  (n.field "x" asReal).bind fun x => (n.field "y" asReal).bind fun y => (n.field "z" asReal).bind fun z =>
  (n.field "qw" asReal).bind fun qw => (n.field "qx" asReal).bind fun qx => (n.field "qy" asReal).bind fun qy =>
  (n.field "qz" asReal).bind fun qz => .ok ⟨Quat.toMat ⟨qw, qx, qy, qz⟩, ⟨x, y, z⟩⟩

/-! ### types.h -/

/-- `serialization/types.h` 14-22. -/
def encIntr (P : YamlPrinter) (i : Intr) : Yaml :=
  .map [("cx", P.num i.cx), ("cy", P.num i.cy), ("fx", P.num i.fx), ("fy", P.num i.fy)]

/-- `serialization/types.h` 24-35. -/
def decIntr (n : Yaml) : Res Intr :=
  if n.size ≠ 4 then .throw .yaml else
  (n.field "cx" asReal).bind fun cx => (n.field "cy" asReal).bind fun cy => (n.field "fx" asReal).bind fun fx =>
  (n.field "fy" asReal).bind fun fy => .ok ⟨fx, fy, cx, cy⟩

/-- `serialization/types.h` 43-49 for `Correspondence<2, 3>`. -/
def encCorr2 (P : YamlPrinter) (c : Corr2) : Yaml :=
  .map [("in_image", encV2 P c.inImage), ("in_target", encV3 P c.inTarget)]

/-- `serialization/types.h` 51-60 for `Correspondence<2, 3>`. -/
def decCorr2 (n : Yaml) : Res Corr2 :=
  if n.size ≠ 2 then .throw .yaml else
  (n.field "in_image" decV2).bind fun a => (n.field "in_target" decV3).bind fun b => .ok ⟨a, b⟩

/-- `serialization/types.h` 43-49 for `Correspondence<3, 3>`. -/
def encCorr3 (P : YamlPrinter) (c : Corr3) : Yaml :=
  .map [("in_image", encV3 P c.inImage), ("in_target", encV3 P c.inTarget)]

/-- `serialization/types.h` 51-60 for `Correspondence<3, 3>`. -/
def decCorr3 (n : Yaml) : Res Corr3 :=
  if n.size ≠ 2 then .throw .yaml else
  (n.field "in_image" decV3).bind fun a => (n.field "in_target" decV3).bind fun b => .ok ⟨a, b⟩

/-- `serialization/types.h` 68-75; `enc` encodes a correspondence. -/
noncomputable def encObs {κ : Type} (P : YamlPrinter) (enc : κ → Yaml) (o : Obs κ) : Yaml :=
  .map [("correspondences", .seq (o.corrs.map enc)), ("to_target_mount", encIso P o.toTargetMount),
    ("to_camera_mount", encIso P o.toCameraMount)]

/-- `serialization/types.h` 77-87. -/
def decObs {κ : Type} (dec : Yaml → Res κ) (n : Yaml) : Res (Obs κ) :=
  if n.size ≠ 3 then .throw .yaml else
  (n.field "correspondences" (asVector dec)).bind fun cs => (n.field "to_target_mount" decIso).bind fun t =>
  (n.field "to_camera_mount" decIso).bind fun c => .ok ⟨cs, c, t⟩

/-- `serialization/types.h` 94-125. The random seed of the joint is not initialised (`DHTransform() = default`,
`dh_chain.h` 132); `seed` is whatever the memory holds. -/
noncomputable def decDHTransform (seed : Nat) (n : Yaml) : Res DHTransform :=
  (n.field "type" asUnsigned).bind fun ty =>
  (if ty = 0 then .ok JointType.linear else if ty = 1 then .ok JointType.revolute else .throw .runtimeError : Res JointType).bind
    fun type =>
  (n.key "d").bind fun d => (n.key "theta").bind fun theta => (n.key "r").bind fun r => (n.key "alpha").bind fun alpha =>
  (asNode asReal d).bind fun d => (asNode asReal theta).bind fun theta => (asNode asReal r).bind fun r =>
  (asNode asReal alpha).bind fun alpha =>
  (n.field "joint_name" asString).bind fun name =>
  .ok ⟨⟨d, theta, r, alpha⟩, type, -Real.pi, Real.pi, name, seed⟩

/-- `serialization/types.h` 132-145. -/
noncomputable def decDHChain (seed : Nat → Nat) (n : Yaml) : Res DHChain :=
  (n.field "base_transform" decIso).bind fun base =>
  (n.key "dh_transforms").bind fun transforms =>
  (asNode (fun t : Yaml =>
    Res.foldList (fun (acc : List DHTransform) i =>
      (t.idx i).bind fun e => (asNode (decDHTransform (seed i)) e).bind fun j => .ok (acc ++ [j])) []
      (List.range t.size)) transforms).bind fun ts => .ok ⟨ts, base⟩

/-! ### problems.h -/

/-- `toIsometry` (`serialization/problems.h` 8-14). -/
noncomputable def toIsometry (trans e : V3) : Iso :=
  ⟨AngleAxis.toMat ⟨e.z, ⟨0, 0, 1⟩⟩ * AngleAxis.toMat ⟨e.y, ⟨0, 1, 0⟩⟩ * AngleAxis.toMat ⟨e.x, ⟨1, 0, 0⟩⟩, trans⟩

/-- `vec.reverse()` -/
def V3.reverse (v : V3) : V3 := ⟨v.z, v.y, v.x⟩

/-- `serialization/problems.h` 24-34. -/
noncomputable def encProblem2 (P : YamlPrinter) (p : HandEyeProblem Corr2) : Yaml :=
  .map [("intr", encIntr P p.intr), ("camera_mount_to_camera_guess", encIso P p.cameraGuess),
    ("target_mount_to_target_guess", encIso P p.targetGuess),
    ("observations", .seq (p.observations.map (encObs P (encCorr2 P))))]

/-- `serialization/problems.h` 36-49. The labels keep their default values (`extrinsic_hand_eye.h` 33-35). -/
def decProblem2 (n : Yaml) : Res (HandEyeProblem Corr2) :=
  if n.size ≠ 4 then .throw .yaml else
  (n.field "intr" decIntr).bind fun intr => (n.field "camera_mount_to_camera_guess" decIso).bind fun c =>
  (n.field "target_mount_to_target_guess" decIso).bind fun t =>
  (n.field "observations" (asVector (decObs decCorr2))).bind fun obs =>
  .ok { observations := obs, intr := intr, targetGuess := t, cameraGuess := c,
        labelCamera := "camera_mount_to_camera", labelTarget := "target_mount_to_target" }

/-- `serialization/problems.h` 57-66. -/
noncomputable def encProblem3 (P : YamlPrinter) (p : HandEyeProblem Corr3) : Yaml :=
  .map [("camera_mount_to_camera_guess", encIso P p.cameraGuess),
    ("target_mount_to_target_guess", encIso P p.targetGuess),
    ("observations", .seq (p.observations.map (encObs P (encCorr3 P))))]

/-- `serialization/problems.h` 68-80; there are no intrinsics (the model keeps an unused zero value). -/
noncomputable def decProblem3 (n : Yaml) : Res (HandEyeProblem Corr3) :=
  if n.size ≠ 3 then .throw .yaml else
  (n.field "camera_mount_to_camera_guess" decIso).bind fun c =>
  (n.field "target_mount_to_target_guess" decIso).bind fun t =>
  (n.field "observations" (asVector (decObs decCorr3))).bind fun obs =>
  .ok { observations := obs, intr := ⟨0, 0, 0, 0⟩, targetGuess := t, cameraGuess := c,
        labelCamera := "camera_mount_to_camera", labelTarget := "target_mount_to_target" }

/-- `Eigen::MatrixBase::eulerAngles(2, 1, 0)` (library semantics, Eigen 3.3 and 3.4). -/
noncomputable def eulerAngles210 (m : M3) : V3 :=
  let r0 := atan2 m.m10 m.m00
  let c2 := Real.sqrt (m.m22 * m.m22 + m.m21 * m.m21)
  let z := if r0 < 0 then r0 + Real.pi else r0
  let y := if r0 < 0 then atan2 (-m.m20) (-c2) else atan2 (-m.m20) c2
  let s1 := Real.sin z
  let c1 := Real.cos z
  ⟨z, y, atan2 (s1 * m.m02 - c1 * m.m12) (c1 * m.m11 - s1 * m.m01)⟩

/-- `serialization/problems.h` 87-102; `euler` is `eulerAngles(2, 1, 0)`. -/
noncomputable def encResult (P : YamlPrinter) (euler : M3 → V3) (r : HandEyeResult) : Yaml :=
  .map [("converged", .scalar (P.bool r.converged)), ("initial_cost_per_obs", .scalar (P.real r.initialCost)),
    ("final_cost_per_obs", .scalar (P.real r.finalCost)),
    ("target_mount_to_target_pos", encV3 P r.targetMountToTarget.t),
    ("camera_mount_to_camera_pos", encV3 P r.cameraMountToCamera.t),
    ("target_mount_to_target_rpy", encV3 P (euler r.targetMountToTarget.R).reverse),
    ("camera_mount_to_camera_rpy", encV3 P (euler r.cameraMountToCamera.R).reverse)]

/-- `serialization/problems.h` 104-122. The covariance keeps its default (empty) value. -/
noncomputable def decResult (n : Yaml) : Res HandEyeResult :=
  if n.size ≠ 7 then .throw .yaml else
  (n.field "converged" asBool).bind fun conv => (n.field "initial_cost_per_obs" asRealN).bind fun ic =>
  (n.field "final_cost_per_obs" asRealN).bind fun fc =>
  (n.field "target_mount_to_target_pos" decV3).bind fun tp => (n.field "target_mount_to_target_rpy" decV3).bind fun tr =>
  (n.field "camera_mount_to_camera_pos" decV3).bind fun cp => (n.field "camera_mount_to_camera_rpy" decV3).bind fun cr =>
  .ok ⟨conv, ic, fc, toIsometry tp tr.reverse, toIsometry cp cr.reverse, ⟨[], [], [], ⟨0, 0, fun _ _ => 0⟩, ⟨0, 0, fun _ _ => 0⟩⟩⟩

/-! ### Comparison operators -/

/-- `NumTraits<double>::dummy_precision()` -/
noncomputable def dummyPrecision : ℝ := 1 / 10 ^ 12

open Classical in
/-- `isApprox` of Eigen, given the squared norms of the difference and of both operands. -/
noncomputable def approxSq (diff a b : ℝ) : Bool := decide (diff ≤ dummyPrecision * dummyPrecision * min a b)

/-- `Vector2d::isApprox` -/
noncomputable def V2.isApprox (a b : V2) : Bool := approxSq (a - b).normSq a.normSq b.normSq

/-- `Vector3d::isApprox` -/
noncomputable def V3.isApprox (a b : V3) : Bool := approxSq (a - b).normSq a.normSq b.normSq

/-- Sum of the squares of the entries of a 3x3 matrix. -/
def M3.frobSq (m : M3) : ℝ :=
  m.m00 * m.m00 + m.m01 * m.m01 + m.m02 * m.m02 + m.m10 * m.m10 + m.m11 * m.m11 + m.m12 * m.m12 +
  m.m20 * m.m20 + m.m21 * m.m21 + m.m22 * m.m22

/-- `Isometry3d::isApprox`: compares the 4x4 matrices, whose last row is (0, 0, 0, 1). -/
noncomputable def Iso.isApprox (a b : Iso) : Bool :=
  approxSq
    (M3.frobSq ⟨a.R.m00 - b.R.m00, a.R.m01 - b.R.m01, a.R.m02 - b.R.m02, a.R.m10 - b.R.m10, a.R.m11 - b.R.m11,
      a.R.m12 - b.R.m12, a.R.m20 - b.R.m20, a.R.m21 - b.R.m21, a.R.m22 - b.R.m22⟩ + (a.t - b.t).normSq)
    (a.R.frobSq + a.t.normSq + 1) (b.R.frobSq + b.t.normSq + 1)

/-- `VectorXd::isApprox`; operands of different length are outside the contract of Eigen (an assertion, or a read out of
range without assertions). -/
noncomputable def vecIsApprox (a b : List ℝ) : Res Bool :=
  if a.length ≠ b.length then .ub else
  .ok (approxSq ((a.zip b).map fun p => (p.1 - p.2) * (p.1 - p.2)).sum (a.map fun x => x * x).sum (b.map fun x => x * x).sum)

/-- `operator==` of `std::vector`. -/
def vectorEq {α : Type} (eq : α → α → Bool) : List α → List α → Bool
  | [], [] => true
  | a :: as, b :: bs => eq a b && vectorEq eq as bs
  | _, _ => false

/-- `types.h` 27. -/
noncomputable def Intr.eq (a b : Intr) : Bool :=
  decide (a.fx = b.fx) && decide (a.fy = b.fy) && decide (a.cx = b.cx) && decide (a.cy = b.cy)

/-- `types.h` 74-77 for `Correspondence<2, 3>`. -/
noncomputable def Corr2.eq (a b : Corr2) : Bool := a.inImage.isApprox b.inImage && a.inTarget.isApprox b.inTarget

/-- `types.h` 74-77 for `Correspondence<3, 3>`. -/
noncomputable def Corr3.eq (a b : Corr3) : Bool := a.inImage.isApprox b.inImage && a.inTarget.isApprox b.inTarget

/-- `types.h` 120-124. -/
noncomputable def Obs.eq {κ : Type} (eqc : κ → κ → Bool) (a b : Obs κ) : Bool :=
  a.toCameraMount.isApprox b.toCameraMount && a.toTargetMount.isApprox b.toTargetMount && vectorEq eqc a.corrs b.corrs

/-- `types.h` 146-150: the last comparison is of `correspondence_set` with itself. -/
noncomputable def KinObs.eq (a b : KinObs) : Res Bool :=
  (vecIsApprox a.cameraJoints b.cameraJoints).bind fun c =>
    if c = false then .ok false else
      (vecIsApprox a.targetJoints b.targetJoints).bind fun t =>
        if t = false then .ok false else .ok (vectorEq Corr2.eq a.correspondences a.correspondences)

/-- `types.h` 179-183. -/
noncomputable def KinMeas.eq (a b : KinMeas) : Res Bool :=
  if a.cameraToTarget.isApprox b.cameraToTarget = false then .ok false else
    (vecIsApprox a.cameraJoints b.cameraJoints).bind fun c =>
      if c = false then .ok false else vecIsApprox a.targetJoints b.targetJoints

/-- `extrinsic_hand_eye.h` 37-42. -/
noncomputable def HandEyeProblem.eq2 (a b : HandEyeProblem Corr2) : Bool :=
  vectorEq (Obs.eq Corr2.eq) a.observations b.observations && Intr.eq a.intr b.intr &&
    a.targetGuess.isApprox b.targetGuess && a.cameraGuess.isApprox b.cameraGuess

/-- `extrinsic_hand_eye.h` 55-60. -/
noncomputable def HandEyeProblem.eq3 (a b : HandEyeProblem Corr3) : Bool :=
  vectorEq (Obs.eq Corr3.eq) a.observations b.observations &&
    a.targetGuess.isApprox b.targetGuess && a.cameraGuess.isApprox b.cameraGuess

end RCT
