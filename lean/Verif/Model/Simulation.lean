import Verif.Model.HandEye
import Verif.Model.Kinematic

/-!
# Simulated observations

Models the support library of the tests, `rct_optimizations/test/src/{utilities,pose_generator,observation_creator,
dh_chain_observation_creator}.cpp` and `rct_optimizations/test/include/rct_optimizations_tests/*.h`, which produces the
data on which the optimisations are judged. Random engines are parameters (`Engine`, `DHChain.lean`).
-/

namespace RCT

/-! ### utilities.h, utilities.cpp -/

/-- `test::Camera` (`utilities.h` 15-20). -/
structure SimCamera where
  intr : Intr
  width : Int
  height : Int

/-- `test::Target` (`utilities.h` 36-62). -/
structure SimTarget where
  points : List V3
  originIdx : Nat
  center : V3

/-- `Target(rows, cols, spacing)` (`utilities.h` 40-57). Simplification: `rows` and `cols` are positive and so small that no
`unsigned` expression wraps. -/
noncomputable def SimTarget.make (rows cols : Nat) (spacing : ℝ) : SimTarget where
  points := ((List.range rows).map (· + 1)).flatMap fun i =>
    (List.range cols).map fun (j : Nat) => ⟨(j : ℝ) * spacing, ((rows - i : Nat) : ℝ) * spacing, 0⟩
  originIdx := (rows - 1) * cols
  center := ⟨((rows - 1 : Nat) : ℝ) * spacing / 2, ((cols - 1 : Nat) : ℝ) * spacing / 2, 0⟩

/-- Contract of `std::uniform_real_distribution` in all usual libraries: one canonical value in [0, 1) is taken from the
engine and scaled to the interval. -/
def Engine.Scaled (E : Engine) : Prop :=
  ∃ (can : E.St → ℝ) (next : E.St → E.St), (∀ s, 0 ≤ can s ∧ can s < 1) ∧
    ∀ s lo hi, E.draw s lo hi = (lo + (hi - lo) * can s, next s)

/-- Three draws of `std::bind(distribution, engine)`: the bound copy of the engine starts in state `s`. The arguments of a
constructor call are evaluated in an order chosen by the compiler; here from left to right. -/
def draw3 (E : Engine) (s : E.St) (lo hi : ℝ) : V3 :=
  let a := E.draw s lo hi
  let b := E.draw a.2 lo hi
  let c := E.draw b.2 lo hi
  ⟨a.1, b.1, c.1⟩

/-- `perturbPose` (`utilities.cpp` 24-41). `std::bind` copies its arguments, so each of the three bound distributions owns a
copy of the freshly seeded engine. `normalize` leaves a zero vector unchanged. -/
noncomputable def perturbPose (E : Engine) (seed : Nat) (pose : Iso) (spatialNoise angleNoise : ℝ) : Iso :=
  let e := E.seed seed
  let translation := draw3 E e (-spatialNoise) spatialNoise
  let rotAxis := (draw3 E e (-1) 1).normalized
  let angle := (E.draw e (-angleNoise) angleNoise).1
  (pose.translateBy translation).rotateBy ⟨angle, rotAxis⟩

/-- `createTwoAxisPositioner` (`utilities.cpp` 67-97, also `rct_examples/src/examples/kinematic_calibration.cpp` 74-104). -/
noncomputable def twoAxisPositioner (seed : Nat) : DHChain where
  transforms := [
    { DHTransform.mk4 ⟨0, 0, 0, -Real.pi / 2⟩ .revolute "j1" seed with max := Real.pi, min := -Real.pi },
    { DHTransform.mk4 ⟨-475 / 1000, -Real.pi / 2, 0, 0⟩ .revolute "j2" seed with max := 2 * Real.pi, min := -2 * Real.pi }]
  base := ((1 : Iso).translateBy ⟨22 / 10, 0, 16 / 10⟩).rotateBy ⟨Real.pi / 2, ⟨1, 0, 0⟩⟩

/-- `perturbDHChain` (`utilities.cpp` 99-118); `noise` are the values drawn for the entries of the table. -/
noncomputable def perturbDHChain (c : DHChain) (noise : Nat → V4) (seed : Nat) : Res DHChain :=
  let types := c.getJointTypes
  let dh := c.getDHTable.mapIdx fun i row => row + noise i
  (Res.mapList (fun i =>
    (Res.idxList dh i).bind fun row => (Res.idxList types i).bind fun type =>
      .ok (DHTransform.mk4 row type ("j" ++ toString (i + 1)) seed)) (List.range types.length)).bind fun ts =>
  .ok ⟨ts, c.getBaseOffset⟩

/-! ### pose_generator.cpp -/

/-- `lookAt` (`pose_generator.cpp` 8-21). -/
noncomputable def lookAt (origin eye up : V3) : Iso :=
  let z := (eye - origin).normalized
  let x := (z.cross up).normalized
  let y := (z.cross x).normalized
  ⟨⟨x.x, y.x, z.x,
    x.y, y.y, z.y,
    x.z, y.z, z.z⟩, origin⟩

/-- `Eigen::VectorXd::LinSpaced(n, low, high)` (library semantics; a single value is `high`). -/
noncomputable def linSpaced (n : Nat) (low high : ℝ) : List ℝ :=
  if n = 1 then [high] else (List.range n).map fun (i : Nat) => low + (i : ℝ) * ((high - low) / ((n : ℝ) - 1))

/-- The part common to the three generators: move the target frame to `position` (in target coordinates), look at the
target origin with x as the up direction, turn about the optical axis
(`pose_generator.cpp` 42-54, 75-83, 105-111). -/
noncomputable def orientCamera (targetOrigin targetOffset : Iso) (zRot : ℝ) (position : V3) : Iso :=
  let camera := targetOrigin.translateBy position
  targetOffset * lookAt camera.t targetOrigin.t ⟨1, 0, 0⟩ * ⟨AngleAxis.toMat ⟨zRot, ⟨0, 0, 1⟩⟩, 0⟩

/-- `HemispherePoseGenerator::generate` (`pose_generator.cpp` 23-62). -/
noncomputable def hemispherePoses (r : ℝ) (thetaCnt phiCnt : Nat) (zRot : ℝ) (targetOffset targetOrigin : Iso) : List Iso :=
  (linSpaced thetaCnt 0 Real.pi).flatMap fun theta =>
    (linSpaced phiCnt 0 Real.pi).map fun phi =>
      orientCamera targetOrigin targetOffset zRot
        ⟨r * Real.cos theta * Real.sin phi, r * Real.sin theta * Real.sin phi, r * Real.cos phi⟩

/-- `ConicalPoseGenerator::generate` (`pose_generator.cpp` 65-89). -/
noncomputable def conicalPoses (r h : ℝ) (nPoses : Nat) (zRot : ℝ) (targetOffset targetOrigin : Iso) : List Iso :=
  let dt := 2 * Real.pi / (nPoses : ℝ)
  (List.range nPoses).map fun (i : Nat) =>
    orientCamera targetOrigin targetOffset zRot ⟨r * Real.cos ((i : ℝ) * dt), r * Real.sin ((i : ℝ) * dt), h⟩

/-- `GridPoseGenerator::generate` (`pose_generator.cpp` 92-118). -/
noncomputable def gridPoses (spacing h : ℝ) (gridSide : Nat) (zRot : ℝ) (targetOffset targetOrigin : Iso) : List Iso :=
  let endPoint := ((gridSide - 1 : Nat) : ℝ) / 2 * spacing
  let coords := linSpaced gridSide (-1 * endPoint) endPoint
  coords.flatMap fun x => coords.map fun y => orientCamera targetOrigin targetOffset zRot ⟨x, y, h⟩

/-- `RandomZRotPoseGenerator::generate` (`pose_generator.cpp` 121-129): the poses and the engine afterwards. The loop
variable of line 124 is a copy of the list element. -/
noncomputable def randomZRotPoses (E : Engine) (pg : Iso → List Iso) (zMin zMax : ℝ) (s : E.St) (targetOrigin : Iso) :
    List Iso × E.St :=
  let poses := pg targetOrigin
  let s' := poses.foldl (fun s pose =>
    let r := E.draw s zMin zMax
    let _pose := pose.rotateBy ⟨r.1, ⟨0, 0, 1⟩⟩
    r.2) s
  (poses, s')

/-! ### observation_creator.cpp -/

open Classical in
/-- `projectAndTest` (`observation_creator.cpp` 5-17): the image point, if it is inside the image. -/
noncomputable def projectAndTest (p : V3) (camera : SimCamera) : Option V2 :=
  let px := projectPoint camera.intr p
  if px.x < 0 ∨ px.x > camera.width ∨ px.y < 0 ∨ px.y > camera.height then none else some px

open Classical in
/-- `getCorrespondences` with a camera (`observation_creator.cpp` 23-54). -/
noncomputable def simCorrs2 (cameraPose targetPose : Iso) (camera : SimCamera) (points : List V3) (requireAll : Bool) :
    Res (List Corr2) :=
  let cameraToTarget := cameraPose.inv * targetPose
  Res.foldList (fun acc point =>
    let p := cameraToTarget.apply point
    match (if p.z > 0 then projectAndTest p camera else none) with
    | some px => .ok (acc ++ [⟨px, point⟩])
    | none => if requireAll then .throw .runtimeError else .ok acc) [] points

/-- `getCorrespondences` without camera (`observation_creator.cpp` 56-74). -/
def simCorrs3 (cameraPose targetPose : Iso) (points : List V3) : List Corr3 :=
  let cameraToTarget := cameraPose.inv * targetPose
  points.map fun p => ⟨cameraToTarget.apply p, p⟩

/-- The camera mount pose of a simulated observation (`observation_creator.cpp` 98-100 and 138-140). -/
def simToCameraMount (T C B pose : Iso) : Iso := B * (1 : Iso) * T * pose * C.inv

/-- `createObservations` with a camera (`observation_creator.cpp` 76-115): `T`, `C`, `B` are the true target and camera
mounts and the base transform; `pgs` the pose generators (whose results do not depend on earlier calls). -/
noncomputable def simObservations2 (camera : SimCamera) (points : List V3) (pgs : List (Iso → List Iso)) (T C B : Iso) :
    Res (List (Obs Corr2)) :=
  Res.mapList (fun pose =>
    let toTargetMount : Iso := 1
    let toCameraMount := simToCameraMount T C B pose
    let cameraBaseToCamera := toCameraMount * C
    let cameraBaseToTarget := B * toTargetMount * T
    (simCorrs2 cameraBaseToCamera cameraBaseToTarget camera points false).bind fun cs =>
      .ok ⟨cs, toCameraMount, toTargetMount⟩) (pgs.flatMap fun g => g T)

/-- `createObservations` without camera (`observation_creator.cpp` 117-155). -/
def simObservations3 (points : List V3) (pgs : List (Iso → List Iso)) (T C B : Iso) : List (Obs Corr3) :=
  (pgs.flatMap fun g => g T).map fun pose =>
    let toTargetMount : Iso := 1
    let toCameraMount := simToCameraMount T C B pose
    ⟨simCorrs3 (toCameraMount * C) (B * toTargetMount * T) points, toCameraMount, toTargetMount⟩

/-! ### dh_chain_observation_creator.cpp -/

/-- `KinObservation3D3D`. -/
structure KinObs3 where
  correspondences : List Corr3
  cameraJoints : List ℝ
  targetJoints : List ℝ

/-- What the creators get: the two chains, the true transforms and the target. -/
structure SimSetup where
  cameraChain : DHChain
  targetChain : DHChain
  mountToCamera : Iso
  mountToTarget : Iso
  cameraBaseToTargetBase : Iso

/-- State of the process wide engine (`dh_chain.cpp` 26-35). -/
abbrev EngSt (E : Engine) := Option E.St

/-- One random state of the two chains: joints and the poses of camera and target
(`dh_chain_observation_creator.cpp` 22-30, 87-94, 180-186). -/
noncomputable def simSample (E : Engine) (S : SimSetup) (s : EngSt E) :
    Res ((List ℝ × List ℝ × Iso × Iso) × EngSt E) :=
  let a := S.cameraChain.createUniformlyRandomPose E s
  let b := S.targetChain.createUniformlyRandomPose E a.2
  (S.cameraChain.getFK0 a.1).bind fun toCameraMount =>
  (S.targetChain.getFK0 b.1).bind fun toTargetMount =>
  .ok ((a.1, b.1, toCameraMount * S.mountToCamera, S.cameraBaseToTargetBase * toTargetMount * S.mountToTarget), b.2)

/-- `createKinematicObservations` without camera (`dh_chain_observation_creator.cpp` 8-35). -/
noncomputable def simKinObs3 (E : Engine) (S : SimSetup) (points : List V3) : Nat → EngSt E → Res (List KinObs3 × EngSt E)
  | 0, s => .ok ([], s)
  | n + 1, s =>
    (simSample E S s).bind fun r =>
    (simKinObs3 E S points n r.2).bind fun rest =>
    .ok (⟨simCorrs3 r.1.2.2.1 r.1.2.2.2 points, r.1.1, r.1.2.1⟩ :: rest.1, rest.2)

/-- `createKinematicMeasurements` (`dh_chain_observation_creator.cpp` 167-192). -/
noncomputable def simKinMeas (E : Engine) (S : SimSetup) : Nat → EngSt E → Res (List KinMeas × EngSt E)
  | 0, s => .ok ([], s)
  | n + 1, s =>
    (simSample E S s).bind fun r =>
    (simKinMeas E S n r.2).bind fun rest =>
    .ok (⟨r.1.2.2.1.inv * r.1.2.2.2, r.1.1, r.1.2.1⟩ :: rest.1, rest.2)

/-- Local variables of the loop of `createKinematicObservations` with a camera. -/
structure SimLoop (E : Engine) where
  observations : List KinObs
  correspondences : Nat
  attempts : Nat
  rng : EngSt E

/-- Third column of the linear part. -/
def Iso.zAxis (T : Iso) : V3 := ⟨T.R.m02, T.R.m12, T.R.m22⟩

open Classical in
/-- The body of the loop (`dh_chain_observation_creator.cpp` 86-119). An exception of `getCorrespondences` skips the rest of
the body, including the increment of `attempts`. -/
noncomputable def simStep (E : Engine) (S : SimSetup) (camera : SimCamera) (points : List V3) (l : SimLoop E) :
    Res (SimLoop E) :=
  (simSample E S l.rng).bind fun r =>
  let baseToCamera := r.1.2.2.1
  let baseToTarget := r.1.2.2.2
  let dp := baseToCamera.zAxis.dot baseToTarget.zAxis
  if dp < -(2 / 10) then
    match simCorrs2 baseToCamera baseToTarget camera points false with
    | .ok cs =>
      if cs.isEmpty then .ok { l with attempts := l.attempts + 1, rng := r.2 }
      else .ok ⟨l.observations ++ [⟨cs, r.1.1, r.1.2.1⟩], l.correspondences + cs.length, l.attempts + 1, r.2⟩
    | .throw _ => .ok { l with rng := r.2 }
    | .abort => .abort
    | .ub => .ub
  else .ok { l with attempts := l.attempts + 1, rng := r.2 }

/-- The `while` loop (`dh_chain_observation_creator.cpp` 84-120), at most `fuel` iterations; `none` if it is still running
then. Simplification: `n * target.points.size()` does not exceed the range of `std::size_t`. -/
noncomputable def simLoop (E : Engine) (S : SimSetup) (camera : SimCamera) (points : List V3) (needed : Nat) :
    Nat → SimLoop E → Res (Option (SimLoop E))
  | fuel, l =>
    if l.correspondences < needed ∧ l.attempts < 10000 then
      match fuel with
      | 0 => .ok none
      | fuel + 1 => (simStep E S camera points l).bind fun l' => simLoop E S camera points needed fuel l'
    else .ok (some l)

/-- `createKinematicObservations` with a camera (`dh_chain_observation_creator.cpp` 69-131); `none` if the loop is still
running after `fuel` iterations. -/
noncomputable def simKinObs2 (E : Engine) (S : SimSetup) (camera : SimCamera) (points : List V3) (n fuel : Nat)
    (s : EngSt E) : Res (Option (List KinObs × EngSt E)) :=
  let needed := n * points.length
  (simLoop E S camera points needed fuel ⟨[], 0, 0, s⟩).bind fun r =>
  match r with
  | none => .ok none
  | some l =>
    if l.attempts > 10000 ∨ l.correspondences < needed then .throw .runtimeError
    else .ok (some (l.observations, l.rng))

/-- `createObservations` of two chains, without camera (`dh_chain_observation_creator.cpp` 37-67). -/
noncomputable def simChainObs3 (E : Engine) (S : SimSetup) (points : List V3) (n : Nat) (s : EngSt E) :
    Res (List (Obs Corr3)) :=
  (simKinObs3 E S points n s).bind fun r =>
  Res.mapList (fun o =>
    (S.cameraChain.getFK0 o.cameraJoints).bind fun toCameraMount =>
    (S.targetChain.getFK0 o.targetJoints).bind fun toTargetMount =>
    .ok ⟨o.correspondences, toCameraMount, toTargetMount⟩) r.1

/-- `createObservations` of two chains, with camera (`dh_chain_observation_creator.cpp` 133-165); `none` if the loop of
`createKinematicObservations` is still running after `fuel` iterations. -/
noncomputable def simChainObs2 (E : Engine) (S : SimSetup) (camera : SimCamera) (points : List V3) (n fuel : Nat)
    (s : EngSt E) : Res (Option (List (Obs Corr2))) :=
  (simKinObs2 E S camera points n fuel s).bind fun r =>
  match r with
  | none => .ok none
  | some r =>
    (Res.mapList (fun (o : KinObs) =>
      (S.cameraChain.getFK0 o.cameraJoints).bind fun toCameraMount =>
      (S.targetChain.getFK0 o.targetJoints).bind fun toTargetMount =>
      .ok (⟨o.correspondences, toCameraMount, toTargetMount⟩ : Obs Corr2)) r.1).bind fun obs =>
    .ok (some obs)

end RCT
