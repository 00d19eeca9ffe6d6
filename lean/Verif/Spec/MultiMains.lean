import Verif.Spec.Mains
import Verif.Spec.Geometry

/-!
# Specification of the tools for several cameras as programs
-/

namespace RCT.Spec

open RCT

variable {Img : Type}

/-- The parameter is the number `n`; a number with decimals is rounded to the next integer, a half upwards. -/
def CountParam (v : Option XVal) (n : Nat) : Prop :=
  v = some (.int n) ∨ ∃ x : ℝ, v = some (.double x) ∧ 0 ≤ x ∧ x - 1 / 2 < n ∧ (n : ℝ) ≤ x + 1 / 2

/-- Data set, intrinsic parameters and pose of camera number `c`; `pose` is the name of the pose. -/
structure CameraSetup (W : ToolWorld Img) (pose : String) (c : Nat) (q : CameraParams Img) : Prop where
  data : DataParam W (W.param ("camera_" ++ toString c ++ "/data_path")) q.data
  intrinsics : IntrinsicsParam (W.param ("camera_" ++ toString c ++ "/intrinsics")) q.intr
  pose : PoseParam (W.param ("camera_" ++ toString c ++ "/" ++ pose)) q.pose

/-- What a tool for several cameras is started with; the data sets of all cameras have `k` images. -/
structure CamerasSetup (W : ToolWorld Img) (pose : String) (cams : List (CameraParams Img)) (k : Nat) (F : Finder Img) : Prop where
  count : CountParam (W.param "num_of_cameras") cams.length
  camera : ∀ (c : Nat) q, cams[c]? = some q → CameraSetup W pose c q
  finder : FinderParam W F
  images : ∀ q ∈ cams, q.data.images.length = k

/-- The finder finds the target in image `i` of the data set; `e` is the pose recorded with this image and the correspondences. -/
def SeenItem (F : Finder Img) (d : DataSet Img) (i : Nat) (e : Iso × List Corr2) : Prop :=
  ∃ m, d.images[i]? = some m ∧ Seen F.find F.create F.draw m e.2 ∧ d.poses[i]? = some e.1

/-- All cameras saw the target in image `i`; `e` is the pose recorded with this image of the first camera, and the
correspondences found by each camera. -/
def JointItem (F : Finder Img) (cams : List (CameraParams Img)) (i : Nat) (e : Iso × List (List Corr2)) : Prop :=
  (∃ q, cams[0]? = some q ∧ q.data.poses[i]? = some e.1) ∧
  List.Forall₂ (fun (q : CameraParams Img) cs => ∃ m, q.data.images[i]? = some m ∧ Seen F.find F.create F.draw m cs) cams e.2

/-- The problem is made of the parameters and, for every camera, of exactly the images in which it saw the target, in order,
each with the pose recorded with it. -/
structure MultiStaticProblem (cams : List (CameraParams Img)) (k : Nat) (F : Finder Img) (Y : Iso) (p : MsProblem) : Prop where
  intr : p.intr = cams.map fun q => q.intr
  cameraGuess : p.baseToCameraGuess = cams.map fun q => q.pose
  targetGuess : p.wristToTargetGuess = Y
  length : p.wristPoses.length = cams.length ∧ p.observations.length = cams.length
  images : ∀ (c : Nat) q, cams[c]? = some q → ∃ js items, SelectedAt k (SeenItem F q.data) js items ∧
    p.wristPoses[c]? = some (items.map Prod.fst) ∧ p.observations[c]? = some (items.map Prod.snd)

/-- The first step of the multi step tool: the parameters and exactly the images all cameras saw, each with a guess of the pose of
the target computed from the pose recorded with it. -/
structure CameraStep (cams : List (CameraParams Img)) (fix : Bool) (Y : Iso) (items : List (Iso × List (List Corr2))) (p : CoProblem) :
    Prop where
  fix : p.fixFirst = fix
  intr : p.intr = cams.map fun q => q.intr
  cameraGuess : p.baseToCameraGuess = cams.map fun q => q.pose
  targetGuess : p.baseToTargetGuess = items.map fun e => e.1 * Y
  length : p.observations.length = cams.length
  images : ∀ (c : Nat), c < cams.length → p.observations[c]? = some (items.map fun e => e.2.getD c [])

/-- The second step: the same observations with the poses recorded with them; `T` are the poses of the cameras found before. -/
structure WristStep (cams : List (CameraParams Img)) (T : List Iso) (Y : Iso) (items : List (Iso × List (List Corr2))) (p : WoProblem) :
    Prop where
  intr : p.intr = cams.map fun q => q.intr
  cameraGuess : p.baseToCameraGuess = T
  targetGuess : p.wristToTargetGuess = Y
  poses : p.wristPoses = items.map Prod.fst
  length : p.observations.length = cams.length
  images : ∀ (c : Nat), c < cams.length → p.observations[c]? = some (items.map fun e => e.2.getD c [])

/-- The costs printed are those found, as square roots. -/
structure ReportsOpt (o : PrintedOpt) (converged : Bool) (initial final : Option ℝ) : Prop where
  converged : o.converged = converged
  initial : o.initial = initial.map Real.sqrt
  final : o.final = final.map Real.sqrt

/-- For every camera, the pose in the base frame and the pose in the frame of camera 0 are printed. -/
def ReportsCameras (out : List (PrintedTransform × PrintedTransform)) (poses : List Iso) : Prop :=
  List.Forall₂ (fun T e => e.1 = printTransform T ∧ ∀ T0, poses[0]? = some T0 → e.2 = printTransform (T0.inv * T)) poses out

/-- `cs` are the numbers of the cameras that saw the target in image `i`, ascending. -/
def SeeingCameras (F : Finder Img) (cams : List (CameraParams Img)) (i : Nat) (cs : List Nat) : Prop :=
  cs.Pairwise (· < ·) ∧ ∀ c, c ∈ cs ↔ ∃ q m o, cams[c]? = some q ∧ q.data.images[i]? = some m ∧ Seen F.find F.create F.draw m o

/-- The points are the images of the features, taken by a camera with intrinsic parameters `K` and the target at `T`. -/
def DrawnAt (K : Intr) (T : Iso) (sets : List (List Corr2)) (points : List V2) : Prop :=
  List.Forall₂ (fun (c : Corr2) u => (T.apply c.inTarget).z ≠ 0 → u = pinhole K (T.apply c.inTarget)) sets.flatten points

/-- The view compares the target at `B` (in the base frame) with the estimate of PnP started there, for cameras at `poses`
that saw `sets`; both are shown as a camera at `A` with the intrinsic parameters `K` sees them. -/
structure ViewShows (s : Ceres Pose6) (B : Iso) (poses : List Iso) (intr : List Intr) (sets : List (List Corr2)) (A : Iso)
    (K : Intr) (v : View Img) : Prop where
  calibrated : v.calibrated = A.inv * B
  before : DrawnAt K (A.inv * B) sets v.before
  pnp : ∃ r, mcPnp s { intr := intr, baseToCamera := poses, observations := sets, guess := B } = .ok r ∧
    v.baseToTarget = r.baseToTarget ∧ v.estimated = A.inv * r.baseToTarget ∧ DrawnAt K (A.inv * r.baseToTarget) sets v.after ∧
    ReportsOpt v.opt r.converged r.initialCost r.finalCost

/-- The view of image `i`, taken by the camera number `a`, for the cameras number `cs`; `T` are the poses of all cameras and
`Y` is the pose of the target on the wrist. The wrist pose is the one recorded with image `i` of camera 0. -/
def ViewOf (s : Ceres Pose6) (F : Finder Img) (cams : List (CameraParams Img)) (T : List Iso) (Y : Iso) (i a : Nat) (cs : List Nat)
    (v : View Img) : Prop :=
  ∃ first q A wrist poses intr sets, cams[0]? = some first ∧ first.data.poses[i]? = some wrist ∧ cams[a]? = some q ∧
    T[a]? = some A ∧ q.data.images[i]? = some v.image ∧
    List.Forall₂ (fun (c : Nat) P => T[c]? = some P) cs poses ∧
    List.Forall₂ (fun (c : Nat) K => ∃ q, cams[c]? = some q ∧ q.intr = K) cs intr ∧
    List.Forall₂ (fun (c : Nat) o => ∃ q m, cams[c]? = some q ∧ q.data.images[i]? = some m ∧ Seen F.find F.create F.draw m o) cs sets ∧
    ViewShows s (wrist * Y) poses intr sets A q.intr v

end RCT.Spec
