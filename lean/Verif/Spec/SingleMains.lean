import Verif.Spec.Mains
import Verif.Spec.Identify

/-!
# Specification of the tools for intrinsic calibration, validation, noise and PnP as programs
-/

namespace RCT.Spec

open RCT

variable {Img : Type}

/-- The finder without the homography check, which these tools do not make. -/
def plainEnv (F : Finder Img) : ToolEnv Img := ⟨F.find, F.create, F.draw, fun _ _ => .ok ()⟩

/-- What the intrinsic calibration is started with. -/
structure IntrinsicSetup (W : ToolWorld Img) (d : DataSet Img) (F : Finder Img) (intr : Intr) : Prop where
  data : DataParam W (W.param "data_path") d
  finder : FinderParam W F
  intrinsics : IntrinsicsParam (W.param "intrinsics") intr

/-- What the validation is started with: `X` is the pose of the camera on the wrist, `Y` that of the target in the base. -/
structure ValidationSetup (W : ToolWorld Img) (d : DataSet Img) (F : Finder Img) (intr : Intr) (X Y : Iso) : Prop where
  data : DataParam W (W.param "data_path") d
  finder : FinderParam W F
  intrinsics : IntrinsicsParam (W.param "intrinsics") intr
  camera : PoseParam (W.param "wrist_to_camera_guess") X
  target : PoseParam (W.param "base_to_target_guess") Y

/-- `e` is entry number `i` of the document, which is a list or a map with numbers as keys. -/
def EntryAt (root : Yaml) (i : Nat) (e : Yaml) : Prop :=
  (∃ l, root = .seq l ∧ l[i]? = some e) ∨ ∃ l, root = .map l ∧ l.lookup (toString i) = some e

/-- The document lists the image names `names`: its entries are maps with a text `image`. -/
def ListsImages (root : Yaml) (names : List String) : Prop :=
  names.length = root.size ∧ ∀ (i : Nat) n, names[i]? = some n →
    ∃ l sc, EntryAt root i (.map l) ∧ l.lookup "image" = some (.scalar sc) ∧ sc.text = n

/-- What the noise qualification is started with: `files` are the names of the listed images below the directory. -/
structure NoiseSetup (W : ToolWorld Img) (files : List String) (F : Finder Img) (intr : Intr) (guess : Iso) : Prop where
  finder : FinderParam W F
  intrinsics : IntrinsicsParam (W.param "intrinsics") intr
  guess : PoseParam (W.param "camera_to_target_guess") guess
  files : ∃ dir list root names, W.param "data_path" = some (.string dir) ∧ W.param "data_file" = some (.string list) ∧
    W.fs.files list = some (.yaml root) ∧ ListsImages root names ∧ files = names.map fun n => dir ++ "/" ++ n

/-- The report shows the result of the calibration. -/
structure ReportsIntrinsic (rep : IntrinsicReport) (r : IntrinsicResult) : Prop where
  converged : rep.opt.converged = r.converged
  initial : rep.opt.initial = r.initialCost.map Real.sqrt
  final : rep.opt.final = r.finalCost.map Real.sqrt
  intrinsics : rep.intrinsics = r.intrinsics
  distortions : rep.distortions = r.distortions
  correlations : ∀ c, c ∈ rep.correlations ↔ c ∈ r.covariance.correlation_coeffs ∧ 1 / 2 < |c.value|

/-- The finder makes at least `n` correspondences from every non-empty set of features it finds. -/
def MakesAtLeast (n : Nat) (F : Finder Img) : Prop :=
  ∀ m fs cs, F.find m = .ok fs → fs ≠ [] → F.create fs = .ok cs → n ≤ cs.length

/-- `cv::calibrateCamera` returns or throws, and throws if there are no images. -/
structure OrderlyCalibrate (cv : CvCalibrate Img) : Prop where
  orderly : ∀ pts imgs front K, Orderly (cv pts imgs front K)
  empty : ∀ front K, ∃ e, cv [] [] front K = .throw e

/-- What the PnP tool works on: intrinsic parameters and the correspondences found in the image. -/
def PnpScene (W : ToolWorld Img) (read : String → Img) (intr : Intr) (cs : List Corr2) : Prop :=
  ∃ path F fs, W.param "image_path" = some (.string path) ∧ IntrinsicsParam (W.param "intrinsics") intr ∧ FinderParam W F ∧
    F.find (read path) = .ok fs ∧ F.create fs = .ok cs

/-- `cs` is the first or the second half of `l`. -/
def IsHalf (cs l : List Corr2) : Prop := ∃ a b, a ++ b = l ∧ a.length = l.length / 2 ∧ (cs = a ∨ cs = b)

/-- All features are clearly in front of the camera if the target has this pose. -/
def ClearlyInFront (T : Iso) (cs : List Corr2) : Prop := ∀ k ∈ cs, (T.apply k.inTarget).z > 1 / 10 ^ 10

/-- A perfect image for the validation: all features are where the camera sees them, in front of it, both halves of them show a
quadrangle, and the camera is not in the plane of the target. -/
structure PerfectHalves (intr : Intr) (T : Iso) (cs : List Corr2) : Prop where
  rigid : RigidMotion T
  pixels : ∀ k ∈ cs, k.inImage = pinhole intr (T.apply k.inTarget)
  front : ClearlyInFront T cs
  plane : T.inv.t.z ≠ 0
  halves : ∀ h, IsHalf h cs → SeesQuadrangle h

end RCT.Spec
