import Verif.Spec.Frames
import Verif.Model.HandEye

/-!
# Specification of the static camera calibrations

Uses only the input data: observations are indexed by camera, image and feature.
-/

namespace RCT.Spec
open RCT

/-- One detected feature: which camera saw it in which image. -/
structure Feature where
  cam : Nat
  img : Nat
  corr : Corr2

/-- The features of camera `c` in image `i`. -/
def featuresOf (obs : List (List (List Corr2))) (c i : Nat) : List Feature :=
  ((obs.getD c []).getD i []).map fun k => ⟨c, i, k⟩

/-- All features, camera by camera; `images c` is the number of images of camera `c`. -/
def byCamera (obs : List (List (List Corr2))) (cams : Nat) (images : Nat → Nat) : List Feature :=
  (List.range cams).flatMap fun c => (List.range (images c)).flatMap fun i => featuresOf obs c i

/-- All features, image by image. -/
def byImage (obs : List (List (List Corr2))) (cams images : Nat) : List Feature :=
  (List.range images).flatMap fun i => (List.range cams).flatMap fun c => featuresOf obs c i

/-- Reprojection error of a target point in a camera at `baseToCamera`, the target being at `baseToTarget`. -/
noncomputable def staticError (intr : Intr) (baseToCamera baseToTarget : Iso) (k : Corr2) : List ℝ :=
  diff2 (pinhole intr ((baseToCamera.inv * baseToTarget).apply k.inTarget)) k.inImage

/-- Depth of a target point in the camera. -/
def staticDepth (baseToCamera baseToTarget : Iso) (k : Corr2) : ℝ :=
  ((baseToCamera.inv * baseToTarget).apply k.inTarget).z

end RCT.Spec
