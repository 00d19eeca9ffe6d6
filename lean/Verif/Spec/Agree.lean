import Verif.Spec.HandEye
import Verif.Model.Kinematic

/-! # Data of one calibration as data of another -/

namespace RCT.Spec
open RCT

/-- Images of one static camera as hand-eye data: the camera is at its mount, the wrist is the mount of the target. -/
def staticViews (wrist : List Iso) (images : List (List Corr2)) : List (Obs Corr2) :=
  (List.zip wrist images).map fun wi => ⟨wi.2, 1, wi.1⟩

/-- Observations with joint values as hand-eye data: the mounts are at the ends of the chains. -/
def chainViews (camera target : List ℝ → Iso) (obs : List KinObs) : List (Obs Corr2) :=
  obs.map fun o => ⟨o.correspondences, camera o.cameraJoints, target o.targetJoints⟩

end RCT.Spec
