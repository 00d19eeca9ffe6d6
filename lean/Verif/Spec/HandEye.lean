import Verif.Spec.Frames
import Verif.Model.HandEye

/-!
# Specification of the hand-eye calibration problem

Uses only the data types of observations.
-/

namespace RCT.Spec
open RCT

/-- All observed features with the observation they belong to, in order. -/
def features {κ : Type} (obs : List (Obs κ)) : List (Obs κ × κ) := obs.flatMap fun o => o.corrs.map fun c => (o, c)

/-- A feature in the camera frame, for a pair of calibrated transforms. -/
def inCamera2 (mountToCamera mountToTarget : Iso) (f : Obs Corr2 × Corr2) : V3 :=
  targetInCamera mountToCamera f.1.toCameraMount f.1.toTargetMount mountToTarget f.2.inTarget

def inCamera3 (mountToCamera mountToTarget : Iso) (f : Obs Corr3 × Corr3) : V3 :=
  targetInCamera mountToCamera f.1.toCameraMount f.1.toTargetMount mountToTarget f.2.inTarget

/-- All reprojection errors. -/
noncomputable def reprojErrors2 (i : Intr) (mountToCamera mountToTarget : Iso) (obs : List (Obs Corr2)) : List ℝ :=
  (features obs).flatMap fun f => diff2 (pinhole i (inCamera2 mountToCamera mountToTarget f)) f.2.inImage

def reprojErrors3 (mountToCamera mountToTarget : Iso) (obs : List (Obs Corr3)) : List ℝ :=
  (features obs).flatMap fun f => diff3 (inCamera3 mountToCamera mountToTarget f) f.2.inImage

/-- All mount poses of the observations are exactly representable. -/
def MountsRepresentable {κ : Type} (obs : List (Obs κ)) : Prop :=
  ∀ o ∈ obs, Representable o.toCameraMount ∧ Representable o.toTargetMount

/-- The observations with all mount poses expressed in another base frame. -/
def rebase {κ : Type} (B : Iso) (obs : List (Obs κ)) : List (Obs κ) :=
  obs.map fun o => ⟨o.corrs, B * o.toCameraMount, B * o.toTargetMount⟩

/-- Names of the six stored parameters of a pose, in memory order (`types.h` 40-45). -/
def componentNames : List String := ["rx", "ry", "rz", "x", "y", "z"]

end RCT.Spec
