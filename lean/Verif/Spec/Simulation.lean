import Verif.Spec.Frames
import Verif.Spec.Kinematic

/-!
# Specifications for simulated data

Only data types and the textbook projection are shared.
-/

namespace RCT.Spec
open RCT

/-- The point is straight ahead of the camera, at distance `d`. -/
def StraightAhead (camera : Iso) (p : V3) (d : ℝ) : Prop := 0 < d ∧ camera.apply ⟨0, 0, d⟩ = p

/-- A point in camera coordinates is in front of the camera and its pinhole image is inside a `w` by `h` image
(borders included). -/
def Visible (i : Intr) (w h : ℝ) (p : V3) : Prop :=
  0 < p.z ∧ 0 ≤ (pinhole i p).x ∧ (pinhole i p).x ≤ w ∧ 0 ≤ (pinhole i p).y ∧ (pinhole i p).y ≤ h

/-- The two vectors point along one line (or one of them is zero). -/
def Parallel (a b : V3) : Prop := a.cross b = 0

/-- A usable camera pose for the target frame `target`, taken from the place `pos` (in target coordinates) and moved by
`offset`: a rigid pose at that place, with the target origin straight ahead. -/
def CameraFrom (offset target : Iso) (pos : V3) (P : Iso) : Prop :=
  RigidMotion P ∧ P.t = offset.apply (target.apply pos) ∧ StraightAhead P (offset.apply target.t) pos.norm

/-- The pose of the end of a chain without corrections of its parameters. -/
noncomputable def nominalEnd (c : DHChain) (q : List ℝ) : Iso := endPose c (List.replicate c.transforms.length 0) q

/-- One value for every joint, inside its limits. -/
def WithinLimits (c : DHChain) (q : List ℝ) : Prop := List.Forall₂ (fun t v => t.min ≤ v ∧ v ≤ t.max) c.transforms q

/-- The angle between the optical axis of the camera and the normal of the target is so large that the camera faces the
target: the scalar product of both axes is less than -0.2. -/
def Faces (camera target : Iso) : Prop :=
  camera.R.m02 * target.R.m02 + camera.R.m12 * target.R.m12 + camera.R.m22 * target.R.m22 < -(1 / 5)

end RCT.Spec
