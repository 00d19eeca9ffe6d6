import Verif.Spec.MultiMains
import Verif.Spec.EndToEnd
import Verif.Spec.IdentifyStatic

/-!
# Specification of true images of several cameras

`T` are the poses of the cameras in the base frame, `Y` is the pose of the target on the wrist.
-/

namespace RCT.Spec

open RCT

variable {Img : Type}

/-- Whenever a camera finds the target, the features are where it sees them, in front of it. -/
def TrueSets (F : Finder Img) (cams : List (CameraParams Img)) (T : List Iso) (Y : Iso) : Prop :=
  ∀ (c : Nat) q P i e, cams[c]? = some q → T[c]? = some P → SeenItem F q.data i e → TrueDetection q.intr (seenOnWrist P Y e.1) e.2

/-- All features found are in front of cameras with these poses. -/
def InFront (F : Finder Img) (cams : List (CameraParams Img)) (T : List Iso) (Y : Iso) : Prop :=
  ∀ (c : Nat) q P i e, cams[c]? = some q → T[c]? = some P → SeenItem F q.data i e →
    ∀ k ∈ e.2, 0 < ((seenOnWrist P Y e.1).apply k.inTarget).z

/-- In image `i`, recorded with this wrist pose, the camera sees enough of the target to determine where it is. -/
def UsableImage (F : Finder Img) (q : CameraParams Img) (P Y : Iso) (i : Nat) (wrist : Iso) : Prop :=
  ∃ cs, SeenItem F q.data i (wrist, cs) ∧ GoodView q.intr P (wrist * Y) cs

/-- In the images all cameras found the target in, the features are where the cameras see them, in front of them. The wrist pose
is the one recorded with the image of the first camera. -/
def TrueJoint (F : Finder Img) (cams : List (CameraParams Img)) (T : List Iso) (Y : Iso) : Prop :=
  ∀ i e, JointItem F cams i e → ∀ (c : Nat) q P cs, cams[c]? = some q → T[c]? = some P → e.2[c]? = some cs →
    TrueDetection q.intr (seenOnWrist P Y e.1) cs

/-- In the images all cameras found the target in, all features are in front of cameras with these poses. -/
def InFrontJoint (F : Finder Img) (cams : List (CameraParams Img)) (T : List Iso) (Y : Iso) : Prop :=
  ∀ i e, JointItem F cams i e → ∀ (c : Nat) P cs, T[c]? = some P → e.2[c]? = some cs →
    ∀ k ∈ cs, 0 < ((seenOnWrist P Y e.1).apply k.inTarget).z

/-- Image `i` shows the target to all cameras, was recorded with this wrist pose, and camera number `c` sees enough of the target
in it to determine where it is. -/
def UsableJoint (F : Finder Img) (cams : List (CameraParams Img)) (T : List Iso) (Y : Iso) (c i : Nat) (wrist : Iso) : Prop :=
  ∃ e q P cs, JointItem F cams i e ∧ e.1 = wrist ∧ cams[c]? = some q ∧ T[c]? = some P ∧ e.2[c]? = some cs ∧
    GoodView q.intr P (wrist * Y) cs

/-- The poses relative to the first one agree. -/
def SameRelative (A T : List Iso) : Prop :=
  List.Forall₂ (fun a t => ∀ a0 t0, A[0]? = some a0 → T[0]? = some t0 → a0.inv * a = t0.inv * t) A T

end RCT.Spec
