import Verif.Spec.Tools
import Verif.Spec.Identify
import Verif.Spec.Geometry

/-!
# From the captures of an operator to a calibration
-/

namespace RCT.Spec

open RCT

variable {Img : Type}

/-- The pose in a transform message. -/
noncomputable def poseOf (p : TfMsg) : Iso := ⟨p.q.toMat, p.t⟩

/-- The pose of the target in a camera mounted at `X` on the wrist; the target is at `Y` in the base. -/
def seenFromWrist (X Y wrist : Iso) : Iso := X.inv * (wrist.inv * Y)

/-- The pose of a target mounted at `Y` on the wrist in a camera at `X` in the base. -/
def seenOnWrist (X Y wrist : Iso) : Iso := X.inv * (wrist * Y)

/-- All detected features are where a camera sees the points of a target with this pose, in front of it. -/
def TrueDetection (intr : Intr) (pose : Iso) (cs : List Corr2) : Prop :=
  ∀ c ∈ cs, 0 < (pose.apply c.inTarget).z ∧ c.inImage = pinhole intr (pose.apply c.inTarget)

/-- Capture number `i` is usable: the target is found in it, with four features no three of which are on one line, and the
camera is not in the plane of the target. -/
def UsableCapture (E : ToolEnv Img) (l : List (TfMsg × Img)) (seen : Iso → Iso) (i : Nat) (wrist : Iso) : Prop :=
  ∃ e cs, l[i]? = some e ∧ poseOf e.1 = wrist ∧ ImageAccepted E i e.2 cs ∧ SeesQuadrangle cs ∧ (seen wrist).inv.t.z ≠ 0

end RCT.Spec
