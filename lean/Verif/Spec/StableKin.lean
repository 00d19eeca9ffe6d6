import Verif.Spec.KinIdentify
import Verif.Spec.Stable

/-!
# When measurements with noise determine the mounts of two kinematic chains
-/

namespace RCT.Spec
open RCT

/-- Joint values that are enough to tell the calibration `k'` from the true one `k`, if what is known about one of the three
transforms is known to within `r`. -/
inductive NearlyEnough (r : ℝ) (cc tc : DHChain) (qs : List (List ℝ × List ℝ)) (k k' : Calib) : Prop
  | camera (h : Close r k'.cm k.cm) (ht : TargetTurns tc qs)
  | target (h : Close r k'.tm k.tm) (ht : CameraTurns cc qs)
  | base (h : Close r k'.cb k.cb) (ht : RelativeTurns cc tc k.cb qs)
  | targetAlone (ht : TargetTurnsAlone cc tc qs) (hc : CameraTurns cc qs)
  | cameraAlone (hc : CameraTurnsAlone cc tc qs) (ht : TargetTurns tc qs)

/-- No offset is larger than `e`. -/
def OffsetsWithin (e : ℝ) (k : Calib) : Prop :=
  ∀ v ∈ k.offC ++ k.offT, |v.d| ≤ e ∧ |v.theta| ≤ e ∧ |v.r| ≤ e ∧ |v.alpha| ≤ e

/-- The three transforms are close to those of `k`, and there are hardly any offsets. -/
def CloseCalib (e : ℝ) (k' k : Calib) : Prop := Close e k'.cm k.cm ∧ Close e k'.tm k.tm ∧ Close e k'.cb k.cb ∧ OffsetsWithin e k'

/-- Two images with the same joint values and the same features; the measured pixels may differ. -/
def SameImage (a b : KinObs) : Prop :=
  a.cameraJoints = b.cameraJoints ∧ a.targetJoints = b.targetJoints ∧
    a.correspondences.map (fun k => k.inTarget) = b.correspondences.map fun k => k.inTarget

end RCT.Spec
