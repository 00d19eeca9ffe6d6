import Verif.Spec.Identify
import Verif.Spec.KinematicFit
import Verif.Spec.Simulation

/-!
# When measurements determine the mounts of two kinematic chains

Joint values come in pairs: those of the camera chain and those of the target chain.
-/

namespace RCT.Spec
open RCT

/-- The calibration of two chains without offsets. -/
def plainCalib (cc tc : DHChain) (cm tm cb : Iso) : Calib :=
  ⟨cm, tm, cb, List.replicate cc.transforms.length 0, List.replicate tc.transforms.length 0⟩

/-- Two motions of the end of the target chain, seen from its base, turn about different axes. -/
def TargetTurns (tc : DHChain) (qs : List (List ℝ × List ℝ)) : Prop :=
  ∃ a ∈ qs, ∃ b ∈ qs, ∃ c ∈ qs, ∃ d ∈ qs,
    AxesDiffer (nominalEnd tc a.2 * (nominalEnd tc b.2).inv).R (nominalEnd tc c.2 * (nominalEnd tc d.2).inv).R

/-- Two motions of the end of the camera chain, seen from this end, turn about different axes. -/
def CameraTurns (cc : DHChain) (qs : List (List ℝ × List ℝ)) : Prop :=
  ∃ a ∈ qs, ∃ b ∈ qs, ∃ c ∈ qs, ∃ d ∈ qs,
    AxesDiffer ((nominalEnd cc a.1).inv * nominalEnd cc b.1).R ((nominalEnd cc c.1).inv * nominalEnd cc d.1).R

/-- The end of the target chain seen from the end of the camera chain, for a known transform between their bases. -/
noncomputable def endToEnd (cc tc : DHChain) (cb : Iso) (q : List ℝ × List ℝ) : Iso :=
  (nominalEnd cc q.1).inv * (cb * nominalEnd tc q.2)

/-- Two motions of the target mount seen from the camera mount turn about different axes. -/
def RelativeTurns (cc tc : DHChain) (cb : Iso) (qs : List (List ℝ × List ℝ)) : Prop :=
  ∃ a ∈ qs, ∃ b ∈ qs, ∃ c ∈ qs, ∃ d ∈ qs, AxesDiffer (endToEnd cc tc cb a * (endToEnd cc tc cb b).inv).R
    (endToEnd cc tc cb c * (endToEnd cc tc cb d).inv).R

/-- While the camera chain rests, two motions of the target chain turn about different axes. -/
def TargetTurnsAlone (cc tc : DHChain) (qs : List (List ℝ × List ℝ)) : Prop :=
  ∃ a ∈ qs, ∃ b ∈ qs, ∃ c ∈ qs, ∃ d ∈ qs, (∀ q ∈ [b, c, d], q.1 = a.1) ∧
    AxesDiffer (nominalEnd tc a.2 * (nominalEnd tc b.2).inv).R (nominalEnd tc c.2 * (nominalEnd tc d.2).inv).R

/-- While the target chain rests, two motions of the camera chain turn about different axes. -/
def CameraTurnsAlone (cc tc : DHChain) (qs : List (List ℝ × List ℝ)) : Prop :=
  ∃ a ∈ qs, ∃ b ∈ qs, ∃ c ∈ qs, ∃ d ∈ qs, (∀ q ∈ [b, c, d], q.2 = a.2) ∧
    AxesDiffer ((nominalEnd cc a.1).inv * nominalEnd cc b.1).R ((nominalEnd cc c.1).inv * nominalEnd cc d.1).R

/-- The joint values of the measurements are enough to tell the calibration `k'` from the true one `k`: one of the three
transforms is known and suitable motions are among the measurements, or nothing is known and both chains turn, one of them
while the other rests. -/
inductive Enough (cc tc : DHChain) (qs : List (List ℝ × List ℝ)) (k k' : Calib) : Prop
  | camera (h : k'.cm = k.cm) (ht : TargetTurns tc qs)
  | target (h : k'.tm = k.tm) (ht : CameraTurns cc qs)
  | base (h : k'.cb = k.cb) (ht : RelativeTurns cc tc k.cb qs)
  | targetAlone (ht : TargetTurnsAlone cc tc qs) (hc : CameraTurns cc qs)
  | cameraAlone (hc : CameraTurnsAlone cc tc qs) (ht : TargetTurns tc qs)

/-- Joint values of pose measurements. -/
def jointsOf6 (ms : List KinMeas) : List (List ℝ × List ℝ) := ms.map fun m => (m.cameraJoints, m.targetJoints)

/-- Joint values of images. -/
def jointsOf2 (obs : List KinObs) : List (List ℝ × List ℝ) := obs.map fun o => (o.cameraJoints, o.targetJoints)

end RCT.Spec
