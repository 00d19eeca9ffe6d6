import Verif.Spec.Geometry
import Verif.Spec.Statistics
import Verif.Spec.Kinematic
import Verif.Spec.Fit
import Verif.Model.Yaml
import Verif.Model.Kinematic

/-!
# Specification of the analysis and of the reports of the examples
-/

namespace RCT.Spec

open RCT

/-- The node is a number. -/
def IsNum (n : Yaml) (x : ℝ) : Prop := ∃ s, n = .scalar s ∧ s.num = some (some x)

/-- The matrix turns vectors like the quaternion. -/
def TurnsAs (R : M3) (q : Quat) : Prop :=
  ∀ v : V3, R.mulVec v = v + V3.smul (2 * q.w) (q.vec.cross v) + V3.smul 2 (q.vec.cross (q.vec.cross v))

/-- The map states the pose with position and quaternion. -/
def PoseEntry (l : List (String × Yaml)) (T : Iso) (q : Quat) : Prop :=
  (∃ n, l.lookup "x" = some n ∧ IsNum n T.t.x) ∧ (∃ n, l.lookup "y" = some n ∧ IsNum n T.t.y) ∧
  (∃ n, l.lookup "z" = some n ∧ IsNum n T.t.z) ∧ (∃ n, l.lookup "qw" = some n ∧ IsNum n q.w) ∧
  (∃ n, l.lookup "qx" = some n ∧ IsNum n q.x) ∧ (∃ n, l.lookup "qy" = some n ∧ IsNum n q.y) ∧
  (∃ n, l.lookup "qz" = some n ∧ IsNum n q.z) ∧ TurnsAs T.R q

/-- The node under the key is the list of numbers. -/
def NumList (l : List (String × Yaml)) (k : String) (xs : List ℝ) : Prop :=
  ∃ ns, l.lookup k = some (.seq ns) ∧ List.Forall₂ IsNum ns xs

/-- The entry states this measurement. -/
def MeasEntry (n : Yaml) (m : KinMeas) : Prop :=
  ∃ l pl q, n = .map l ∧ NumList l "target_joints" m.targetJoints ∧ NumList l "camera_joints" m.cameraJoints ∧
    l.lookup "pose" = some (.map pl) ∧ PoseEntry pl m.cameraToTarget q

/-- The names of the seven numbers of a pose. -/
def poseKeys : List String := ["x", "y", "z", "qw", "qx", "qy", "qz"]

/-- Distance of the origins of two frames, and the angle between them. -/
noncomputable def originDist (A B : Iso) : ℝ := (B.t - A.t).norm
noncomputable def frameAngle (A B : Iso) : ℝ := rotAngle (A.R.tr * B.R)

/-- Root mean square of the distances between the projected and the measured image points. -/
noncomputable def rmsPixels (intr : Intr) (T : Iso) (cs : List Corr2) : ℝ :=
  Real.sqrt ((cs.map fun c => (pinhole intr (T.apply c.inTarget) - c.inImage).norm ^ 2).sum / cs.length)

/-- Mean, sample standard deviation (`n - 1` in the denominator), minimum and maximum. -/
def SampleStats (l : List ℝ) (mean stdev lo hi : ℝ) : Prop :=
  mean * l.length = l.sum ∧ 0 ≤ stdev ∧ stdev ^ 2 * ((l.length : ℝ) - 1) = (l.map fun x => (x - mean) ^ 2).sum ∧
  (lo ∈ l ∧ ∀ x ∈ l, lo ≤ x) ∧ (hi ∈ l ∧ ∀ x ∈ l, x ≤ hi)

end RCT.Spec
