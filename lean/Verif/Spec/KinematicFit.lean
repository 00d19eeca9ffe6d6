import Verif.Spec.Kinematic
import Verif.Model.Kinematic

/-!
# What a kinematic calibration minimises

Only data types are shared with the model.
-/

namespace RCT.Spec
open RCT

/-- Everything a kinematic calibration determines. -/
structure Calib where
  cm : Iso
  tm : Iso
  cb : Iso
  offC : List V4
  offT : List V4

/-- The pose of the target in the camera frame that follows from a calibration. -/
noncomputable def Calib.predicts (k : Calib) (cc tc : DHChain) (qc qt : List ℝ) : Iso :=
  (endPose cc k.offC qc * k.cm).inv * (k.cb * endPose tc k.offT qt * k.tm)

/-- All three transforms are rigid motions. -/
def Calib.Rigid (k : Calib) : Prop := RigidMotion k.cm ∧ RigidMotion k.tm ∧ RigidMotion k.cb

/-- Squared position error and squared weighted angle between a measured and a predicted pose. -/
noncomputable def poseMisfit (w : ℝ) (X T : Iso) : ℝ := (X * T.inv).t.normSq + (w * rotAngle (X.R * T.R.tr)) ^ 2

/-- Squared distance in the image between the projection of a point and a measured pixel. -/
noncomputable def pixelMisfit (intr : Intr) (T : Iso) (k : Corr2) : ℝ :=
  ((pinhole intr (T.apply k.inTarget)).x - k.inImage.x) ^ 2 + ((pinhole intr (T.apply k.inTarget)).y - k.inImage.y) ^ 2

/-- Disagreement of a calibration with measured poses. -/
noncomputable def misfit6 (cc tc : DHChain) (w : ℝ) (ms : List KinMeas) (k : Calib) : ℝ :=
  (ms.map fun m => poseMisfit w m.cameraToTarget (k.predicts cc tc m.cameraJoints m.targetJoints)).sum

/-- Disagreement of a calibration with measured pixels. -/
noncomputable def misfit2 (cc tc : DHChain) (intr : Intr) (obs : List KinObs) (k : Calib) : ℝ :=
  (obs.map fun o => (o.correspondences.map fun c =>
    pixelMisfit intr (k.predicts cc tc o.cameraJoints o.targetJoints) c).sum).sum

/-- Squared offsets relative to their expected deviation. -/
noncomputable def offsetCost (sd : ℝ) (offs : List V4) : ℝ :=
  (offs.map fun v => (v.d / sd) ^ 2 + (v.theta / sd) ^ 2 + (v.r / sd) ^ 2 + (v.alpha / sd) ^ 2).sum

/-- Squared offsets of both chains. -/
noncomputable def Calib.offsetCosts (k : Calib) (sdC sdT : ℝ) : ℝ := offsetCost sdC k.offC + offsetCost sdT k.offT

/-- The same calibration with all offsets multiplied by `s`. -/
def Calib.scaleOffsets (k : Calib) (s : ℝ) : Calib :=
  { k with offC := k.offC.map fun v => ⟨s * v.d, s * v.theta, s * v.r, s * v.alpha⟩,
           offT := k.offT.map fun v => ⟨s * v.d, s * v.theta, s * v.r, s * v.alpha⟩ }

/-- No offsets. -/
def Calib.Nominal (k : Calib) : Prop := (∀ v ∈ k.offC, v = 0) ∧ ∀ v ∈ k.offT, v = 0

/-- The calibration a result reports. -/
def calibOf (r : KinResult) : Calib := ⟨r.cmToC, r.tmToT, r.cbToTb, r.cameraOffsets, r.targetOffsets⟩

/-- The calibration a problem starts from: the guessed transforms and the nominal chains. -/
def guessOf (p : KinProblem) : Calib :=
  ⟨p.cmToC, p.tmToT, p.cbToTb, List.replicate p.cameraChain.transforms.length 0,
    List.replicate p.targetChain.transforms.length 0⟩

/-- Every measured pose is the one that follows from the calibration. -/
def Explains6 (cc tc : DHChain) (k : Calib) (ms : List KinMeas) : Prop :=
  ∀ m ∈ ms, m.cameraToTarget = k.predicts cc tc m.cameraJoints m.targetJoints

/-- Every measured pixel is the image, according to the calibration, of its target point, which is in front of the camera. -/
def Explains2 (cc tc : DHChain) (intr : Intr) (k : Calib) (obs : List KinObs) : Prop :=
  ∀ o ∈ obs, ∀ c ∈ o.correspondences,
    0 < ((k.predicts cc tc o.cameraJoints o.targetJoints).apply c.inTarget).z ∧
    c.inImage = pinhole intr ((k.predicts cc tc o.cameraJoints o.targetJoints).apply c.inTarget)

end RCT.Spec
