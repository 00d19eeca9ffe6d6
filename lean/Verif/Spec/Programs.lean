import Verif.Model.Programs
import Verif.Spec.Tools
import Verif.Spec.Kinematic

/-!
# Specification of the example programs
-/

namespace RCT.Spec

open RCT

variable {Img : Type}

/-- The target is found in image `i` of the data set; `o` is its observation with the wrist pose of the same image. -/
def ExampleItem (find : Img → Res TargetFeatures) (create : TargetFeatures → Res (List Corr2)) (d : DataSet Img) (i : Nat)
    (o : Obs Corr2) : Prop :=
  ∃ m fs, d.images[i]? = some m ∧ find m = .ok fs ∧ create fs = .ok o.corrs ∧ d.poses[i]? = some o.toCameraMount ∧
    o.toTargetMount = 1

/-- Homogeneous image coordinates `v` denote the pixel `u`. -/
def HomogeneousPixel (v : V3) (u : V2) : Prop := v.z ≠ 0 ∧ u.x = v.x / v.z ∧ u.y = v.y / v.z

/-- What `cv::solvePnP` returns explains the points exactly: with the rotation that belongs to the rotation vector, the
camera matrix maps every target point to its image point. -/
def CvExact (rvec tvec : V3) (K : M3) (target : List V3) (image : List V2) : Prop :=
  ∀ R, IsRotVec rvec R → List.Forall₂ (fun p u => HomogeneousPixel (K.mulVec (R.mulVec p + tvec)) u) target image

/-- Pose of the target in a fixed camera: camera mount and base of the chain are the world frame. -/
noncomputable def seenPose (c : DHChain) (cm tm : Iso) (offs : List V4) (q : List ℝ) : Iso := cm.inv * (endPose c offs q * tm)

/-- Disagreement of measured and predicted pose: squared distance plus squared angle, weighted with 100. -/
noncomputable def poseError (measured predicted : Iso) : ℝ :=
  (measured * predicted.inv).t.normSq + (100 * rotAngle (measured.R * predicted.R.tr)) ^ 2

/-- What a best calibration of a chain in front of a fixed camera minimises: disagreement with the measurements plus offsets
relative to the expected deviation of 0.005. -/
noncomputable def fixedCameraObjective (c : DHChain) (ms : List KinMeas) (cm tm : Iso) (offs : List V4) : ℝ :=
  (ms.map fun m => poseError m.cameraToTarget (seenPose c cm tm offs m.targetJoints)).sum +
  (offs.map fun v => (v.d / (5 / 1000)) ^ 2 + (v.theta / (5 / 1000)) ^ 2 + (v.r / (5 / 1000)) ^ 2 + (v.alpha / (5 / 1000)) ^ 2).sum

/-- No calibration with nominal last joint is better. -/
def BestOfExample (c : DHChain) (ms : List KinMeas) (cm tm : Iso) (o : V4) : Prop :=
  RigidMotion cm ∧ RigidMotion tm ∧ ∀ cm' tm' o', RigidMotion cm' → RigidMotion tm' →
    fixedCameraObjective c ms cm tm [o, 0] ≤ fixedCameraObjective c ms cm' tm' [o', 0]

/-- The measurements are exact for these transforms and this offset of the first joint. -/
def ExactFor (c : DHChain) (ms : List KinMeas) (cm tm : Iso) (o : V4) : Prop :=
  ∀ m ∈ ms, m.cameraToTarget = seenPose c cm tm [o, 0] m.targetJoints

/-- Three measurements in which each of both joints is moved, alone, by an angle other than 0 and 180 degrees. -/
def MovesBothJoints (ms : List KinMeas) : Prop :=
  ∃ a ∈ ms, ∃ b ∈ ms, ∃ c ∈ ms, ∃ x y x' y', a.targetJoints = [x, y] ∧ b.targetJoints = [x', y] ∧ c.targetJoints = [x, y'] ∧
    Real.sin (x' - x) ≠ 0 ∧ Real.sin (y' - y) ≠ 0

end RCT.Spec
