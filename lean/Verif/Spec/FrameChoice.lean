import Verif.Spec.Unit
import Verif.Spec.Frames

/-!
# Poses that refer to other frames
-/

namespace RCT.Spec
open RCT

/-- Other frames: the pose of the old base in the new base, and the poses of the new mounts and of the old target in the old mounts and in
the new target. The wrist of a robot in front of static cameras is a target mount. -/
structure Frames where
  base : Iso
  cameraMount : Iso
  targetMount : Iso
  target : Iso

def Frames.Rigid (f : Frames) : Prop := RigidMotion f.base ∧ RigidMotion f.cameraMount ∧ RigidMotion f.targetMount ∧ RigidMotion f.target

def Frames.corr2 (f : Frames) (c : Corr2) : Corr2 := ⟨c.inImage, f.target.apply c.inTarget⟩
def Frames.corr3 (f : Frames) (c : Corr3) : Corr3 := ⟨c.inImage, f.target.apply c.inTarget⟩

/-- Target in target mount. -/
def Frames.mounted (f : Frames) (T : Iso) : Iso := f.targetMount.inv * T * f.target.inv

def Frames.obs {κ : Type} (f : Frames) (m : κ → κ) (o : Obs κ) : Obs κ :=
  ⟨o.corrs.map m, f.base * o.toCameraMount * f.cameraMount, f.base * o.toTargetMount * f.targetMount⟩

def Frames.handEye {κ : Type} (f : Frames) (m : κ → κ) (p : HandEyeProblem κ) : HandEyeProblem κ :=
  { p with observations := p.observations.map (f.obs m), cameraGuess := f.cameraMount.inv * p.cameraGuess, targetGuess := f.mounted p.targetGuess }

def Frames.HandEyeSame (f : Frames) (r r' : HandEyeResult) : Prop :=
  r'.converged = r.converged ∧ r'.initialCost = r.initialCost ∧ r'.finalCost = r.finalCost ∧
  r'.cameraMountToCamera = f.cameraMount.inv * r.cameraMountToCamera ∧ r'.targetMountToTarget = f.mounted r.targetMountToTarget

def Frames.pnp {κ : Type} (f : Frames) (m : κ → κ) (p : PnPProblem κ) : PnPProblem κ :=
  { p with correspondences := p.correspondences.map m, guess := p.guess * f.target.inv }

def Frames.PnPSame (f : Frames) (r r' : PnPResult) : Prop :=
  r'.converged = r.converged ∧ r'.initialCost = r.initialCost ∧ r'.finalCost = r.finalCost ∧ r'.cameraToTarget = r.cameraToTarget * f.target.inv

def Frames.multiPnp (f : Frames) (p : McPnpProblem) : McPnpProblem :=
  { p with baseToCamera := p.baseToCamera.map fun c => f.base * c, observations := p.observations.map fun l => l.map f.corr2,
           guess := f.base * p.guess * f.target.inv }

def Frames.MultiPnPSame (f : Frames) (r r' : McPnpResult) : Prop :=
  r'.converged = r.converged ∧ r'.initialCost = r.initialCost ∧ r'.finalCost = r.finalCost ∧
  r'.baseToTarget = f.base * r.baseToTarget * f.target.inv

def Frames.static (f : Frames) (p : MsProblem) : MsProblem :=
  { p with wristPoses := p.wristPoses.map fun l => l.map fun w => f.base * w * f.targetMount,
           observations := p.observations.map fun c => c.map fun l => l.map f.corr2,
           wristToTargetGuess := f.mounted p.wristToTargetGuess, baseToCameraGuess := p.baseToCameraGuess.map fun c => f.base * c }

def Frames.StaticSame (f : Frames) (r r' : MsResult) : Prop :=
  r'.converged = r.converged ∧ r'.initialCost = r.initialCost ∧ r'.finalCost = r.finalCost ∧
  r'.wristToTarget = f.mounted r.wristToTarget ∧ r'.baseToCamera = r.baseToCamera.map fun c => f.base * c

def Frames.wristOnly (f : Frames) (p : WoProblem) : WoProblem :=
  { p with wristPoses := p.wristPoses.map fun w => f.base * w * f.targetMount,
           observations := p.observations.map fun c => c.map fun l => l.map f.corr2,
           wristToTargetGuess := f.mounted p.wristToTargetGuess, baseToCameraGuess := p.baseToCameraGuess.map fun c => f.base * c }

def Frames.WristOnlySame (f : Frames) (r r' : WoResult) : Prop :=
  r'.converged = r.converged ∧ r'.initialCost = r.initialCost ∧ r'.finalCost = r.finalCost ∧
  r'.wristToTarget = f.mounted r.wristToTarget ∧ r'.baseToCamera = r.baseToCamera.map fun c => f.base * c

def Frames.cameraOnly (f : Frames) (p : CoProblem) : CoProblem :=
  { p with baseToTargetGuess := p.baseToTargetGuess.map fun t => f.base * t * f.target.inv,
           observations := p.observations.map fun c => c.map fun l => l.map f.corr2,
           baseToCameraGuess := p.baseToCameraGuess.map fun c => f.base * c }

def Frames.CameraOnlySame (f : Frames) (r r' : CoResult) : Prop :=
  r'.converged = r.converged ∧ r'.initialCost = r.initialCost ∧ r'.finalCost = r.finalCost ∧
  r'.baseToTarget = (r.baseToTarget.map fun t => f.base * t * f.target.inv) ∧ r'.baseToCamera = r.baseToCamera.map fun c => f.base * c

end RCT.Spec
