import Verif.Spec.Order
import Verif.Model.CircleFit

/-!
# Lengths in another unit

`k` is the number of new units in one old unit: 1000 for metres written as millimetres.
-/

namespace RCT.Spec
open RCT

def Iso.inUnit (k : ℝ) (T : Iso) : Iso := ⟨T.R, V3.smul k T.t⟩

/-- A pixel stays, the point of the target is a length. -/
def Corr2.inUnit (k : ℝ) (c : Corr2) : Corr2 := ⟨c.inImage, V3.smul k c.inTarget⟩

/-- Both points are lengths. -/
def Corr3.inUnit (k : ℝ) (c : Corr3) : Corr3 := ⟨V3.smul k c.inImage, V3.smul k c.inTarget⟩

def Obs.inUnit {κ : Type} (f : κ → κ) (k : ℝ) (o : Obs κ) : Obs κ :=
  ⟨o.corrs.map f, Iso.inUnit k o.toCameraMount, Iso.inUnit k o.toTargetMount⟩

def HandEyeProblem.inUnit {κ : Type} (f : κ → κ) (k : ℝ) (p : HandEyeProblem κ) : HandEyeProblem κ :=
  { p with observations := p.observations.map (Obs.inUnit f k), targetGuess := Iso.inUnit k p.targetGuess,
           cameraGuess := Iso.inUnit k p.cameraGuess }

def PnPProblem.inUnit {κ : Type} (f : κ → κ) (k : ℝ) (p : PnPProblem κ) : PnPProblem κ :=
  { p with correspondences := p.correspondences.map f, guess := Iso.inUnit k p.guess }

def McPnpProblem.inUnit (k : ℝ) (p : McPnpProblem) : McPnpProblem :=
  { p with baseToCamera := p.baseToCamera.map (Iso.inUnit k), observations := p.observations.map fun l => l.map (Corr2.inUnit k),
           guess := Iso.inUnit k p.guess }

def MsProblem.inUnit (k : ℝ) (p : MsProblem) : MsProblem :=
  { p with wristPoses := p.wristPoses.map fun l => l.map (Iso.inUnit k),
           observations := p.observations.map fun c => c.map fun l => l.map (Corr2.inUnit k),
           wristToTargetGuess := Iso.inUnit k p.wristToTargetGuess, baseToCameraGuess := p.baseToCameraGuess.map (Iso.inUnit k) }

def CircleFitProblem.inUnit (k : ℝ) (p : CircleFitProblem) : CircleFitProblem :=
  ⟨p.observations.map (V2.smul k), k * p.xInitial, k * p.yInitial, k * p.radiusInitial⟩

/-- A cost multiplied by `c`. -/
noncomputable def times (c : ℝ) (o : Option ℝ) : Option ℝ := o.map fun x => c * x

/-- The same result in another unit, with costs multiplied by `c`. -/
def HandEyeResult.SameInUnit (k c : ℝ) (r r' : HandEyeResult) : Prop :=
  r'.converged = r.converged ∧ r'.initialCost = times c r.initialCost ∧ r'.finalCost = times c r.finalCost ∧
  r'.cameraMountToCamera = Iso.inUnit k r.cameraMountToCamera ∧ r'.targetMountToTarget = Iso.inUnit k r.targetMountToTarget

def PnPResult.SameInUnit (k c : ℝ) (r r' : PnPResult) : Prop :=
  r'.converged = r.converged ∧ r'.initialCost = times c r.initialCost ∧ r'.finalCost = times c r.finalCost ∧
  r'.cameraToTarget = Iso.inUnit k r.cameraToTarget

def McPnpResult.SameInUnit (k c : ℝ) (r r' : McPnpResult) : Prop :=
  r'.converged = r.converged ∧ r'.initialCost = times c r.initialCost ∧ r'.finalCost = times c r.finalCost ∧
  r'.baseToTarget = Iso.inUnit k r.baseToTarget

def MsResult.SameInUnit (k c : ℝ) (r r' : MsResult) : Prop :=
  r'.converged = r.converged ∧ r'.initialCost = times c r.initialCost ∧ r'.finalCost = times c r.finalCost ∧
  r'.wristToTarget = Iso.inUnit k r.wristToTarget ∧ r'.baseToCamera = r.baseToCamera.map (Iso.inUnit k)

def CircleFitResult.SameInUnit (k c : ℝ) (r r' : CircleFitResult) : Prop :=
  r'.converged = r.converged ∧ r'.initialCost = times c r.initialCost ∧ r'.finalCost = times c r.finalCost ∧
  r'.xCenter = k * r.xCenter ∧ r'.yCenter = k * r.yCenter ∧ r'.radius = k * r.radius

end RCT.Spec
