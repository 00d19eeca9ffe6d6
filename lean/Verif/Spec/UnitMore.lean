import Verif.Spec.Unit
import Verif.Spec.Pixels

/-!
# Lengths in another unit: intrinsic calibration, cameras with a free target, a common correction
-/

namespace RCT.Spec
open RCT

def IntrinsicProblem.inUnit (k : ℝ) (p : IntrinsicProblem) : IntrinsicProblem :=
  { p with observations := p.observations.map fun l => l.map (Corr2.inUnit k) }

def WoProblem.inUnit (k : ℝ) (p : WoProblem) : WoProblem :=
  { p with wristPoses := p.wristPoses.map (Iso.inUnit k), observations := p.observations.map fun c => c.map fun l => l.map (Corr2.inUnit k),
           wristToTargetGuess := Iso.inUnit k p.wristToTargetGuess, baseToCameraGuess := p.baseToCameraGuess.map (Iso.inUnit k) }

def CoProblem.inUnit (k : ℝ) (p : CoProblem) : CoProblem :=
  { p with baseToTargetGuess := p.baseToTargetGuess.map (Iso.inUnit k), observations := p.observations.map fun c => c.map fun l => l.map (Corr2.inUnit k),
           baseToCameraGuess := p.baseToCameraGuess.map (Iso.inUnit k) }

def WoResult.SameInUnit (k c : ℝ) (r r' : WoResult) : Prop :=
  r'.converged = r.converged ∧ r'.initialCost = times c r.initialCost ∧ r'.finalCost = times c r.finalCost ∧
  r'.wristToTarget = Iso.inUnit k r.wristToTarget ∧ r'.baseToCamera = r.baseToCamera.map (Iso.inUnit k)

def CoResult.SameInUnit (k c : ℝ) (r r' : CoResult) : Prop :=
  r'.converged = r.converged ∧ r'.initialCost = times c r.initialCost ∧ r'.finalCost = times c r.finalCost ∧
  r'.baseToTarget = r.baseToTarget.map (Iso.inUnit k) ∧ r'.baseToCamera = r.baseToCamera.map (Iso.inUnit k)

end RCT.Spec
