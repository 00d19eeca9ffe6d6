import Verif.Spec.Unit
import Verif.Spec.Frames

/-!
# Problems seen from the other side
-/

namespace RCT.Spec
open RCT

/-- A pair of points seen from the target: what the camera measured is now known, and what was known is now measured. -/
def otherSide (c : Corr3) : Corr3 := ⟨c.inTarget, c.inImage⟩

def obsOtherSide (o : Obs Corr3) : Obs Corr3 := ⟨o.corrs.map otherSide, o.toTargetMount, o.toCameraMount⟩

/-- Camera and target exchange their roles, together with their mounts and the guesses of their poses. -/
def handEyeOtherSide (p : HandEyeProblem Corr3) : HandEyeProblem Corr3 :=
  { p with observations := p.observations.map obsOtherSide, cameraGuess := p.targetGuess, targetGuess := p.cameraGuess }

def HandEyeMirrored (r r' : HandEyeResult) : Prop :=
  r'.converged = r.converged ∧ r'.initialCost = r.initialCost ∧ r'.finalCost = r.finalCost ∧
  r'.cameraMountToCamera = r.targetMountToTarget ∧ r'.targetMountToTarget = r.cameraMountToCamera

def pnpOtherSide (p : PnPProblem Corr3) : PnPProblem Corr3 :=
  { p with correspondences := p.correspondences.map otherSide, guess := p.guess.inv }

def PnPMirrored (r r' : PnPResult) : Prop :=
  r'.converged = r.converged ∧ r'.initialCost = r.initialCost ∧ r'.finalCost = r.finalCost ∧ r'.cameraToTarget = r.cameraToTarget.inv

/-- A motion of the plane, possibly with a reflection. -/
structure PlaneMotion where
  m00 : ℝ
  m01 : ℝ
  m10 : ℝ
  m11 : ℝ
  tx : ℝ
  ty : ℝ

/-- Lengths are kept. -/
def PlaneMotion.Rigid (m : PlaneMotion) : Prop :=
  m.m00 ^ 2 + m.m10 ^ 2 = 1 ∧ m.m01 ^ 2 + m.m11 ^ 2 = 1 ∧ m.m00 * m.m01 + m.m10 * m.m11 = 0

def PlaneMotion.apply (m : PlaneMotion) (v : V2) : V2 := ⟨m.m00 * v.x + m.m01 * v.y + m.tx, m.m10 * v.x + m.m11 * v.y + m.ty⟩

def circleElsewhere (m : PlaneMotion) (p : CircleFitProblem) : CircleFitProblem :=
  ⟨p.observations.map m.apply, (m.apply ⟨p.xInitial, p.yInitial⟩).x, (m.apply ⟨p.xInitial, p.yInitial⟩).y, p.radiusInitial⟩

def CircleMoved (m : PlaneMotion) (r r' : CircleFitResult) : Prop :=
  r'.converged = r.converged ∧ r'.initialCost = r.initialCost ∧ r'.finalCost = r.finalCost ∧
  (⟨r'.xCenter, r'.yCenter⟩ : V2) = m.apply ⟨r.xCenter, r.yCenter⟩ ∧ r'.radius = r.radius

end RCT.Spec
