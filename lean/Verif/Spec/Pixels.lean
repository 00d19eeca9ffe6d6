import Verif.Spec.Unit
import Verif.Model.Intrinsic

/-!
# Pixels counted in another way
-/

namespace RCT.Spec
open RCT

/-- New pixel coordinates: `k` new pixels per old pixel, and the old origin at `(u, v)`. -/
structure Pixels where
  k : ℝ
  u : ℝ
  v : ℝ

def Pixels.point (g : Pixels) (p : V2) : V2 := ⟨g.k * p.x + g.u, g.k * p.y + g.v⟩

/-- The camera that sees everything at the new coordinates. -/
def Pixels.intr (g : Pixels) (i : Intr) : Intr := ⟨g.k * i.fx, g.k * i.fy, g.k * i.cx + g.u, g.k * i.cy + g.v⟩

def Pixels.corr (g : Pixels) (c : Corr2) : Corr2 := ⟨g.point c.inImage, c.inTarget⟩

def Pixels.pnp (g : Pixels) (p : PnPProblem Corr2) : PnPProblem Corr2 :=
  { p with intr := g.intr p.intr, correspondences := p.correspondences.map g.corr }

def Pixels.handEye (g : Pixels) (p : HandEyeProblem Corr2) : HandEyeProblem Corr2 :=
  { p with intr := g.intr p.intr, observations := p.observations.map fun o => { o with corrs := o.corrs.map g.corr } }

def Pixels.multiPnp (g : Pixels) (p : McPnpProblem) : McPnpProblem :=
  { p with intr := p.intr.map g.intr, observations := p.observations.map fun l => l.map g.corr }

def Pixels.static (g : Pixels) (p : MsProblem) : MsProblem :=
  { p with intr := p.intr.map g.intr, observations := p.observations.map fun c => c.map fun l => l.map g.corr }

def Pixels.wristOnly (g : Pixels) (p : WoProblem) : WoProblem :=
  { p with intr := p.intr.map g.intr, observations := p.observations.map fun c => c.map fun l => l.map g.corr }

def Pixels.cameraOnly (g : Pixels) (p : CoProblem) : CoProblem :=
  { p with intr := p.intr.map g.intr, observations := p.observations.map fun c => c.map fun l => l.map g.corr }

def Pixels.intrinsic (g : Pixels) (p : IntrinsicProblem) : IntrinsicProblem :=
  { p with guess := g.intr p.guess, observations := p.observations.map fun l => l.map g.corr }

def Pixels.kinematic (g : Pixels) (obs : List KinObs) : List KinObs :=
  obs.map fun o => { o with correspondences := o.correspondences.map g.corr }

/-! The same poses, with costs multiplied by `c`. -/

def HandEyeResult.Same (c : ℝ) (r r' : HandEyeResult) : Prop :=
  r'.converged = r.converged ∧ r'.initialCost = times c r.initialCost ∧ r'.finalCost = times c r.finalCost ∧
  r'.cameraMountToCamera = r.cameraMountToCamera ∧ r'.targetMountToTarget = r.targetMountToTarget

def PnPResult.Same (c : ℝ) (r r' : PnPResult) : Prop :=
  r'.converged = r.converged ∧ r'.initialCost = times c r.initialCost ∧ r'.finalCost = times c r.finalCost ∧ r'.cameraToTarget = r.cameraToTarget

def McPnpResult.Same (c : ℝ) (r r' : McPnpResult) : Prop :=
  r'.converged = r.converged ∧ r'.initialCost = times c r.initialCost ∧ r'.finalCost = times c r.finalCost ∧ r'.baseToTarget = r.baseToTarget

def MsResult.Same (c : ℝ) (r r' : MsResult) : Prop :=
  r'.converged = r.converged ∧ r'.initialCost = times c r.initialCost ∧ r'.finalCost = times c r.finalCost ∧
  r'.wristToTarget = r.wristToTarget ∧ r'.baseToCamera = r.baseToCamera

def WoResult.Same (c : ℝ) (r r' : WoResult) : Prop :=
  r'.converged = r.converged ∧ r'.initialCost = times c r.initialCost ∧ r'.finalCost = times c r.finalCost ∧
  r'.wristToTarget = r.wristToTarget ∧ r'.baseToCamera = r.baseToCamera

def CoResult.Same (c : ℝ) (r r' : CoResult) : Prop :=
  r'.converged = r.converged ∧ r'.initialCost = times c r.initialCost ∧ r'.finalCost = times c r.finalCost ∧
  r'.baseToTarget = r.baseToTarget ∧ r'.baseToCamera = r.baseToCamera

/-- Every result of one call has its counterpart among the results of the other, both ways. -/
def Matching {β ρ : Type} (run run' : Ceres β → Res ρ) (same : ρ → ρ → Prop) : Prop :=
  (∀ r, Reaches run r → ∃ r', Reaches run' r' ∧ same r r') ∧ ∀ r', Reaches run' r' → ∃ r, Reaches run r ∧ same r r'

/-- Some pair of solvers that meet their contracts makes the intrinsic calibration return `r`. -/
def ReachesIntrinsic (p : IntrinsicProblem) (r : IntrinsicResult) : Prop :=
  ∃ (s3 : Ceres V3) (s : Ceres Mem), s3.WF ∧ s.WF ∧ intrinsic s3 s p = .ok r

/-- The camera in the new pixels, the same lens. -/
def IntrinsicResult.Same (g : Pixels) (r r' : IntrinsicResult) : Prop :=
  r'.converged = r.converged ∧ r'.initialCost = times (g.k ^ 2) r.initialCost ∧ r'.finalCost = times (g.k ^ 2) r.finalCost ∧
  r'.intrinsics = g.intr r.intrinsics ∧ r'.distortions = r.distortions

end RCT.Spec
