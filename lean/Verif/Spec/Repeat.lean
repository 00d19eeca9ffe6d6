import Verif.Spec.Pixels

/-!
# Data given several times
-/

namespace RCT.Spec
open RCT

/-- `l'` has every element of `l` `n` times over, in any order. -/
def Repeated {α : Type} (n : Nat) (l l' : List α) : Prop := 1 ≤ n ∧ l'.Perm (List.replicate n l).flatten

/-- The same flag, costs and pose; covariances may differ. -/
def PnPResult.Alike (r r' : PnPResult) : Prop :=
  r'.converged = r.converged ∧ r'.initialCost = r.initialCost ∧ r'.finalCost = r.finalCost ∧ r'.cameraToTarget = r.cameraToTarget

def HandEyeResult.Alike (r r' : HandEyeResult) : Prop :=
  r'.converged = r.converged ∧ r'.initialCost = r.initialCost ∧ r'.finalCost = r.finalCost ∧
  r'.cameraMountToCamera = r.cameraMountToCamera ∧ r'.targetMountToTarget = r.targetMountToTarget

def MsResult.Alike (r r' : MsResult) : Prop :=
  r'.converged = r.converged ∧ r'.initialCost = r.initialCost ∧ r'.finalCost = r.finalCost ∧
  r'.baseToCamera = r.baseToCamera ∧ r'.wristToTarget = r.wristToTarget

def CircleFitResult.Alike (r r' : CircleFitResult) : Prop :=
  r'.converged = r.converged ∧ r'.initialCost = r.initialCost ∧ r'.finalCost = r.finalCost ∧
  r'.xCenter = r.xCenter ∧ r'.yCenter = r.yCenter ∧ r'.radius = r.radius

def IntrinsicResult.Alike (r r' : IntrinsicResult) : Prop :=
  r'.converged = r.converged ∧ r'.initialCost = r.initialCost ∧ r'.finalCost = r.finalCost ∧
  r'.intrinsics = r.intrinsics ∧ r'.distortions = r.distortions

end RCT.Spec
