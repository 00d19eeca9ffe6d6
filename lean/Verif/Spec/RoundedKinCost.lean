import Verif.Spec.RoundedKin
import Verif.Spec.Rounded
import Verif.Spec.KinematicFit

/-!
# The size of a setup with two kinematic chains
-/

namespace RCT.Spec
open RCT

/-- Position and rotation vector of a pose are stored in two blocks, the rotation vector at most 7 long. -/
def StoresPose (m m' : Nat → ℝ) (T : Iso) : Prop := StoresVec m T.t ∧ ∃ a, StoresVec m' a ∧ IsRotVec a T.R ∧ a.norm ≤ 7

/-- The eight parameter blocks hold a calibration. -/
structure StoresCalib (p : Nat → Nat → ℝ) (nc nt : Nat) (k : Calib) : Prop where
  offC : StoresTable (p 0) nc k.offC
  offT : StoresTable (p 1) nt k.offT
  cm : StoresPose (p 2) (p 3) k.cm
  tm : StoresPose (p 4) (p 5) k.tm
  cb : StoresPose (p 6) (p 7) k.cb

/-- A stored chain: the chain that was meant, with its base rounded, and with angles of few turns for these joint values. -/
structure StoredChain (c' c : DHChain) (offs : List V4) (q : List ℝ) : Prop where
  same : c'.transforms = c.transforms
  rigid : RigidMotion c.base
  base : PoseErrorUpTo (1 / 10 ^ 15) (c.base.t.norm / 10 ^ 15) c'.base c.base
  enough : q.length ≤ c.transforms.length
  number : q.length ≤ 10 ^ 6
  turns : FewTurns (c.transforms.map fun t => (t.params, t.type)) offs q

/-- The length of a chain from its base frame to its end. -/
noncomputable def chainLength (c : DHChain) (offs : List V4) (q : List ℝ) : ℝ :=
  c.base.t.norm + chainReach (c.transforms.map fun t => (t.params, t.type)) offs q

/-- The length of the whole way from the camera over both chains to the target. -/
noncomputable def wayLength (k : Calib) (cc tc : DHChain) (qc qt : List ℝ) : ℝ :=
  k.cm.t.norm + chainLength cc k.offC qc + k.cb.t.norm + chainLength tc k.offT qt + k.tm.t.norm

/-- Focal lengths, optical centre and pixel are not greater than `F`, the point is in view of an angle of 90 degrees. -/
structure InView (F : ℝ) (i : Intr) (obs : V2) (c : V3) : Prop where
  fx : |i.fx| ≤ F
  fy : |i.fy| ≤ F
  cx : |i.cx| ≤ F
  cy : |i.cy| ≤ F
  u : |obs.x| ≤ F
  v : |obs.y| ≤ F
  front : 1 / 10 ^ 9 ≤ c.z
  x : |c.x| ≤ c.z
  y : |c.y| ≤ c.z

end RCT.Spec
