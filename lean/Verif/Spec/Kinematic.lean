import Verif.Spec.Geometry
import Verif.Spec.DH

/-!
# Specification vocabulary for kinematic calibration

Only data types are shared with the model.
-/

namespace RCT.Spec
open RCT

/-- `R` turns vectors about the unit axis `u` by the angle `th` (Rodrigues' formula). -/
def TurnsBy (R : M3) (u : V3) (th : ℝ) : Prop :=
  u.normSq = 1 ∧ ∀ v : V3, R.mulVec v =
    V3.smul (Real.cos th) v + V3.smul (Real.sin th) (u.cross v) + V3.smul (u.dot v * (1 - Real.cos th)) u

/-- `a` is a rotation vector (angle times unit axis) of `R`. -/
def IsRotVec (a : V3) (R : M3) : Prop := ∃ u th, TurnsBy R u th ∧ a = V3.smul th u

/-- The pose of the end of a chain for joint values and offsets. -/
noncomputable def endPose (c : DHChain) (offs : List V4) (q : List ℝ) : Iso :=
  chainPose c.base (c.transforms.map fun t => (t.params, t.type)) offs q

/-- Camera and target are connected by two paths from the base of the camera chain:
over the camera mount and the measured pose `X`, and over the target chain. -/
def LoopCloses (cameraFk cmToC X cbToTb targetFk tmToT : Iso) : Prop :=
  cameraFk * cmToC * X = cbToTb * targetFk * tmToT

/-- Entry `c` (order d, theta, r, alpha) of a DH row. -/
def entry (v : V4) (c : Fin 4) : ℝ :=
  match c with | 0 => v.d | 1 => v.theta | 2 => v.r | 3 => v.alpha

/-- Column-major storage of a table with `n` rows. -/
def StoresTable (m : Nat → ℝ) (n : Nat) (offs : List V4) : Prop :=
  offs.length = n ∧ ∀ (r : Nat) (v : V4), offs[r]? = some v → ∀ c : Fin 4, m (n * c + r) = entry v c

/-- The three stored values are the vector. -/
def StoresVec (m : Nat → ℝ) (v : V3) : Prop := m 0 = v.x ∧ m 1 = v.y ∧ m 2 = v.z

/-- The eight parameter blocks hold these offsets and transforms: offsets of both chains, then for each of the three
transforms the position and a rotation vector, which is zero or longer than the double epsilon. -/
def ParamsAre (p : Nat → Nat → ℝ) (nc nt : Nat) (offC offT : List V4) (cm tm cb : Iso) : Prop :=
  StoresTable (p 0) nc offC ∧ StoresTable (p 1) nt offT ∧
  (StoresVec (p 2) cm.t ∧ ∃ a, StoresVec (p 3) a ∧ IsRotVec a cm.R ∧ (a = 0 ∨ a.norm > 1 / 2 ^ 52)) ∧
  (StoresVec (p 4) tm.t ∧ ∃ a, StoresVec (p 5) a ∧ IsRotVec a tm.R ∧ (a = 0 ∨ a.norm > 1 / 2 ^ 52)) ∧
  (StoresVec (p 6) cb.t ∧ ∃ a, StoresVec (p 7) a ∧ IsRotVec a cb.R ∧ (a = 0 ∨ a.norm > 1 / 2 ^ 52))

end RCT.Spec
