import Verif.Model.Rounded
import Verif.Model.DHChain

/-!
# Forward kinematics in double arithmetic

As `Verif/Model/Rounded.lean`. The sums in products of matrices and vectors are taken from left to right.
-/

namespace RCT.Double

/-- A row of a matrix times a matrix. -/
def rowMul (D : Double) (a : V3) (m : M3) : V3 :=
  ⟨D.dot a ⟨m.m00, m.m10, m.m20⟩, D.dot a ⟨m.m01, m.m11, m.m21⟩, D.dot a ⟨m.m02, m.m12, m.m22⟩⟩

/-- Product of matrices (Eigen). -/
def mulM (D : Double) (a b : M3) : M3 :=
  let x := D.rowMul ⟨a.m00, a.m01, a.m02⟩ b
  let y := D.rowMul ⟨a.m10, a.m11, a.m12⟩ b
  let z := D.rowMul ⟨a.m20, a.m21, a.m22⟩ b
  ⟨x.x, x.y, x.z, y.x, y.y, y.z, z.x, z.y, z.z⟩

def mulVec (D : Double) (a : M3) (v : V3) : V3 :=
  ⟨D.dot ⟨a.m00, a.m01, a.m02⟩ v, D.dot ⟨a.m10, a.m11, a.m12⟩ v, D.dot ⟨a.m20, a.m21, a.m22⟩ v⟩

def add3 (D : Double) (a b : V3) : V3 := ⟨D.add a.x b.x, D.add a.y b.y, D.add a.z b.z⟩

/-- Product of isometries (Eigen). -/
def mulIso (D : Double) (a b : Iso) : Iso := ⟨D.mulM a.R b.R, D.add3 (D.mulVec a.R b.t) a.t⟩

/-- `transform *= Eigen::Translation(v)`. -/
def translateBy (D : Double) (T : Iso) (v : V3) : Iso := ⟨T.R, D.add3 T.t (D.mulVec T.R v)⟩

/-- `Eigen::AngleAxis(angle, u).toRotationMatrix()` (library semantics). -/
def axisMatrix (D : Double) (angle : ℝ) (u : V3) : M3 :=
  let c := D.cos angle
  let s := D.sin angle
  let su : V3 := ⟨D.mul s u.x, D.mul s u.y, D.mul s u.z⟩
  let cu : V3 := ⟨D.mul (D.sub 1 c) u.x, D.mul (D.sub 1 c) u.y, D.mul (D.sub 1 c) u.z⟩
  let xy := D.mul cu.x u.y
  let xz := D.mul cu.x u.z
  let yz := D.mul cu.y u.z
  ⟨D.add (D.mul cu.x u.x) c, D.sub xy su.z, D.add xz su.y,
   D.add xy su.z, D.add (D.mul cu.y u.y) c, D.sub yz su.x,
   D.sub xz su.y, D.add yz su.x, D.add (D.mul cu.z u.z) c⟩

/-- `transform.rotate(AngleAxis)`. -/
def rotateBy (D : Double) (T : Iso) (angle : ℝ) (u : V3) : Iso := ⟨D.mulM T.R (D.axisMatrix angle u), T.t⟩

/-- The parameters of a joint with its offsets and its value (`dh_chain.h` 70-85). -/
def updated (D : Double) (params : V4) (type : JointType) (joint : ℝ) (off : V4) : V4 :=
  let u : V4 := ⟨D.add params.d off.d, D.add params.theta off.theta, D.add params.r off.r, D.add params.alpha off.alpha⟩
  match type with
  | .linear => { u with d := D.add u.d joint }
  | .revolute => { u with theta := D.add u.theta joint }

/-- `DHTransform::createRelativeTransform` (`dh_chain.h` 64-93). -/
def relative (D : Double) (t : DHTransform) (joint : ℝ) (off : V4) : Iso :=
  let u := D.updated t.params t.type joint off
  let T := D.translateBy 1 ⟨0, 0, u.d⟩
  let T := D.rotateBy T u.theta ⟨0, 0, 1⟩
  let T := D.translateBy T ⟨u.r, 0, 0⟩
  D.rotateBy T u.alpha ⟨1, 0, 0⟩

/-- The loop of `DHChain::getFK` (`dh_chain.h` 187-191), as `DHChain.fkLoop`. -/
def fkLoop (D : Double) (ts : List DHTransform) (offs : List V4) : Nat → List ℝ → Iso → Res Iso
  | _, [], T => .ok T
  | i, q :: qs, T =>
    (Res.idxList offs i).bind fun o =>
    (Res.atList ts i).bind fun t =>
    fkLoop D ts offs (i + 1) qs (D.mulIso T (D.relative t q o))

/-- `DHChain::getFK` (`dh_chain.h` 168-193). -/
def getFK (D : Double) (c : DHChain) (q : List ℝ) (offs : List V4) : Res Iso :=
  if q.length > c.dof then .throw .runtimeError
  else if q.length > offs.length then .throw .runtimeError
  else D.fkLoop c.transforms offs 0 q c.base

end RCT.Double
