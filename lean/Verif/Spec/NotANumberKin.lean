import Verif.Spec.NotANumber
import Verif.Model.NotANumberKin

/-!
# Values that are not a number in kinematic calibration
-/

namespace RCT.Spec
open RCT RCT.NaN

def valsD (p : N4) : List Num := [p.d, p.theta, p.r, p.alpha]
def valsM (m : NM3) : List Num := vals3 m.r0 ++ vals3 m.r1 ++ vals3 m.r2
def valsI (T : NIso) : List Num := valsM T.R ++ vals3 T.t

/-- The values of a chain that are used: those of the joints that have a value. -/
def valsC (c : NChain) : List Num :=
  valsI c.base ++ c.values ++ (c.joints.take c.values.length).flatMap (fun j => valsD j.1) ++ (c.offsets.take c.values.length).flatMap valsD

/-- The estimated positions. -/
def valsPos (m : NMounts) : List Num := vals3 m.cm ++ vals3 m.tm ++ vals3 m.cb

/-- The chain has a joint and a row of offsets for every joint value. -/
def LongEnough (c : NChain) : Prop := c.values.length ≤ c.joints.length ∧ c.values.length ≤ c.offsets.length

/-- The orientation is zero where it is not made of numbers. -/
noncomputable def cleared (aa : N3) : N3 :=
  open Classical in if Numbers (vals3 aa) then aa else ⟨some 0, some 0, some 0⟩

/-- Values that are numbers. -/
def numD (p : V4) : N4 := ⟨some p.d, some p.theta, some p.r, some p.alpha⟩
def numM (m : M3) : NM3 := ⟨num3 ⟨m.m00, m.m01, m.m02⟩, num3 ⟨m.m10, m.m11, m.m12⟩, num3 ⟨m.m20, m.m21, m.m22⟩⟩
def numI (T : Iso) : NIso := ⟨numM T.R, num3 T.t⟩

end RCT.Spec
