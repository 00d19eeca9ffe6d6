import Verif.Model.NotANumber

/-!
# Values that are not a number
-/

namespace RCT.Spec
open RCT RCT.NaN

/-- None of the values is NaN. -/
def Numbers (l : List Num) : Prop := none ∉ l

/-- The values of a point, a pose or a camera. -/
def vals2 (v : N2) : List Num := [v.x, v.y]
def vals3 (v : N3) : List Num := [v.x, v.y, v.z]
def vals6 (p : NPose) : List Num := [p.rx, p.ry, p.rz, p.x, p.y, p.z]
def vals4 (i : NIntr) : List Num := [i.fx, i.fy, i.cx, i.cy]
def vals9 (i : NIntr9) : List Num := [i.fx, i.fy, i.cx, i.cy, i.k1, i.k2, i.p1, i.p2, i.k3]

/-- Values that are numbers. -/
def num2 (v : V2) : N2 := ⟨some v.x, some v.y⟩
def num3 (v : V3) : N3 := ⟨some v.x, some v.y, some v.z⟩
def num6 (p : Pose6) : NPose := ⟨some p.rx, some p.ry, some p.rz, some p.x, some p.y, some p.z⟩
def num4 (i : Intr) : NIntr := ⟨some i.fx, some i.fy, some i.cx, some i.cy⟩
def num9 (i : Intr9) : NIntr9 := ⟨some i.fx, some i.fy, some i.cx, some i.cy, some i.k1, some i.k2, some i.p1, some i.p2, some i.k3⟩

end RCT.Spec
