import Verif.Spec.Geometry

/-! # The OpenCV lens model (Brown-Conrady), textbook form -/

namespace RCT.Spec
open RCT

/-- Image of a point with normalised coordinates `(x, y)`, distortion coefficients in OpenCV order
`k1, k2, p1, p2, k3`. -/
noncomputable def brown (i : Intr) (k1 k2 p1 p2 k3 : ℝ) (x y : ℝ) : V2 :=
  let r := Real.sqrt (x ^ 2 + y ^ 2)
  let radial := 1 + k1 * r ^ 2 + k2 * r ^ 4 + k3 * r ^ 6
  ⟨i.fx * (x * radial + 2 * p1 * x * y + p2 * (r ^ 2 + 2 * x ^ 2)) + i.cx,
   i.fy * (y * radial + p1 * (r ^ 2 + 2 * y ^ 2) + 2 * p2 * x * y) + i.cy⟩

end RCT.Spec
