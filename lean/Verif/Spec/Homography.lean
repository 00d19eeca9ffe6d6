import Verif.Model.HandEye

/-!
# Specification of planar homographies and of grid targets
-/

namespace RCT.Spec
open RCT

/-- Position in the correspondence list of feature `k` of the grid point in row `r` and column `c`, for a grid listed row
by row with `stride` features per grid point. -/
def gridIndex (cols stride r c k : Nat) : Nat := (r * cols + c) * stride + k

/-- The homography maps the point of the target plane to the image point; the scale is not zero. -/
def MapsTo (H : M3) (p : V3) (q : V2) : Prop :=
  let w := H.m20 * p.x + H.m21 * p.y + H.m22
  w ≠ 0 ∧ q.x = (H.m00 * p.x + H.m01 * p.y + H.m02) / w ∧ q.y = (H.m10 * p.x + H.m11 * p.y + H.m12) / w

/-- The matrix maps the homogeneous point of the target plane to a multiple of the homogeneous image point. -/
def Incident (H : M3) (p : V3) (q : V2) : Prop := ∃ k : ℝ, H.mulVec ⟨p.x, p.y, 1⟩ = ⟨k * q.x, k * q.y, k⟩

/-- Up to scale, `H` is the only matrix compatible with the correspondences. -/
def Determines (H : M3) (s : List Corr2) : Prop :=
  ∀ H' : M3, (∀ c ∈ s, Incident H' c.inTarget c.inImage) → ∃ k : ℝ, H' =
    ⟨k * H.m00, k * H.m01, k * H.m02, k * H.m10, k * H.m11, k * H.m12, k * H.m20, k * H.m21, k * H.m22⟩

/-- Twice the signed area of a triangle of the target plane. -/
def area2 (a b c : V3) : ℝ := (b.x - a.x) * (c.y - a.y) - (b.y - a.y) * (c.x - a.x)

/-- Four points of the target plane, no three of them on a line. -/
def GeneralPosition (a b c d : V3) : Prop := area2 a b c ≠ 0 ∧ area2 a b d ≠ 0 ∧ area2 a c d ≠ 0 ∧ area2 b c d ≠ 0

end RCT.Spec
