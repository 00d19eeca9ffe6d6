import Verif.Spec.Identify
import Verif.Spec.Distortion

/-!
# When images determine focal lengths and centre
-/

namespace RCT.Spec

/-- Normal of the plane of the target, seen from the camera. -/
def planeNormal (cameraToTarget : Iso) : V3 := ⟨cameraToTarget.R.m02, cameraToTarget.R.m12, cameraToTarget.R.m22⟩

/-- The target planes of all images have one of two directions `n` and `v` with `n.x v.y + n.y v.x = 0` (which may be the same
plane or, for any plane `n`, the image plane `v`). -/
def FewDirections (normals : List V3) : Prop :=
  ∃ n v : V3, n ≠ 0 ∧ v ≠ 0 ∧ n.x * v.y + n.y * v.x = 0 ∧ ∀ m ∈ normals, m.cross n = 0 ∨ m.cross v = 0

/-- The features of all images are where the camera `intr` without lens distortion sees them if the target is at `T i` in image
`i`; none of them has depth zero. -/
def PerfectImages (intr : Intr) (T : Nat → Iso) (images : List (List Corr2)) : Prop :=
  ∀ i, i < images.length → ∀ k ∈ images.getD i [], ((T i).apply k.inTarget).z ≠ 0 ∧
    k.inImage = pinhole intr ((T i).apply k.inTarget)

/-- The two cameras have the same centre and the same focal lengths up to sign (a negative focal length mirrors the image, which
cannot be told from a target that is seen from its other side). -/
def SameCamera (a b : Intr) : Prop := a.fx ^ 2 = b.fx ^ 2 ∧ a.fy ^ 2 = b.fy ^ 2 ∧ a.cx = b.cx ∧ a.cy = b.cy

end RCT.Spec
