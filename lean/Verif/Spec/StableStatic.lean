import Verif.Spec.Stable
import Verif.Spec.Identify
import Verif.Spec.StaticCameras

/-! Vocabulary for the effect of noise on the calibration of several static cameras. -/

namespace RCT.Spec

open RCT

/-- Four of the points are on the plane of the target, no three of them on one line. -/
def QuadrangleIn (pts : List V3) : Prop := ∃ a ∈ pts, ∃ b ∈ pts, ∃ c ∈ pts, ∃ d ∈ pts, Quadrangle a b c d

/-- A camera sees the points of the target well: the target is at `T` in the camera, which does not lie in its plane. -/
def SeenWell (intr : Intr) (T : Iso) (pts : List V3) : Prop := QuadrangleIn pts ∧ intr.fx ≠ 0 ∧ intr.fy ≠ 0 ∧ T.inv.t.z ≠ 0

/-- Image `i` of camera `c` shows the points `pts c i` of the target. -/
def Shows (obs : List (List (List Corr2))) (pts : Nat → Nat → List V3) : Prop :=
  ∀ c i : Nat, ((obs.getD c []).getD i []).map (fun k => k.inTarget) = pts c i

/-- The true place of a feature in its image; `tgt c i` is the pose of the target in image `i` of camera `c`. -/
noncomputable def truePixel (intr : List Intr) (cams : List Iso) (tgt : Nat → Nat → Iso) (f : Feature) : V2 :=
  pinhole (intr.getD f.cam ⟨0, 0, 0, 0⟩) (((cams.getD f.cam 1).inv * tgt f.cam f.img).apply f.corr.inTarget)

end RCT.Spec
