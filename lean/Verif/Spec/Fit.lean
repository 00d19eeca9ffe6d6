import Verif.Spec.StaticCameras
import Verif.Spec.HandEye

/-!
# Specification of the reported fit

The quality of a calibration in terms of its data and of the reported transforms only.
-/

namespace RCT.Spec
open RCT

/-- Sum of the squared errors. -/
noncomputable def sumSq (errors : List ℝ) : ℝ := (errors.map fun e => e ^ 2).sum

/-- Half the mean of the squared errors; there is none without errors. -/
noncomputable def meanCost (errors : List ℝ) : Option ℝ :=
  if errors = [] then none else some (sumSq errors / 2 / errors.length)

/-- Reprojection errors of one camera that sees the target at `T`. -/
noncomputable def pixelErrors (intr : Intr) (T : Iso) (cs : List Corr2) : List ℝ :=
  cs.flatMap fun c => diff2 (pinhole intr (T.apply c.inTarget)) c.inImage

/-- Differences between the points of the target at `T` and the measured points. -/
def pointErrors (T : Iso) (cs : List Corr3) : List ℝ := cs.flatMap fun c => diff3 (T.apply c.inTarget) c.inImage

/-- Reprojection errors of several cameras; `tgt c i` is the pose of the target in image `i` of camera `c`. -/
noncomputable def staticErrors (intr : List Intr) (cams : List Iso) (tgt : Nat → Nat → Iso) (fs : List Feature) : List ℝ :=
  fs.flatMap fun f => staticError (intr.getD f.cam ⟨0, 0, 0, 0⟩) (cams.getD f.cam 1) (tgt f.cam f.img) f.corr

/-- No feature lies in the plane through the optical centre of its camera. -/
def NoZeroDepth (cams : List Iso) (tgt : Nat → Nat → Iso) (fs : List Feature) : Prop :=
  ∀ f ∈ fs, staticDepth (cams.getD f.cam 1) (tgt f.cam f.img) f.corr ≠ 0

/-- The features of cameras that take one image each. -/
def oneImage (obs : List (List Corr2)) (cams : Nat) : List Feature :=
  (List.range cams).flatMap fun c => (obs.getD c []).map fun k => ⟨c, 0, k⟩

end RCT.Spec
