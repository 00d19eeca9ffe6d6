import Verif.Model.StaticCameras
import Verif.Model.Kinematic

/-!
# Results that can be reached, and data in another order
-/

namespace RCT.Spec
open RCT

/-- Some solver that meets its contract makes the call return `r`. -/
def Reaches {β ρ : Type} (run : Ceres β → Res ρ) (r : ρ) : Prop := ∃ s : Ceres β, s.WF ∧ run s = .ok r

/-- The same for problems with masks. -/
def ReachesK {ρ : Type} (run : KCeres → Res ρ) (r : ρ) : Prop := ∃ K : KCeres, K.WF ∧ run K = .ok r

/-- Every correspondence with the poses at which it was observed. -/
def samples {κ : Type} (obs : List (Obs κ)) : List (Iso × Iso × κ) :=
  obs.flatMap fun o => o.corrs.map fun k => (o.toCameraMount, o.toTargetMount, k)

/-- Every correspondence of one camera with the wrist pose at which it was observed. -/
def wristSamples (wrist : List Iso) (images : List (List Corr2)) : List (Iso × Corr2) :=
  (List.zip wrist images).flatMap fun wi => wi.2.map fun k => (wi.1, k)

/-- Every correspondence with the joint values at which it was observed. -/
def jointSamples (obs : List KinObs) : List (List ℝ × List ℝ × Corr2) :=
  obs.flatMap fun o => o.correspondences.map fun k => (o.cameraJoints, o.targetJoints, k)

end RCT.Spec
