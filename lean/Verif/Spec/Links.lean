import Verif.Spec.StaticCameras
import Mathlib.Logic.Relation

/-!
# Cameras linked by common images
-/

namespace RCT.Spec

/-- A chain of cameras leads from one camera to the other in which neighbours see the target in a common image. -/
def Linked (sees : Nat → Nat → Prop) : Nat → Nat → Prop := Relation.ReflTransGen fun c c' => ∃ i, sees c i ∧ sees c' i

/-- Camera `c` sees some feature in image `i`. -/
def SeesSome (obs : List (List (List Corr2))) (cams images c i : Nat) : Prop :=
  c < cams ∧ i < images ∧ (obs.getD c []).getD i [] ≠ []

end RCT.Spec
