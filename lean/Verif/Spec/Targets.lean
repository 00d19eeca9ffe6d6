import Verif.Model.HandEye

/-!
# What a pairing of image features with target points has to satisfy
-/

namespace RCT.Spec

/-- `point k i p`: the target has a point `p` which is point number `i` of its feature `k`. `fs` lists the detected
features: id and image points. -/
structure PairedById (point : Nat → Nat → V3 → Prop) (fs : List (Nat × List V2)) (cs : List Corr2) : Prop where
  /-- as many pairs as detected points -/
  count : cs.length = (fs.map fun e => e.2.length).sum
  /-- every pair joins an image point of a feature with the target point of the same feature and number -/
  sound : ∀ c ∈ cs, ∃ k us, (k, us) ∈ fs ∧ ∃ i : Nat, us[i]? = some c.inImage ∧ point k i c.inTarget
  /-- every detected point is in a pair -/
  complete : ∀ k us, (k, us) ∈ fs → ∀ (i : Nat) u, us[i]? = some u → ∃ c ∈ cs, c.inImage = u ∧ point k i c.inTarget

end RCT.Spec
