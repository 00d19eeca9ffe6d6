import Verif.Core.Vec
import Verif.Model.DHChain

/-!
# Specification of DH kinematics

Only data types are shared with the model.
-/

namespace RCT.Spec
open RCT

/-- The classical DH matrix (Wikipedia, Denavit–Hartenberg parameters) for link offset `d`, joint angle `th`, link length
`r` and link twist `al`. -/
noncomputable def dhMatrix (d th r al : ℝ) : Iso :=
  ⟨⟨Real.cos th, -Real.sin th * Real.cos al, Real.sin th * Real.sin al,
    Real.sin th, Real.cos th * Real.cos al, -Real.cos th * Real.sin al,
    0, Real.sin al, Real.cos al⟩,
   ⟨r * Real.cos th, r * Real.sin th, d⟩⟩

/-- Pose of one joint relative to the previous: linear joints move along z, revolute joints turn about z. -/
noncomputable def jointPose (p : V4) (ty : JointType) (off : V4) (q : ℝ) : Iso :=
  match ty with
  | .linear => dhMatrix (p.d + off.d + q) (p.theta + off.theta) (p.r + off.r) (p.alpha + off.alpha)
  | .revolute => dhMatrix (p.d + off.d) (p.theta + off.theta + q) (p.r + off.r) (p.alpha + off.alpha)

/-- Pose at the end of a chain: the base followed by the joint poses in order; stops at the shortest list. -/
noncomputable def chainPose : Iso → List (V4 × JointType) → List V4 → List ℝ → Iso
  | B, j :: js, o :: os, q :: qs => chainPose (B * jointPose j.1 j.2 o q) js os qs
  | B, _, _, _ => B

end RCT.Spec
