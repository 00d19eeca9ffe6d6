import Verif.Spec.Identify

/-!
# Results close to the truth
-/

namespace RCT.Spec
open RCT

/-- `S` moves every point to within `e` of where `T` moves it, for points far away to within `e` times their distance. -/
def Close (e : ℝ) (S T : Iso) : Prop := ∀ q : V3, (S.apply q - T.apply q).norm ≤ e * (1 + q.norm)

/-- Both coordinates of the measured pixels are within `noise` of the true ones. -/
def PixelNoise {α : Type} (noise : ℝ) (l : List α) (measured true : α → V2) : Prop :=
  ∀ a ∈ l, |(measured a).x - (true a).x| ≤ noise ∧ |(measured a).y - (true a).y| ≤ noise

/-- Two observations with the same poses of the mounts and the same features; the measurements may differ. -/
def SameSetup (a b : Obs Corr2) : Prop :=
  a.toCameraMount = b.toCameraMount ∧ a.toTargetMount = b.toTargetMount ∧
    a.corrs.map (fun k => k.inTarget) = b.corrs.map fun k => k.inTarget

end RCT.Spec
