import Verif.Lemmas.Rank

/-!
# A solver that reports singular Jacobians
-/

namespace RCT

open Spec

/-- A solver that keeps the initial values and reports failure of the covariance computation exactly for singular Jacobians. -/
noncomputable def rankCeres {β : Type} (el : β → Nat → ℝ) (size : Nat → Nat) (regular : (Nat → β) → Prop) : Ceres β :=
  { idCeres β with
    covCompute := fun pb st l => .ok (@decide (¬ (l.Perm (usedBlocks pb) ∧ regular st ∧ Singular el size pb st)) (Classical.dec _)) }

theorem rankCeres_wf {β : Type} (el : β → Nat → ℝ) (size : Nat → Nat) (regular : (Nat → β) → Prop) :
    (rankCeres el size regular).WF :=
  ⟨fun _ _ _ _ => rfl, fun _ _ => le_refl _, fun _ => List.Perm.refl _, fun _ _ _ _ h => by cases h⟩

theorem rankCeres_rejects {β : Type} (el : β → Nat → ℝ) (size : Nat → Nat) (regular : (Nat → β) → Prop) :
    RejectsSingular (rankCeres el size regular) el size regular := by
  intro pb st l h1 h2 h3
  have : ¬ ¬ (l.Perm (usedBlocks pb) ∧ regular st ∧ Singular el size pb st) := not_not.2 ⟨h1, h2, h3⟩
  exact congrArg Res.ok (@decide_eq_false _ (Classical.dec _) this)

end RCT
