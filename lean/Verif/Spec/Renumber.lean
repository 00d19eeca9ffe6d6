import Verif.Spec.Order
import Mathlib.Logic.Equiv.Basic

/-!
# Lists with another numbering
-/

namespace RCT.Spec

/-- The element with the number `i` of `l'` is the one with the number `σ i` of `l`. -/
def Renumbered {α : Type} (σ : Equiv.Perm Nat) (l l' : List α) : Prop := l'.length = l.length ∧ ∀ i : Nat, l'[i]? = l[σ i]?

end RCT.Spec
