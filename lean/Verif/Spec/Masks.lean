import Mathlib.Data.List.Basic

/-!
# Specification vocabulary for masks
-/

namespace RCT.Spec

/-- The cells of a table with `rows` rows and 4 columns in the order in which a column-major matrix stores them. -/
def colMajorCells (rows : Nat) : List (Nat × Fin 4) :=
  (List.finRange 4).flatMap fun c => (List.range rows).map fun r => (r, c)

end RCT.Spec
