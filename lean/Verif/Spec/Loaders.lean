import Verif.Model.Loaders

/-!
# Specification of the parameter loaders
-/

namespace RCT.Spec

open RCT

/-- The value below `v` with the given path of member names. -/
def xAt : List String → XVal → Option XVal
  | [], v => some v
  | k :: p, .struct l => (l.lookup k).bind (xAt p)
  | _ :: _, _ => none

/-- The node below `n` with the given path of keys, `n["a"]["b"]…`. -/
def yAt : List String → Yaml → Option Yaml
  | [], n => some n
  | k :: p, .map l => (l.lookup k).bind (yAt p)
  | _ :: _, _ => none

/-- The keys of a node; a node to which no key was ever assigned is null. -/
def yKeys : Yaml → List String
  | .map l => l.map Prod.fst
  | _ => []

/-- The node reads as the scalar. -/
def SameScalar : XVal → Yaml → Prop
  | .bool b, n => n.asBool = .ok b
  | .int i, n => n.asReal = .ok (i : ℝ)
  | .double x, n => n.asReal = .ok x
  | .string s, n => n.asString = .ok s
  | _, _ => False

/-- The node has the keys of the struct (null if there are none), the elements of the array, or the value. -/
def SameNode : XVal → Yaml → Prop
  | .struct l, n => yKeys n = l.map Prod.fst ∧ (n = .null ↔ l = [])
  | .array l, n => ∃ ns, n = .seq ns ∧ List.Forall₂ SameScalar l ns
  | v, n => SameScalar v n

def isScalar : XVal → Bool
  | .bool _ | .int _ | .double _ | .string _ => true
  | _ => false

/-- A supported value apart from its members: a struct, a scalar, or a non-empty array of scalars of one type. -/
def SupportedNode : XVal → Prop
  | .struct _ => True
  | .array l => l ≠ [] ∧ (∀ v ∈ l, isScalar v = true) ∧ ∀ v ∈ l, ∀ w ∈ l, v.type = w.type
  | v => isScalar v = true

/-- The members of structs are a `std::map`: no name occurs twice. -/
def ProperStructs (v : XVal) : Prop := ∀ p l, xAt p v = some (.struct l) → (l.map Prod.fst).Nodup

/-- The member `k` of the parameter is the double `x`. -/
def HasDouble (v : XVal) (k : String) (x : ℝ) : Prop := ∃ l, v = .struct l ∧ l.lookup k = some (.double x)

end RCT.Spec
