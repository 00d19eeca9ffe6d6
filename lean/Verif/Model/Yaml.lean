import Verif.Core.Res
import Mathlib.Data.Real.Basic

/-!
# YAML nodes

The part of yaml-cpp (version 0.6) that the code uses. A scalar is its text together with the results of the conversions
of that text; how a number is printed is a parameter (`YamlPrinter`) whose contract is that reading a printed number gives
the number back (yaml-cpp prints 17 significant digits). Exceptions of yaml-cpp are all derived from `YAML::Exception`
(`Exc.yaml`). Looking up a key returns the first entry with that key.
-/

namespace RCT

/-- A scalar: `num` is the result of `as<double>` (`some none` is NaN), `uns` of `as<unsigned>`, `bool` of `as<bool>`;
`none` is a failed conversion. -/
structure YScalar where
  text : String
  num : Option (Option ℝ)
  uns : Option Nat
  bool : Option Bool

inductive Yaml where
  | null
  | scalar (s : YScalar)
  | seq (l : List Yaml)
  | map (l : List (String × Yaml))

namespace Yaml

/-- `node.size()` -/
def size : Yaml → Nat
  | null => 0
  | scalar _ => 0
  | seq l => l.length
  | map l => l.length

/-- `node[key]` of a constant node; `none` is the invalid node of a missing key. -/
def key (n : Yaml) (k : String) : Res (Option Yaml) :=
  match n with
  | map l => .ok (l.lookup k)
  | scalar _ => .throw .yaml
  | null => .ok none
  | seq _ => .ok none

/-- `node[i]` of a constant node. -/
def idx (n : Yaml) (i : Nat) : Res (Option Yaml) :=
  match n with
  | map l => .ok (l.lookup (toString i))
  | scalar _ => .throw .yaml
  | null => .ok none
  | seq l => .ok l[i]?

/-- `node.as<T>()` where `node` may be an invalid node. -/
def asNode {α : Type} (dec : Yaml → Res α) : Option Yaml → Res α
  | some n => dec n
  | none => .throw .yaml

/-- `node[key].as<T>()` -/
def field {α : Type} (n : Yaml) (k : String) (dec : Yaml → Res α) : Res α := (n.key k).bind (asNode dec)

/-- `node.as<double>()` with NaN as `none`. -/
def asRealN : Yaml → Res (Option ℝ)
  | scalar s => match s.num with
    | some x => .ok x
    | none => .throw .yaml
  | _ => .throw .yaml

/-- `node.as<double>()`; documents with NaN coordinates are outside the model (shown as an exception). -/
def asReal (n : Yaml) : Res ℝ :=
  n.asRealN.bind fun x => match x with
    | some x => .ok x
    | none => .throw .yaml

/-- `node.as<unsigned>()` -/
def asUnsigned : Yaml → Res Nat
  | scalar s => match s.uns with
    | some x => .ok x
    | none => .throw .yaml
  | _ => .throw .yaml

/-- `node.as<bool>()` -/
def asBool : Yaml → Res Bool
  | scalar s => match s.bool with
    | some x => .ok x
    | none => .throw .yaml
  | _ => .throw .yaml

/-- `node.as<std::string>()` -/
def asString : Yaml → Res String
  | scalar s => .ok s.text
  | _ => .throw .yaml

/-- `node.as<std::vector<T>>()` -/
def asVector {α : Type} (dec : Yaml → Res α) : Yaml → Res (List α)
  | seq l => Res.mapList dec l
  | _ => .throw .yaml

end Yaml

/-- How numbers and truth values are written. -/
structure YamlPrinter where
  real : Option ℝ → YScalar
  bool : Bool → YScalar

/-- Reading a written value gives the value back. -/
structure YamlPrinter.WF (P : YamlPrinter) : Prop where
  real : ∀ x, (P.real x).num = some x
  bool : ∀ b, (P.bool b).bool = some b

namespace YamlPrinter
/-- `node[key] = double` -/
def num (P : YamlPrinter) (x : ℝ) : Yaml := .scalar (P.real (some x))

theorem WF.asReal {P : YamlPrinter} (h : P.WF) (x : ℝ) : (P.num x).asReal = .ok x := by
  simp [num, Yaml.asReal, Yaml.asRealN, h.real]

theorem WF.asRealN {P : YamlPrinter} (h : P.WF) (x : Option ℝ) : (Yaml.scalar (P.real x)).asRealN = .ok x := by
  simp [Yaml.asRealN, h.real]

theorem WF.asBool {P : YamlPrinter} (h : P.WF) (b : Bool) : (Yaml.scalar (P.bool b)).asBool = .ok b := by
  simp [Yaml.asBool, h.bool]
end YamlPrinter

end RCT
