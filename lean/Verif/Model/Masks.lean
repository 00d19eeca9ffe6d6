import Verif.Core.Std
import Verif.Core.Vec
import Mathlib.Data.List.Sort
import Mathlib.Analysis.SpecialFunctions.Trigonometric.Basic

/-!
# Masks, subset parameterizations and the quaternion plus operation

Model of `rct_optimizations/include/rct_optimizations/local_parameterization.h` and of `createDHMask` /
the DH part of `constructParameterLabels` in `dh_chain_kinematic_calibration.h`.
-/

namespace RCT

/-- A parameter block of a `ceres::Problem`: its address, size and what is held constant.
`constant` is set by `SetParameterBlockConstant`, `subset` by `SetParameterization(SubsetParameterization)`. -/
structure Block where
  addr : Nat
  size : Nat
  constant : Bool := false
  subset : Option (List Int) := none
deriving DecidableEq, Repr

/-- Element `k` of the block is not changed by the solver. -/
def Block.Held (b : Block) (k : Nat) : Prop :=
  b.constant = true ∨ ∃ s, b.subset = some s ∧ (k : Int) ∈ s

/-- `std::unique` + `erase` on a vector of `int` (`local_parameterization.h` 109-110): one of each run of equal
neighbours is kept. -/
def unique : List Int → List Int
  | [] => []
  | [a] => [a]
  | a :: b :: l => if a = b then unique (b :: l) else a :: unique (b :: l)

/-- `std::sort`, `std::unique`, `erase` (`local_parameterization.h` 108-110). -/
def sortUnique (l : List Int) : List Int := unique (l.insertionSort (· ≤ ·))

/-- `*std::max_element(begin, end)` of a non-empty vector (`local_parameterization.h` 113). -/
def maxElement : List Int → Int
  | [] => 0
  | a :: l => l.foldl max a

/-- The fatal checks in the constructor of `ceres::SubsetParameterization(size, constant)`: indices must be in
`[0, size)` and distinct. -/
def subsetOk (size : Nat) (mask : List Int) : Bool :=
  mask.all (fun i => decide (0 ≤ i) && decide (i < (size : Int))) && decide mask.Nodup

/-- Loop body of `addSubsetParameterization` for one block (`local_parameterization.h` 97-134).
Returns the new block and how the body ended. -/
def maskBlock (masks : SMap Nat (List Int)) (b : Block) : Block × Res Unit :=
  match masks.find b.addr with
  | none => (b, .ok ())
  | some m =>
    if m.length > 0 then
      let mask := sortUnique m
      if toSizeT (maxElement mask) ≥ b.size then (b, .throw .optimization)
      else if mask.length ≥ b.size then ({ b with constant := true }, .ok ())
      else if subsetOk b.size mask then ({ b with subset := some mask }, .ok ())
      else (b, .abort)
    else (b, .ok ())

/-- The loop over the blocks (97-134): blocks behind the one that failed are not visited. -/
def maskLoop (masks : SMap Nat (List Int)) : List Block → List Block × Res Unit
  | [] => ([], .ok ())
  | b :: bs =>
    match maskBlock masks b with
    | (b', .ok ()) => let r := maskLoop masks bs; (b' :: r.1, r.2)
    | (b', e) => (b' :: bs, e)

/-- `addSubsetParameterization` (`local_parameterization.h` 88-135): state of the problem afterwards, and whether the
call returned or threw. -/
def addSubsetParameterization (blocks : List Block) (masks : SMap Nat (List Int)) : List Block × Res Unit :=
  if masks.isEmpty then (blocks, .ok ()) else maskLoop masks blocks

/-- `createDHMask` (`dh_chain_kinematic_calibration.h` 17-35); `rows` joints, four columns. -/
def createDHMask (rows : Nat) (mask : Nat → Nat → Bool) : List Nat :=
  (List.range rows).flatMap fun row => (List.range 4).flatMap fun col =>
    if mask row col then [rows * col + row] else []

/-- The concatenated labels of a DH block, `constructParameterLabels`
(`dh_chain_kinematic_calibration.h` 200-205 and 209-214): for each of the four columns, the label of every joint. -/
def concatLabels (labels : List (Fin 4 → String)) : List String :=
  (List.finRange 4).flatMap fun c => labels.map fun l => l c

/-- `EigenQuaternionPlus::operator()` (`local_parameterization.h` 54-76). -/
noncomputable def quaternionPlus (x : Quat) (d : V3) : Quat :=
  let n := Real.sqrt (d.x * d.x + d.y * d.y + d.z * d.z)
  let qd : Quat :=
    if n > 0 then
      let s := Real.sin n / n
      ⟨Real.cos n, s * d.x, s * d.y, s * d.z⟩
    else ⟨1, d.x, d.y, d.z⟩
  qd * x

end RCT
