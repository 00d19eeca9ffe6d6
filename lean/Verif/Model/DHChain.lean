import Verif.Core.Res
import Verif.Model.Pose

/-!
# DH chains

Models `rct_optimizations/include/rct_optimizations/dh_chain.h` and
`rct_optimizations/src/rct_optimizations/dh_chain.cpp` (`T = double`).
-/

namespace RCT

/-- `dh_chain.h` 23-27. Simplification: only the two enumerators exist (a value outside the enumeration, obtainable by a
cast, reaches the `default:` branch of line 82 and throws). -/
inductive JointType where
  | linear
  | revolute
deriving DecidableEq, Repr

/-- One row of DH parameters or offsets: `[d, theta, r, alpha]`. -/
@[ext] structure V4 where
  d : ℝ
  theta : ℝ
  r : ℝ
  alpha : ℝ

namespace V4
instance : Zero V4 := ⟨⟨0, 0, 0, 0⟩⟩
instance : Add V4 := ⟨fun a b => ⟨a.d + b.d, a.theta + b.theta, a.r + b.r, a.alpha + b.alpha⟩⟩
@[simp] theorem zero_def : (0 : V4) = ⟨0, 0, 0, 0⟩ := rfl
@[simp] theorem add_def (a b : V4) : a + b = ⟨a.d + b.d, a.theta + b.theta, a.r + b.r, a.alpha + b.alpha⟩ := rfl
end V4

/-- `dh_chain.h` 52-133, the data of `DHTransform`. -/
structure DHTransform where
  params : V4
  type : JointType
  min : ℝ
  max : ℝ
  name : String
  seed : Nat

/-- `dh_chain.cpp` 18-24: the constructor with name and seed; limits from `dh_chain.h` 122-124. -/
noncomputable def DHTransform.mk4 (params : V4) (type : JointType) (name : String) (seed : Nat) : DHTransform :=
  ⟨params, type, -Real.pi, Real.pi, name, seed⟩

/-- `dh_chain.cpp` 8-11: the constructor without name; `rd` is the value drawn from `std::random_device`. -/
noncomputable def DHTransform.mk2 (params : V4) (type : JointType) (rd : Nat) : DHTransform :=
  DHTransform.mk4 params type "joint" rd

/-- `transform *= Eigen::Translation(v)`. -/
def Iso.translateBy (T : Iso) (v : V3) : Iso := T * ⟨1, v⟩

/-- `transform.rotate(AngleAxis)`. -/
noncomputable def Iso.rotateBy (T : Iso) (a : AngleAxis) : Iso := T * ⟨a.toMat, 0⟩

/-- `dh_chain.h` 64-93. -/
noncomputable def DHTransform.relative (t : DHTransform) (joint : ℝ) (off : V4) : Iso :=
  let u := t.params + off
  let u := match t.type with
    | .linear => { u with d := u.d + joint }
    | .revolute => { u with theta := u.theta + joint }
  let T : Iso := 1
  let T := T.translateBy ⟨0, 0, u.d⟩
  let T := T.rotateBy ⟨u.theta, ⟨0, 0, 1⟩⟩
  let T := T.translateBy ⟨u.r, 0, 0⟩
  T.rotateBy ⟨u.alpha, ⟨1, 0, 0⟩⟩

/-- `dh_chain.h` 101-106. -/
noncomputable def DHTransform.relative0 (t : DHTransform) (joint : ℝ) : Iso := t.relative joint 0

/-- `dh_chain.cpp` 37-45. -/
def DHTransform.paramLabels (t : DHTransform) : List String :=
  [t.name ++ "_d", t.name ++ "_theta", t.name ++ "_r", t.name ++ "_alpha"]

/-- `dh_chain.h` 138-252. -/
structure DHChain where
  transforms : List DHTransform
  base : Iso

namespace DHChain

/-- `dh_chain.cpp` 76. -/
def dof (c : DHChain) : Nat := c.transforms.length

/-- The loop of `dh_chain.h` 187-191, from index `i` on; `offsets.row(i)` outside the matrix is undefined,
`transforms_.at(i)` throws. -/
noncomputable def fkLoop (ts : List DHTransform) (offs : List V4) : Nat → List ℝ → Iso → Res Iso
  | _, [], T => .ok T
  | i, q :: qs, T =>
    (Res.idxList offs i).bind fun o =>
    (Res.atList ts i).bind fun t =>
    fkLoop ts offs (i + 1) qs (T * t.relative q o)

/-- `dh_chain.h` 168-193: forward kinematics with offsets (a table with one row of four per list element). -/
noncomputable def getFK (c : DHChain) (q : List ℝ) (offs : List V4) : Res Iso :=
  if q.length > c.dof then .throw .runtimeError
  else if q.length > offs.length then .throw .runtimeError
  else fkLoop c.transforms offs 0 q c.base

/-- `dh_chain.h` 152-157: forward kinematics with a zero offset table of `dof()` rows. -/
noncomputable def getFK0 (c : DHChain) (q : List ℝ) : Res Iso := c.getFK q (List.replicate c.dof 0)

/-- The loop of `dh_chain.cpp` 57-61, from index `i` on; `rd` are the `std::random_device` values. -/
noncomputable def offsetLoop (offs : List V4) (rd : Nat → Nat) : Nat → List DHTransform → Res (List DHTransform)
  | _, [] => .ok []
  | i, t :: ts =>
    (Res.idxList offs i).bind fun o =>
    (offsetLoop offs rd (i + 1) ts).bind fun rest =>
    .ok (DHTransform.mk2 (t.params + o) t.type (rd i) :: rest)

/-- `dh_chain.cpp` 54-64: `DHChain(other, dh_offsets)`. -/
noncomputable def withOffsets (c : DHChain) (offs : List V4) (rd : Nat → Nat) : Res DHChain :=
  (offsetLoop offs rd 0 c.transforms).bind fun ts => .ok ⟨ts, c.base⟩

/-- `dh_chain.cpp` 78-86. -/
def getDHTable (c : DHChain) : List V4 := c.transforms.map (·.params)

/-- `dh_chain.cpp` 88-97. -/
def getJointTypes (c : DHChain) : List JointType := c.transforms.map (·.type)

/-- `dh_chain.cpp` 99-107. -/
def getParamLabels (c : DHChain) : List (List String) := c.transforms.map (·.paramLabels)

/-- `dh_chain.cpp` 109. -/
def getBaseOffset (c : DHChain) : Iso := c.base

/-- `dh_chain.cpp` 111-117. Simplification: `static_cast<int>(size)` is exact (fewer than 2^31 joints). -/
noncomputable def getRelativeTransform (c : DHChain) (idx : Int) (v : ℝ) : Res Iso :=
  if idx < 0 ∨ idx ≥ c.transforms.length then .throw .runtimeError
  else (Res.idxList c.transforms idx.toNat).bind fun t => .ok (t.relative0 v)

end DHChain

/-- A pseudo random engine with a uniform real distribution: `std::mt19937` and `std::uniform_real_distribution`. The
engine is a parameter of the model. -/
structure Engine where
  St : Type
  seed : Nat → St
  draw : St → ℝ → ℝ → ℝ × St

/-- The contract of `std::uniform_real_distribution(min, max)`: values between the bounds when these are ordered. -/
def Engine.InRange (E : Engine) : Prop := ∀ s lo hi, lo ≤ hi → lo ≤ (E.draw s lo hi).1 ∧ (E.draw s lo hi).1 ≤ hi

/-- `dh_chain.cpp` 26-35. The function-local `static` engine is shared by all joints of the process: the state is `none`
until the first call, which seeds it with that caller's seed. -/
def DHTransform.createRandomJointValue (E : Engine) (t : DHTransform) (s : Option E.St) : ℝ × Option E.St :=
  let e := match s with
    | some e => e
    | none => E.seed t.seed
  let r := E.draw e t.min t.max
  (r.1, some r.2)

/-- Calls of `createRandomJointValue` in the given order. -/
def sampleAll (E : Engine) : List DHTransform → Option E.St → List ℝ × Option E.St
  | [], s => ([], s)
  | t :: ts, s =>
    let r := t.createRandomJointValue E s
    let rest := sampleAll E ts r.2
    (r.1 :: rest.1, rest.2)

/-- `dh_chain.cpp` 66-74. -/
def DHChain.createUniformlyRandomPose (E : Engine) (c : DHChain) (s : Option E.St) : List ℝ × Option E.St :=
  sampleAll E c.transforms s

end RCT
