import Verif.Model.HandEye
import Verif.Core.Std
import Mathlib.Data.Fin.VecNotation
import Mathlib.Algebra.BigOperators.Fin

/-!
# Homography check

Models `rct_optimizations/src/rct_optimizations/validation/homography_validation.cpp` and
`rct_optimizations/include/rct_optimizations/validation/homography_validation.h`.
A sampler (an object of a class derived from `CorrespondenceSampler`) is the outcome of its only method.
The random numbers of `std::uniform_int_distribution` and the result of `Eigen::FullPivLU::solve` are parameters.
-/

namespace RCT

/-- `GridCorrespondenceSampler::getSampleCorrespondenceIndices` (`homography_validation.cpp` 14-42) for the members set
by the constructor (7-12). -/
def gridSampler (rows cols stride : Nat) : Res (List Nat) :=
  let nSamples := 4
  if szMul rows cols / 2 < nSamples then .throw .runtimeError
  else
    let upperLeft := 0
    let upperRight := szMul (szSub cols 1) stride
    let lowerLeft := szMul (szSub rows 1) (szMul cols stride)
    let lowerRight := szSub (szMul (szMul rows cols) stride) stride
    .ok [upperLeft, upperRight, lowerLeft, lowerRight]

/-- A constructed `RandomCorrespondenceSampler` (`homography_validation.h`); the seed is represented by the stream of
draws below. -/
structure RandomSampler where
  nCorrespondences : Nat
  nSamples : Nat

/-- The constructor (`homography_validation.cpp` 44-62). -/
def RandomSampler.make (nCorrespondences nSamples : Nat) : Res RandomSampler :=
  let minSamples := 4
  if nSamples < minSamples then .throw .runtimeError
  else if nSamples > nCorrespondences then .throw .runtimeError
  else .ok ⟨nCorrespondences, nSamples⟩

/-- `std::uniform_int_distribution<std::size_t> dist(a, b)` with a generator: `draw a b k` is the `k`-th number. -/
abbrev UniformInt := Nat → Nat → Nat → Nat

/-- Contract of the distribution: numbers of the closed interval. -/
def UniformInt.WF (draw : UniformInt) : Prop := ∀ a b k, a ≤ b → a ≤ draw a b k ∧ draw a b k ≤ b

/-- `RandomCorrespondenceSampler::getSampleCorrespondenceIndices` (`homography_validation.cpp` 64-76). -/
def RandomSampler.sample (draw : UniformInt) (s : RandomSampler) : Res (List Nat) :=
  .ok ((List.range s.nSamples).map fun k => draw 0 (szSub s.nCorrespondences 1) k)

/-- One row of the linear system with its right hand side. -/
abbrev LinRow := (Fin 8 → ℝ) × ℝ

/-- `A.fullPivLu().solve(b)`. -/
abbrev LuSolve := List LinRow → Fin 8 → ℝ

/-- The vector solves the system. -/
def Solves (sys : List LinRow) (h : Fin 8 → ℝ) : Prop := ∀ e ∈ sys, ∑ j, e.1 j * h j = e.2

/-- Contract of the solver in exact arithmetic: the result is a solution if there is one. -/
def LuSolve.WF (solve : LuSolve) : Prop := ∀ sys, (∃ h, Solves sys h) → Solves sys (solve sys)

/-- The two rows of a sampled correspondence (`homography_validation.cpp` 137-144). -/
def homographyRows (c : Corr2) : List LinRow :=
  let x := c.inTarget.x
  let y := c.inTarget.y
  let u := c.inImage.x
  let v := c.inImage.y
  [(![-x, -y, -1, 0, 0, 0, u * x, u * y], -1 * u), (![0, 0, 0, -x, -y, -1, v * x, v * y], -1 * v)]

/-- The row-major matrix with the first eight values replaced and the last one 1 (`homography_validation.cpp` 148-154). -/
def homographyMatrix (h : Fin 8 → ℝ) : M3 := ⟨h 0, h 1, h 2, h 3, h 4, h 5, h 6, h 7, 1⟩

/-- The error of one correspondence (`homography_validation.cpp` 160-174). -/
noncomputable def homographyResidual (H : M3) (c : Corr2) : ℝ :=
  let ki := 1 / (H.m20 * c.inTarget.x + H.m21 * c.inTarget.y + 1)
  let xy : V3 := ⟨c.inTarget.x, c.inTarget.y, 1⟩
  let kH : M3 := ⟨ki * H.m00, ki * H.m01, ki * H.m02, ki * H.m10, ki * H.m11, ki * H.m12, ki * H.m20, ki * H.m21, ki * H.m22⟩
  let est := kH.mulVec xy
  (c.inImage - (⟨est.x, est.y⟩ : V2)).norm

/-- `calculateHomographyError(const Correspondence2D3D::Set&, const CorrespondenceSampler&)`
(`homography_validation.cpp` 78-178). -/
noncomputable def homographyError (solve : LuSolve) (corrs : List Corr2) (sampler : Res (List Nat)) : Res (List ℝ) :=
  sampler.bind fun idx =>
    if corrs.length < 2 * idx.length then .throw .runtimeError
    else
      (Res.mapList (fun i => (Res.atList corrs i).bind fun c => .ok (homographyRows c)) idx).bind fun rows =>
        let H := homographyMatrix (solve rows.flatten)
        .ok (corrs.map (homographyResidual H))

/-- `calculateHomographyError(const Correspondence3D3D::Set&, const CorrespondenceSampler&)`
(`homography_validation.cpp` 180-209). Division by a zero depth is outside the model. -/
noncomputable def homographyError3 (solve : LuSolve) (corrs : List Corr3) (sampler : Res (List Nat)) : Res (List ℝ) :=
  let zs := corrs.map fun c => c.inImage.z
  let flat := corrs.map fun c : Corr3 =>
    (⟨⟨c.inImage.x / c.inImage.z, c.inImage.y / c.inImage.z⟩, c.inTarget⟩ : Corr2)
  (homographyError solve flat sampler).bind fun e => .ok (List.zipWith (· * ·) e zs)

end RCT
