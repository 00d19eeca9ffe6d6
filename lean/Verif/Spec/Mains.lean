import Verif.Model.Mains
import Verif.Spec.Tools
import Verif.Spec.Loaders

/-!
# Specification of the tools as programs
-/

namespace RCT.Spec

open RCT

variable {Img : Type}

/-- Parameters hold no members without a value (the parameter server does not store such members). -/
def ProperParams (param : String → Option XVal) : Prop := ∀ name xml, param name = some xml → ∀ k, xml.member k ≠ some .invalid

/-- The parameter is the number `x`. -/
def NumberParam (v : Option XVal) (x : ℝ) : Prop := v = some (.double x) ∨ ∃ i : Int, v = some (.int i) ∧ x = i

/-- The parameter has the intrinsic parameters `i` as members. -/
def IntrinsicsParam (v : Option XVal) (i : Intr) : Prop :=
  ∃ xml, v = some xml ∧ HasDouble xml "fx" i.fx ∧ HasDouble xml "fy" i.fy ∧ HasDouble xml "cx" i.cx ∧ HasDouble xml "cy" i.cy

/-- The parameter has position and quaternion of `T` as members; the quaternion is normalised, a zero quaternion is no
rotation. -/
def PoseParam (v : Option XVal) (T : Iso) : Prop :=
  ∃ xml, ∃ q : Quat, v = some xml ∧ (HasDouble xml "x" T.t.x ∧ HasDouble xml "y" T.t.y ∧ HasDouble xml "z" T.t.z) ∧
    (HasDouble xml "qw" q.w ∧ HasDouble xml "qx" q.x ∧ HasDouble xml "qy" q.y ∧ HasDouble xml "qz" q.z) ∧
    (q.normSq = 0 → T.R = 1) ∧
    (q.normSq ≠ 0 → T.R = (⟨q.w / Real.sqrt q.normSq, q.x / Real.sqrt q.normSq, q.y / Real.sqrt q.normSq,
      q.z / Real.sqrt q.normSq⟩ : Quat).toMat)

/-- The parameter `target_finder` names the plugin that makes the finder `F` from it. -/
def FinderParam (W : ToolWorld Img) (F : Finder Img) : Prop :=
  ∃ l type init y, W.param "target_finder" = some (.struct l) ∧ l.lookup "type" = some (.string type) ∧
    W.plugin type = some init ∧ toYAML W.printer (.struct l) = .ok y ∧ init y = .ok F

/-- The parameter names a data set that can be read. -/
def DataParam (W : ToolWorld Img) (v : Option XVal) (d : DataSet Img) : Prop :=
  ∃ path, v = some (.string path) ∧ parseFromFile W.codec W.fs path = .ok (some d)

/-- The parameters hold no rotation, or one that is large enough to be computed exactly. -/
def PlainPose (p : Pose6) : Prop := p.rot = 0 ∨ p.rot.normSq > 1 / 2 ^ 52

/-- The solver started with such poses ends with such poses. -/
def KeepsPlain (s : Ceres Pose6) : Prop := ∀ pb st, (∀ a, PlainPose (st a)) → ∀ a, PlainPose (s.solve pb st a)

/-- What an extrinsic tool for one camera is started with; `camera` and `target` are the names of the guesses. -/
structure ExtrinsicSetup (W : ToolWorld Img) (camera target : String) (threshold : ℝ) (intr : Intr) (d : DataSet Img)
    (F : Finder Img) (X Y : Iso) : Prop where
  threshold : NumberParam (W.param "homography_threshold") threshold
  intrinsics : IntrinsicsParam (W.param "intrinsics") intr
  data : DataParam W (W.param "data_path") d
  finder : FinderParam W F
  camera : PoseParam (W.param camera) X
  target : PoseParam (W.param target) Y

/-- The report shows the result `r` of the optimisation: costs as square roots, both transforms, and the correlations above
one half. -/
structure Reports (rep : HandEyeReport) (r : HandEyeResult) : Prop where
  converged : rep.opt.converged = r.converged
  initial : rep.opt.initial = r.initialCost.map Real.sqrt
  final : rep.opt.final = r.finalCost.map Real.sqrt
  camera : rep.camera = printTransform r.cameraMountToCamera
  target : rep.target = printTransform r.targetMountToTarget
  correlations : ∀ c, c ∈ rep.correlations ↔ c ∈ r.covariance.correlation_coeffs ∧ 1 / 2 < |c.value|

/-- The call returns or throws an exception: the process is neither ended nor does it do anything undefined. -/
def Orderly {α : Type} (r : Res α) : Prop := (∃ a, r = .ok a) ∨ ∃ e, r = .throw e

/-- The finder made by a plugin only returns or throws, and it makes fewer than 2^64 correspondences. -/
structure OrderlyFinder (F : Finder Img) : Prop where
  find : ∀ m, Orderly (F.find m)
  create : ∀ fs, Orderly (F.create fs)
  draw : ∀ m fs, Orderly (F.draw m fs)
  size : ∀ fs cs, F.create fs = .ok cs → cs.length < 2 ^ 64

/-- All plugins are orderly and all random numbers are in range. -/
structure OrderlyWorld (W : ToolWorld Img) : Prop where
  init : ∀ type init y, W.plugin type = some init → Orderly (init y)
  finder : ∀ type init y F, W.plugin type = some init → init y = .ok F → OrderlyFinder F
  draws : ∀ i, (W.draws i).WF

/-- The covariance computation of ceres reports success or failure for every list of different blocks of the problem, which
are listed without repetition. -/
structure OrderlyCeres {β : Type} (s : Ceres β) : Prop where
  order_perm : ∀ pb, (s.order pb).Perm (usedBlocks pb)
  compute : ∀ pb st l, l.Nodup → (∀ a ∈ l, a ∈ usedBlocks pb) → ∃ b, s.covCompute pb st l = .ok b

/-- Reading the parameter `target_finder` raises an exception of XmlRpc: it is not a struct, its `type` is not a text, or
converting it to YAML casts or indexes wrongly. -/
def FinderCrash (W : ToolWorld Img) : Prop :=
  ∃ v, W.param "target_finder" = some v ∧ v ≠ .invalid ∧ ((∀ l, v ≠ .struct l) ∨
    ∃ l, v = .struct l ∧ ((∃ u, l.lookup "type" = some u ∧ u ≠ .invalid ∧ ∀ s, u ≠ .string s) ∨
      ∃ type init, l.lookup "type" = some (.string type) ∧ W.plugin type = some init ∧ toYAML W.printer v = .throw .other))

end RCT.Spec
