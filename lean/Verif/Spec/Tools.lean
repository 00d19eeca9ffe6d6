import Verif.Model.Tools
import Verif.Spec.DataSet

/-!
# Specification of the calibration tools
-/

namespace RCT.Spec

open RCT

variable {Img : Type}

/-- `as` are the items of exactly those numbers `j` below `n` that have one, in order: `js` are these numbers, ascending. -/
def SelectedAt {A : Type} (n : Nat) (P : Nat → A → Prop) (js : List Nat) (as : List A) : Prop :=
  js.Pairwise (· < ·) ∧ (∀ j, j ∈ js ↔ j < n ∧ ∃ a, P j a) ∧ List.Forall₂ P js as

/-- Image number `i` is accepted: the target is found, correspondences are made and the check passes. -/
def ImageAccepted (E : ToolEnv Img) (i : Nat) (m : Img) (cs : List Corr2) : Prop :=
  ∃ fs, E.find m = .ok fs ∧ fs ≠ [] ∧ E.create fs = .ok cs ∧ E.check i cs = .ok ()

/-- Image number `i` of the data set is accepted and gives the observation `e.1` of a camera on the wrist, with the wrist
pose of the same image. -/
def WristItem (E : ToolEnv Img) (d : DataSet Img) (i : Nat) (e : Obs Corr2 × Img) : Prop :=
  d.images[i]? = some e.2 ∧ ImageAccepted E i e.2 e.1.corrs ∧ d.poses[i]? = some e.1.toCameraMount ∧ e.1.toTargetMount = 1

/-- The same for a static camera. -/
def StaticItem (E : ToolEnv Img) (d : DataSet Img) (i : Nat) (e : Obs Corr2 × Img) : Prop :=
  d.images[i]? = some e.2 ∧ ImageAccepted E i e.2 e.1.corrs ∧ d.poses[i]? = some e.1.toTargetMount ∧ e.1.toCameraMount = 1

/-- A call that returns or throws an exception derived from `std::runtime_error`. -/
def ReturnsOrRuntime {α : Type} (r : Res α) : Prop := (∃ a, r = .ok a) ∨ ∃ e, RuntimeKind e ∧ r = .throw e

/-- All cameras saw the target in image `i`. -/
def SeenByAll (s : CorrDataSet) (i : Nat) : Prop := ∀ c, c < s.rows → s.mask c i = 1

/-- All flags are 0 or 1 (the case for every table that was completely filled, see C80). -/
def ProperFlags (s : CorrDataSet) : Prop := ∀ c i, c < s.rows → i < s.cols → s.mask c i = 0 ∨ s.mask c i = 1

/-- Image `i` was seen by all cameras; `e` is the pose recorded with it for the first camera and, for every camera, the
correspondences found in it. -/
def SharedItem (s : CorrDataSet) (first : DataSet Img) (i : Nat) (e : Iso × List (List Corr2)) : Prop :=
  SeenByAll s i ∧ first.poses[i]? = some e.1 ∧ e.2.length = s.rows ∧ ∀ c, c < s.rows → e.2[c]? = some (s.corr c i)

/-- The problem that belongs to image `i` of the list. -/
def NoiseItem (E : ToolEnv Img) (read : String → Img) (names : List String) (i : Nat) (cs : List Corr2) : Prop :=
  ∃ name fs, names[i]? = some name ∧ E.find (read name) = .ok fs ∧ fs ≠ [] ∧ E.draw (read name) fs = .ok () ∧ E.create fs = .ok cs

/-- Image `i` is usable for the validation of the intrinsic parameters: the target is found and can be drawn. -/
def ValidationItem (E : ToolEnv Img) (d : DataSet Img) (i : Nat) (o : Obs Corr2) : Prop :=
  ∃ m fs, d.images[i]? = some m ∧ E.find m = .ok fs ∧ fs ≠ [] ∧ E.draw m fs = .ok () ∧ E.create fs = .ok o.corrs ∧
    d.poses[i]? = some o.toCameraMount ∧ o.toTargetMount = 1

/-- Image `i` is usable for intrinsic calibration. -/
def IntrinsicItem (E : ToolEnv Img) (images : List Img) (i : Nat) (cs : List Corr2) : Prop :=
  ∃ m fs, images[i]? = some m ∧ E.find m = .ok fs ∧ fs ≠ [] ∧ E.create fs = .ok cs

/-- Camera `c` saw the target in image `i`; `e` is the pose recorded with this image and the correspondences found in it. -/
def CameraItem (s : CorrDataSet) (ds : DataSet Img) (c i : Nat) (e : Iso × List Corr2) : Prop :=
  s.mask c i = 1 ∧ ds.poses[i]? = some e.1 ∧ e.2 = s.corr c i

end RCT.Spec
