import Verif.Model.DataSet

/-!
# Specification of data sets and data collection
-/

namespace RCT.Spec

open RCT

variable {Img : Type}

/-- The image and pose files named by entry `j` of the index `root` can be read and contain `m` and `T`. -/
def EntryData (C : Codec Img) (fs : FS Img) (root : Yaml) (dir : String) (j : Nat) (e : Img × Iso) : Prop :=
  ∃ ip pp m y, entryString root j "image" = .ok ip ∧ entryString root j "pose" = .ok pp ∧
    fs.files (dir ++ "/" ++ ip) = some (.image m) ∧ C.empty m = false ∧ e.1 = C.reread m ∧
    fs.files (dir ++ "/" ++ pp) = some (.yaml y) ∧ decIso y = .ok e.2

/-- The image carried by an event. -/
def imageOf : CollectEvent Img → Option Img
  | .image m _ => m
  | _ => none

/-- The pose looked up by a trigger. -/
def triggerOf : CollectEvent Img → Option TfMsg
  | .trigger p => p
  | _ => none

def isSave : CollectEvent Img → Bool
  | .save => true
  | _ => false

/-- The most recent image of a history. -/
def latest (es : List (CollectEvent Img)) : Option Img := (es.filterMap imageOf).getLast?

/-- The captures of a history: for every trigger with a pose, this pose with the most recent image, if there is one. -/
def captures (es : List (CollectEvent Img)) : List (TfMsg × Img) :=
  (List.range es.length).filterMap fun (i : Nat) =>
    match (es[i]?).bind triggerOf, latest (es.take i) with
    | some p, some m => some (p, m)
    | _, _ => none

/-- The data set of a list of captures. -/
noncomputable def dataOf (l : List (TfMsg × Img)) : DataSet Img :=
  ⟨l.map Prod.snd, l.map fun e => ⟨e.1.q.toMat, e.1.t⟩⟩

/-- What has to be saved: for every save, the captures before it. -/
noncomputable def savedSets (es : List (CollectEvent Img)) : List (DataSet Img) :=
  ((List.range es.length).filter fun (i : Nat) => ((es[i]?).map isSave).getD false).map fun i => dataOf (captures (es.take i))

/-- The finder finds the target in the image, this gives the correspondences `cs`, and the target can be drawn. -/
def Seen (find : Img → Res TargetFeatures) (create : TargetFeatures → Res (List Corr2))
    (draw : Img → TargetFeatures → Res Unit) (m : Img) (cs : List Corr2) : Prop :=
  ∃ fs, find m = .ok fs ∧ fs ≠ [] ∧ create fs = .ok cs ∧ draw m fs = .ok ()

/-- The exceptions derived from `std::runtime_error`; `std::out_of_range` is a `std::logic_error`. -/
def RuntimeKind (e : Exc) : Prop := e ∈ [Exc.runtimeError, .optimization, .covariance, .yaml, .badFile]

theorem RuntimeKind.isRuntime {e : Exc} (h : RuntimeKind e) : e.isRuntime = true := by
  simp only [RuntimeKind, List.mem_cons, List.not_mem_nil, or_false] at h
  rcases h with rfl | rfl | rfl | rfl | rfl <;> rfl

end RCT.Spec
