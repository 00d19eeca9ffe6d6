import Verif.Spec.Tools

/-!
# Specification of what several cameras recorded together

The cameras of one setup are recorded together: record `j` of every index file belongs to the same moment.
-/

namespace RCT.Spec

open RCT

variable {Img : Type}

/-- Record `j` of the index file `path` can be read and holds the image and pose `e`. -/
def FromRecord (C : Codec Img) (fs : FS Img) (path : String) (j : Nat) (e : Img × Iso) : Prop :=
  ∃ root, fs.files path = some (.yaml root) ∧ j < root.size ∧ EntryData C fs root (rootPath path) j e

/-- The number of records of the index file. -/
def recordCount (fs : FS Img) (path : String) : Nat :=
  match fs.files path with
  | some (.yaml root) => root.size
  | _ => 0

open Classical in
/-- The numbers of the readable records, ascending. -/
noncomputable def readableRecords (C : Codec Img) (fs : FS Img) (path : String) : List Nat :=
  (List.range (recordCount fs path)).filter fun j => decide (∃ e, FromRecord C fs path j e)

/-- The data sets are what the index files contain. -/
def Loaded (C : Codec Img) (fs : FS Img) (paths : List String) (sets : List (DataSet Img)) : Prop :=
  List.Forall₂ (fun p ds => parseFromFile C fs p = .ok (some ds)) paths sets

/-- In record `j` of the index file `path` the target is found, with the correspondences `cs`. -/
def SeenIn (C : Codec Img) (fs : FS Img) (find : Img → Res TargetFeatures) (create : TargetFeatures → Res (List Corr2))
    (draw : Img → TargetFeatures → Res Unit)
    (path : String) (j : Nat) (cs : List Corr2) : Prop :=
  ∃ e, FromRecord C fs path j e ∧ Seen find create draw e.1 cs

/-- A wrist pose and the correspondences of all cameras were recorded at moment `j`: the pose with record `j` of the first
camera, the correspondences in record `j` of each camera. -/
def OneMoment (C : Codec Img) (fs : FS Img) (find : Img → Res TargetFeatures) (create : TargetFeatures → Res (List Corr2))
    (draw : Img → TargetFeatures → Res Unit)
    (paths : List String) (j : Nat) (item : Iso × List (List Corr2)) : Prop :=
  (∃ p m, paths[0]? = some p ∧ FromRecord C fs p j (m, item.1)) ∧
    List.Forall₂ (fun p cs => SeenIn C fs find create draw p j cs) paths item.2

end RCT.Spec
