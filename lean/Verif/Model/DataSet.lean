import Verif.Model.Serialization
import Verif.Model.Targets

/-!
# Data sets on disk, data collection and correspondence data sets

`rct_ros_tools/src/data_set.cpp`, `rct_ros_tools/src/command_line_cal.cpp` (lines 53-187), the file variants of
`rct_ros_tools/src/parameter_loaders.cpp`.

Simplifications: a file is the image or the YAML document it holds (emitting and parsing the documents written here is
the identity, up to number printing, see `YamlPrinter`); paths are compared as strings; a write needs the directory
to exist and can fail for any other reason (`Disk.fail`), in which case it has no effect; an interrupted write leaves an
unreadable image or an empty document; reading an image or an interrupted image as YAML is a parse error. Images read with
`IMREAD_COLOR` are converted (`Codec.reread`). Logging is left out.
-/

namespace RCT

open Yaml

/-- `try { … } catch (const E&) { return handler; }` for the exceptions selected by `sel`. -/
def Res.tryCatch {α : Type} (r : Res α) (sel : Exc → Bool) (handler : α) : Res α :=
  match r with
  | .throw e => if sel e then .ok handler else .throw e
  | r => r

/-- Exceptions derived from `std::runtime_error`. -/
def Exc.isRuntime : Exc → Bool
  | .runtimeError | .optimization | .covariance | .yaml | .badFile => true
  | .outOfRange | .other => false

inductive File (Img : Type) where
  | image (m : Img)
  | yaml (y : Yaml)
  | broken

structure FS (Img : Type) where
  dirs : String → Prop
  files : String → Option (File Img)

structure Disk where
  fail : String → Prop

/-- Images: whether `cv::Mat::empty`, and what reading a stored image in colour gives. -/
structure Codec (Img : Type) where
  empty : Img → Bool
  reread : Img → Img

/-- The part before the last slash. -/
def beforeSlash (l : List Char) : List Char := (l.reverse.dropWhile (· != '/')).tail.reverse

/-- `rootPath` (`data_set.cpp` 11-16); without a slash `find_last_of` is `npos` and `substr(0, npos)` is the whole name. -/
def rootPath (filename : String) : String :=
  if '/' ∈ filename.toList then String.ofList (beforeSlash filename.toList) else filename

/-- `combine` (`data_set.cpp` 18). -/
def combine (dir rel : String) : String := dir ++ "/" ++ rel

/-- The directory a path lies in (operating system). -/
def parentDir (p : String) : String :=
  if '/' ∈ p.toList then String.ofList (beforeSlash p.toList) else "."

structure DataSet (Img : Type) where
  images : List Img := []
  poses : List Iso := []

/-! ### Reading -/

section
variable {Img : Type}

/-- `readImageOpenCV` with the test for an empty image (`data_set.cpp` 20-28, 39-45). -/
def readImage (C : Codec Img) (fs : FS Img) (path : String) : Option Img :=
  match fs.files path with
  | some (.image m) => if C.empty m then none else some (C.reread m)
  | _ => none

/-- `YAML::LoadFile` -/
def loadYaml (fs : FS Img) (path : String) : Res Yaml :=
  match fs.files path with
  | some (.yaml y) => .ok y
  | _ => .throw .yaml

/-- `loadPose(path)` (`parameter_loaders.cpp` 127-138): YAML exceptions become `BadFileException`. -/
def loadPoseFile (fs : FS Img) (path : String) : Res Iso :=
  match (loadYaml fs path).bind decIso with
  | .throw .yaml => .throw .badFile
  | r => r

/-- `loadPose(path, pose)` (`parameter_loaders.cpp` 140-152); `none` is `false`. -/
def tryLoadPoseFile (fs : FS Img) (path : String) : Res (Option Iso) :=
  ((loadPoseFile fs path).bind fun T => .ok (some T)).tryCatch (· == .badFile) none

/-- `loadIntrinsics(path)` (`parameter_loaders.cpp` 59-70). -/
def loadIntrFile (fs : FS Img) (path : String) : Res Intr :=
  match (loadYaml fs path).bind decIntr with
  | .throw .yaml => .throw .badFile
  | r => r

/-- `root[i]["key"].as<std::string>()` -/
def entryString (root : Yaml) (i : Nat) (k : String) : Res String :=
  (root.idx i).bind (asNode fun n => n.field k asString)

/-- The loop body of `parse` (`data_set.cpp` 34-55). -/
def parseStep (C : Codec Img) (fs : FS Img) (root : Yaml) (rootDir : String) (d : DataSet Img) (i : Nat) :
    Res (DataSet Img) :=
  (entryString root i "image").bind fun imgPath =>
  (entryString root i "pose").bind fun posePath =>
  match readImage C fs (combine rootDir imgPath) with
  | none => .ok d
  | some image =>
    (tryLoadPoseFile fs (combine rootDir posePath)).bind fun p =>
    match p with
    | none => .ok d
    | some p => .ok ⟨d.images ++ [image], d.poses ++ [p]⟩

/-- `parse` (`data_set.cpp` 30-59). -/
def parse (C : Codec Img) (fs : FS Img) (root : Yaml) (rootDir : String) : Res (DataSet Img) :=
  Res.foldList (parseStep C fs root rootDir) {} (List.range root.size)

/-- `parseFromFile` (`data_set.cpp` 61-74). -/
def parseFromFile (C : Codec Img) (fs : FS Img) (path : String) : Res (Option (DataSet Img)) :=
  ((loadYaml fs path).bind fun root => (parse C fs root (rootPath path)).bind fun d => .ok (some d)).tryCatch
    (· == .yaml) none

/-! ### Writing -/

/-- Steps that change the file system. -/
inductive Action (Img : Type) where
  | mkdir (p : String)
  | image (p : String) (m : Img)
  | text (p : String) (y : Yaml)

/-- Writing to the path is possible. -/
def FS.openable (fs : FS Img) (D : Disk) (p : String) : Prop := fs.dirs (parentDir p) ∧ ¬ D.fail p

open Classical in
noncomputable def FS.set (fs : FS Img) (p : String) (f : File Img) : FS Img :=
  { fs with files := fun q => if q = p then some f else fs.files q }

open Classical in
/-- Effect of a completed step. -/
noncomputable def FS.apply (D : Disk) (fs : FS Img) : Action Img → FS Img
  | .mkdir p => if fs.openable D p then { fs with dirs := fun q => q = p ∨ fs.dirs q } else fs
  | .image p m => if fs.openable D p then fs.set p (.image m) else fs
  | .text p y => if fs.openable D p then fs.set p (.yaml y) else fs

open Classical in
/-- Effect of a step that was interrupted: the file has been opened (and emptied), but not written completely. -/
noncomputable def FS.interrupted (D : Disk) (fs : FS Img) : Action Img → FS Img
  | .mkdir _ => fs
  | .image p _ => if fs.openable D p then fs.set p .broken else fs
  | .text p _ => if fs.openable D p then fs.set p (.yaml .null) else fs

def imageFile (path : String) (i : Nat) : String := path ++ "/images/" ++ toString i ++ ".png"
def poseFile (path : String) (i : Nat) : String := path ++ "/poses/" ++ toString i ++ ".yaml"
def indexFile (path : String) : String := path ++ "/data.yaml"

/-- A text scalar that is neither a number nor a truth value. -/
def yText (s : String) : Yaml := .scalar ⟨s, none, none, none⟩

/-- The index of `writeDirectory` (`data_set.cpp` 83-94); a node that is never filled is null. -/
def indexNode (n : Nat) : Yaml :=
  if n = 0 then .null
  else .seq ((List.range n).map fun (i : Nat) => Yaml.map [("pose", yText ("poses/" ++ toString i ++ ".yaml")),
    ("image", yText ("images/" ++ toString i ++ ".png"))])

/-- The writes of `saveToDirectory` after the directories (`data_set.cpp` 106-118). -/
noncomputable def saveFiles (P : YamlPrinter) (path : String) (d : DataSet Img) : List (Action Img) :=
  (d.images.zipIdx.map fun e => Action.image (imageFile path e.2) e.1) ++
  (d.poses.zipIdx.map fun e => Action.text (poseFile path e.2) (encIso P e.1)) ++
  [.text (indexFile path) (indexNode d.images.length)]

/-- `saveToDirectory` (`data_set.cpp` 100-121). -/
noncomputable def saveActions (P : YamlPrinter) (path : String) (d : DataSet Img) : List (Action Img) :=
  [.mkdir path, .mkdir (path ++ "/images"), .mkdir (path ++ "/poses")] ++ saveFiles P path d

/-- `saveToDirectory`: the file system afterwards and the result. -/
noncomputable def saveToDirectory (P : YamlPrinter) (D : Disk) (fs : FS Img) (path : String) (d : DataSet Img) :
    FS Img × Bool :=
  ((saveActions P path d).foldl (FS.apply D) fs, true)

end

/-! ### Data collection (`command_line_cal.cpp`) -/

/-- The transform of a `geometry_msgs::TransformStamped`. -/
structure TfMsg where
  t : V3
  q : Quat

/-- `tf2::transformToEigen` -/
noncomputable def transformToEigen (m : TfMsg) : Iso := ⟨m.q.toMat, m.t⟩

/-- What happens to the node. -/
inductive CollectEvent (Img : Type) where
  /-- `onNewImage`: the converted image (or `none` after a `cv_bridge` exception) and the outcome of finding and drawing
  the target in it -/
  | image (m : Option Img) (finder : Res Unit)
  /-- the `collect` service, with the outcome of the transform lookup -/
  | trigger (tf : Option TfMsg)
  /-- the `save` service -/
  | save

/-- `DataCollection` together with the disk (`command_line_cal.cpp` 149-187). -/
structure Collector (Img : Type) where
  last : Option Img := none
  poses : List TfMsg := []
  images : List Img := []

/-- `onSave` up to the call of `saveToDirectory` (`command_line_cal.cpp` 174-183). -/
noncomputable def Collector.data {Img : Type} (s : Collector Img) : Res (DataSet Img) :=
  Res.foldList (fun (d : DataSet Img) i =>
    (Res.idxList s.images i).bind fun image => (Res.idxList s.poses i).bind fun msg =>
    .ok ⟨d.images ++ [image], d.poses ++ [transformToEigen msg]⟩) {} (List.range s.poses.length)

/-- One callback; a `save` also gives the data set passed to `saveToDirectory`. Exceptions that the callback does not catch
end the node. -/
noncomputable def Collector.step {Img : Type} (s : Collector Img) :
    CollectEvent Img → Res (Collector Img × Option (DataSet Img))
  | .image none _ => .ok (s, none)
  | .image (some m) finder =>
    -- lines 83-102; `last_frame_` is set before the finder runs
    match finder with
    | .ok _ => .ok ({ s with last := some m }, none)
    | .throw e => if e.isRuntime then .ok ({ s with last := some m }, none) else .throw e
    | .abort => .abort
    | .ub => .ub
  | .trigger tf =>
    -- lines 158-169
    match tf, s.last with
    | some p, some m => .ok ({ s with poses := s.poses ++ [p], images := s.images ++ [m] }, none)
    | _, _ => .ok (s, none)
  | .save => s.data.bind fun d => .ok (s, some d)

/-- A run of the node: the final state and the data sets saved. -/
noncomputable def Collector.run {Img : Type} (s : Collector Img) :
    List (CollectEvent Img) → Res (Collector Img × List (DataSet Img))
  | [] => .ok (s, [])
  | e :: es => (s.step e).bind fun r => (r.1.run es).bind fun r' => .ok (r'.1, r.2.toList ++ r'.2)

/-! ### Correspondence data sets -/

/-- `ExtrinsicCorrespondenceDataSet`: dimensions, flags and correspondences. -/
structure CorrDataSet where
  rows : Nat
  cols : Nat
  mask : Nat → Nat → Nat
  corr : Nat → Nat → List Corr2

def CorrDataSet.setMask (s : CorrDataSet) (c i v : Nat) : CorrDataSet :=
  { s with mask := fun c' i' => if c' = c ∧ i' = i then v else s.mask c' i' }

def CorrDataSet.setCorr (s : CorrDataSet) (c i : Nat) (v : List Corr2) : CorrDataSet :=
  { s with corr := fun c' i' => if c' = c ∧ i' = i then v else s.corr c' i' }

/-- The body of the inner loop (`data_set.cpp` 145-174). `find` is `findTargetFeatures`, `create` is `createCorrespondences`,
`draw` is what the debug mode does (156-167; without it, `draw` returns); all exceptions are derived from `std::exception`. The
correspondences stay in the table if drawing throws. Access outside the matrices is undefined. -/
def corrStep {Img : Type} (find : Img → Res TargetFeatures) (create : TargetFeatures → Res (List Corr2))
    (draw : Img → TargetFeatures → Res Unit) (c : Nat) (images : List Img) (s : CorrDataSet) (i : Nat) : Res CorrDataSet :=
  if ¬ (c < s.rows ∧ i < s.cols) then .ub else
  let s1 := s.setMask c i 1
  let found : Res (Img × TargetFeatures × List Corr2) :=
    (Res.idxList images i).bind fun image =>
    (find image).bind fun fs =>
    if fs.isEmpty then .throw .runtimeError else
    (create fs).bind fun cs => .ok (image, fs, cs)
  match found with
  | .ok (image, fs, cs) =>
    let s2 := s1.setCorr c i cs
    match draw image fs with
    | .ok _ => .ok s2
    | .throw _ => .ok (s2.setMask c i 0)
    | .abort => .abort
    | .ub => .ub
  | .throw _ => .ok (s1.setMask c i 0)
  | .abort => .abort
  | .ub => .ub

/-- The constructor (`data_set.cpp` 123-179). `junk` is the content of the memory allocated for the flags, which `resize`
does not initialise; the correspondence sets are default constructed. -/
def buildCorrDataSet {Img : Type} (find : Img → Res TargetFeatures) (create : TargetFeatures → Res (List Corr2))
    (draw : Img → TargetFeatures → Res Unit) (junk : Nat → Nat → Nat) (sets : List (DataSet Img)) : Res CorrDataSet :=
  (Res.idxList sets 0).bind fun first =>
  Res.foldList (fun s c =>
      (Res.idxList sets c).bind fun ds =>
      Res.foldList (corrStep find create draw c ds.images) s (List.range ds.images.length))
    ⟨sets.length, first.images.length, junk, fun _ _ => []⟩ (List.range sets.length)

/-- `getImageCameraCount` (`data_set.cpp` 185-188); sums stay below 2^32. -/
def CorrDataSet.imageCameraCount (s : CorrDataSet) (i : Nat) : Nat := ((List.range s.rows).map fun c => s.mask c i).sum

/-- `getCameraImageCount` (`data_set.cpp` 190-193). -/
def CorrDataSet.cameraImageCount (s : CorrDataSet) (c : Nat) : Nat := ((List.range s.cols).map fun i => s.mask c i).sum

/-- `foundCorrespondence` (`data_set.cpp` 195-199). -/
def CorrDataSet.found (s : CorrDataSet) (c i : Nat) : Bool := s.mask c i ≠ 0

end RCT
