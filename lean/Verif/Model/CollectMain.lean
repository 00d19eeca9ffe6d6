import Verif.Model.Mains

/-!
# The node that collects data

Models the `main` of `rct_ros_tools/src/command_line_cal.cpp` (189-244) on top of the callbacks of `Model/DataSet.lean`: the
parameters, the check of the transform, and the callbacks that `ros::spin` runs until the node is shut down. Messages and service
calls are an arbitrary list of events. Whether the transform is available at the start and in each `collect` is a parameter.
-/

namespace RCT

/-- What reaches the running node: an image message (`none` if `cv_bridge` cannot convert it), a call of `collect` with the outcome
of the transform lookup, a call of `save`. -/
inductive NodeEvent (Img : Type) where
  | image (m : Option Img)
  | collect (tf : Option TfMsg)
  | save

/-- The callback with the target finder of the node (`command_line_cal.cpp` 85-98): searching and drawing. -/
def NodeEvent.handled {Img : Type} (F : Finder Img) : NodeEvent Img → CollectEvent Img
  | .image none => .image none (.ok ())
  | .image (some m) => .image (some m) ((F.find m).bind fun fs => F.draw m fs)
  | .collect tf => .trigger tf
  | .save => .save

/-- `ros::spin` (`command_line_cal.cpp` 234): the files afterwards; `false` if an exception left a callback, which `main` catches. -/
noncomputable def collectSpin {Img : Type} (P : YamlPrinter) (D : Disk) (F : Finder Img) (dir : String) :
    List (NodeEvent Img) → FS Img → Collector Img → Res (FS Img × Bool)
  | [], fs, _ => .ok (fs, true)
  | e :: es, fs, s =>
    match s.step (e.handled F) with
    | .ok (s', none) => collectSpin P D F dir es fs s'
    | .ok (s', some d) => collectSpin P D F dir es (saveToDirectory P D fs dir d).1 s'
    | .throw _ => .ok (fs, false)
    | .abort => .abort
    | .ub => .ub

/-- Parameters, target finder and the check of the transform (`command_line_cal.cpp` 207-233 and 19-27). -/
def collectSetup {Img : Type} (W : ToolWorld Img) (tf : Bool) : Res (String × Finder Img) :=
  (getString (W.param "base_frame")).bind fun _ =>
  (getString (W.param "tool_frame")).bind fun _ =>
  (getString (W.param "image_topic")).bind fun _ =>
  (getString (W.param "save_dir")).bind fun dir =>
  (loadFinder W).bind fun F =>
  if tf = true then .ok (dir, F) else .throw .runtimeError

/-- `main` (`command_line_cal.cpp` 211-244): the files afterwards and whether the exit code is 0 (otherwise -1). -/
noncomputable def collectMain {Img : Type} (W : ToolWorld Img) (P : YamlPrinter) (D : Disk) (tf : Bool) (es : List (NodeEvent Img)) :
    Res (FS Img × Bool) :=
  match collectSetup W tf with
  | .ok c => collectSpin P D c.2 c.1 es W.fs {}
  | .throw _ => .ok (W.fs, false)
  | .abort => .abort
  | .ub => .ub

end RCT
