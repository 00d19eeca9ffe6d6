import Verif.Model.DataSet

/-!
# Parameters and their loaders

Models `rct_ros_tools/src/loader_utils.cpp`, `parameter_loaders.cpp` and the title banner of
`rct_common/include/rct_common/print_utils.h`. Values of the parameter server are `XmlRpc::XmlRpcValue`s (library
semantics of ROS' xmlrpcpp): a cast to another type than the stored one throws an `XmlRpcException` (integers are not
converted to doubles), an invalid value is turned into the default value of the type, the constant `operator[]` throws
outside the array. A struct is a `std::map`, shown as the list of its members in order.
-/

namespace RCT

/-- `XmlRpc::XmlRpcValue`; `other` are the types date and time, and base64. -/
inductive XVal where
  | invalid
  | bool (b : Bool)
  | int (i : Int)
  | double (x : ℝ)
  | string (s : String)
  | other (code : Nat)
  | array (l : List XVal)
  | struct (l : List (String × XVal))

namespace XVal

/-- `getType()`; codes of `XmlRpcValue::Type`. -/
def type : XVal → Nat
  | invalid => 0
  | bool _ => 1
  | int _ => 2
  | double _ => 3
  | string _ => 4
  | other c => 5 + c
  | array _ => 100
  | struct _ => 101

/-- `static_cast<double>` -/
def asDouble : XVal → Res ℝ
  | double x => .ok x
  | invalid => .ok 0
  | _ => .throw .other

end XVal

/-- How yaml-cpp writes integers and strings. -/
structure XPrinter extends YamlPrinter where
  int : Int → YScalar
  str : String → YScalar

/-- Reading a written value gives the value back. -/
structure XPrinter.WF (P : XPrinter) : Prop where
  base : P.toYamlPrinter.WF
  int : ∀ i : Int, (P.int i).num = some (some (i : ℝ))
  str : ∀ s, (P.str s).text = s

/-- `getArrayType` (`loader_utils.cpp` 7-28) of an array; reading the first element of an empty array throws an
`XmlRpcException`. -/
def getArrayType (l : List XVal) : Res Nat :=
  match l with
  | [] => .throw .other
  | v :: vs => if vs.all fun w => w.type == v.type then .ok v.type else .throw .runtimeError

/-- The casts of `fromArray` (`loader_utils.cpp` 30-40) and the conversion of the elements to nodes. -/
def scalarNode (P : XPrinter) : XVal → Res Yaml
  | .bool b => .ok (.scalar (P.bool b))
  | .int i => .ok (.scalar (P.int i))
  | .double x => .ok (.scalar (P.real (some x)))
  | .string s => .ok (.scalar (P.str s))
  | _ => .throw .other

/-- The array case (`loader_utils.cpp` 61-79). -/
def arrayNode (P : XPrinter) (l : List XVal) : Res Yaml :=
  (getArrayType l).bind fun t =>
  if t = 1 ∨ t = 2 ∨ t = 3 ∨ t = 4 then (Res.mapList (scalarNode P) l).bind fun ns => .ok (.seq ns)
  else .throw .runtimeError

mutual
/-- The conversion of one member (`loader_utils.cpp` 56-94). -/
def memberNode (P : XPrinter) : XVal → Res Yaml
  | .struct l => (membersNode P l).bind fun r => .ok (if r.isEmpty then .null else .map r)
  | .array l => arrayNode P l
  | .bool b => .ok (.scalar (P.bool b))
  | .int i => .ok (.scalar (P.int i))
  | .double x => .ok (.scalar (P.real (some x)))
  | .string s => .ok (.scalar (P.str s))
  | .invalid => .throw .runtimeError
  | .other _ => .throw .runtimeError

/-- The loop over the members (`loader_utils.cpp` 54-95); `node` stays null if there are none. -/
def membersNode (P : XPrinter) : List (String × XVal) → Res (List (String × Yaml))
  | [] => .ok []
  | (k, v) :: l => (memberNode P v).bind fun n => (membersNode P l).bind fun r => .ok ((k, n) :: r)
end

/-- `toYAML` (`loader_utils.cpp` 46-97). -/
def toYAML (P : XPrinter) (v : XVal) : Res Yaml :=
  match v with
  | .struct l => memberNode P (.struct l)
  | _ => .throw .runtimeError

/-! ### parameter_loaders.cpp -/

/-- `xml.hasMember(key)` and `xml[key]` -/
def XVal.member (v : XVal) (k : String) : Option XVal :=
  match v with
  | .struct l => l.lookup k
  | _ => none

/-- `read<double>` (`parameter_loaders.cpp` 8-23); `none` is `false`. -/
def readDouble (v : XVal) (k : String) : Option ℝ :=
  match v.member k with
  | none => none
  | some w => match w.asDouble with
    | .ok x => some x
    | _ => none

/-- `if (!read(xml, key, x)) throw ros::InvalidParameterException(…)`. -/
def needDouble (v : XVal) (k : String) : Res ℝ :=
  match readDouble v k with
  | some x => .ok x
  | none => .throw .other

/-- `loadIntrinsics(nh, key)` (`parameter_loaders.cpp` 27-44); `param` is the result of `getParam`. -/
def loadIntrParam (param : Option XVal) : Res Intr :=
  match param with
  | none => .throw .other
  | some xml =>
    (needDouble xml "fx").bind fun fx => (needDouble xml "fy").bind fun fy => (needDouble xml "cx").bind fun cx =>
    (needDouble xml "cy").bind fun cy => .ok ⟨fx, fy, cx, cy⟩

/-- `loadIntrinsics(nh, key, intr)` (`parameter_loaders.cpp` 46-58): the returned flag and the value of `intr` afterwards. -/
def tryLoadIntrParam (param : Option XVal) (intr : Intr) : Res (Bool × Intr) :=
  ((loadIntrParam param).bind fun i => .ok (true, i)).tryCatch (· == .other) (false, intr)

/-- `loadIntrinsics(path, intrinsics)` (`parameter_loaders.cpp` 73-85). -/
def tryLoadIntrFile {Img : Type} (fs : FS Img) (path : String) (intr : Intr) : Res (Bool × Intr) :=
  ((loadIntrFile fs path).bind fun i => .ok (true, i)).tryCatch (· == .badFile) (false, intr)

/-- `loadPose(nh, key)` (`parameter_loaders.cpp` 87-112). -/
noncomputable def loadPoseParam (param : Option XVal) : Res Iso :=
  match param with
  | none => .throw .other
  | some xml =>
    (needDouble xml "x").bind fun x => (needDouble xml "y").bind fun y => (needDouble xml "z").bind fun z =>
    (needDouble xml "qx").bind fun qx => (needDouble xml "qy").bind fun qy => (needDouble xml "qz").bind fun qz =>
    (needDouble xml "qw").bind fun qw => .ok ⟨(Quat.toAngleAxis ⟨qw, qx, qy, qz⟩).toMat, ⟨x, y, z⟩⟩

/-- `loadPose(nh, key, pose)` (`parameter_loaders.cpp` 114-126). -/
noncomputable def tryLoadPoseParam (param : Option XVal) (pose : Iso) : Res (Bool × Iso) :=
  ((loadPoseParam param).bind fun T => .ok (true, T)).tryCatch (· == .other) (false, pose)

/-- `loadPose(path, pose)` (`parameter_loaders.cpp` 140-152): the returned flag and the value of `pose` afterwards. -/
def tryLoadPoseFileInto {Img : Type} (fs : FS Img) (path : String) (pose : Iso) : Res (Bool × Iso) :=
  ((loadPoseFile fs path).bind fun T => .ok (true, T)).tryCatch (· == .badFile) (false, pose)

/-! ### print_utils.h -/

/-- `printTitle` (`print_utils.h` 49-71): the lines printed. Titles are shorter than 2^31 - 9 characters. -/
def printTitle (title : List Char) (width : Int) : List (List Char) :=
  let length : Int := if (title.length + 8 : Int) < width then width else title.length + 8
  let delta : Int := (length - title.length) / 2
  let full := List.replicate (if delta + delta + title.length = length then length else length + 1).toNat '*'
  let mid := List.replicate (if delta + delta + title.length = length then delta - 1 else delta).toNat '*'
  [full, mid ++ [' '] ++ title ++ [' '] ++ mid, full]

end RCT
