import Verif.Model.Outcome
/-
builder/map_builder_options.cc (reading the configuration file), common/macro_defines.h
(`GET_SINGLE_OPTION`), registrators/interface.cc (creating a matcher), and the checks of
`MapBuilder::InitialiseInside` in builder/map_builder.cc.

A parsed document is a tree of elements. pugixml's conversions of text to numbers and booleans are
parameters. Settings are named by the member of `MapBuilderOptions` they are stored in. `float` and
`double` members are exact rationals. The filter section (modelled in `FilterConfig`), printing, and
the threads started at the end are left out.
-/
namespace Verif

/-- An XML element: name, attributes, text, child elements. -/
inductive Xml where
  | node (name : String) (attrs : List (String × String)) (text : String) (kids : List Xml)

def Xml.name : Xml → String | .node n _ _ _ => n
def Xml.attrs : Xml → List (String × String) | .node _ a _ _ => a
def Xml.text : Xml → String | .node _ _ t _ => t
def Xml.kids : Xml → List Xml | .node _ _ _ k => k

/-- pugixml `xml_node::child`: the first child of that name; a null node has none. -/
def xmlChild (x : Option Xml) (name : String) : Option Xml :=
  x.bind (fun x => x.kids.find? (fun k => k.name == name))

/-- pugixml `xml_node::attribute`: the first attribute of that name. -/
def xmlAttr (x : Option Xml) (name : String) : Option String :=
  x.bind (fun x => x.attrs.lookup name)

inductive OptVal where
  | bool (b : Bool)
  | int (i : Int)
  | num (q : Rat)
  | str (s : List Char)
  deriving DecidableEq

inductive OptKind where
  | bool | int | float | double | string
  deriving DecidableEq

/-- pugixml `as_bool`, `as_int`, `as_float`, `as_double`. -/
structure Conv where
  asBool : String → Bool
  asInt : String → Int
  asFloat : String → Rat
  asDouble : String → Rat

def Conv.read (c : Conv) (k : OptKind) (s : String) : OptVal :=
  match k with
  | .bool => .bool (c.asBool s)
  | .int => .int (c.asInt s)
  | .float => .num (c.asFloat s)
  | .double => .num (c.asDouble s)
  | .string => .str s.toList

/-- The members of `MapBuilderOptions` by name. -/
abbrev Settings := String → OptVal

def Settings.set (o : Settings) (t : String) (v : OptVal) : Settings :=
  fun s => if s = t then v else o s

/-- The arguments of one `GET_SINGLE_OPTION`, apart from the parent node. -/
structure OptRow where
  child : String
  attr : String
  target : String
  kind : OptKind
  deriving DecidableEq

/-- common/macro_defines.h:203-219 `GET_SINGLE_OPTION`. -/
def getSingle (c : Conv) (parent : Option Xml) (o : Settings) (r : OptRow) : Settings :=
  match xmlAttr (xmlChild parent r.child) r.attr with
  | some s => o.set r.target (c.read r.kind s)
  | none => o

def getRows (c : Conv) (parent : Option Xml) (rows : List OptRow) (o : Settings) : Settings :=
  rows.foldl (getSingle c parent) o

/-- map_builder_options.cc:113-114. -/
def exportRow : OptRow := ⟨"whole_options", "export_file_path", "whole_options.export_file_path", .string⟩
/-- map_builder_options.cc:120-121. -/
def packageRow : OptRow := ⟨"whole_options", "map_package_path", "whole_options.map_package_path", .string⟩

/-- map_builder_options.cc:127-140. -/
def wholeRows : List OptRow :=
  [⟨"whole_options", "odom_calib_mode", "whole_options.odom_calib_mode", .int⟩,
   ⟨"whole_options", "separate_output", "whole_options.separate_output", .bool⟩,
   ⟨"whole_options", "output_direct_combined_map", "whole_options.output_direct_combined_map", .bool⟩,
   ⟨"whole_options", "output_mrvm", "whole_options.output_mrvm", .bool⟩,
   ⟨"whole_options", "output_kitti_pose", "whole_options.output_kitti_pose", .bool⟩,
   ⟨"whole_options", "separate_step", "whole_options.separate_step", .int⟩]

/-- map_builder_options.cc:144-166. -/
def mrvmRows : List OptRow :=
  [⟨"output_mrvm_settings", "output_average", "output_mrvm_settings.output_average", .bool⟩,
   ⟨"output_mrvm_settings", "output_rgb", "output_mrvm_settings.output_rgb", .bool⟩,
   ⟨"output_mrvm_settings", "use_max_intensity", "output_mrvm_settings.use_max_intensity", .bool⟩,
   ⟨"output_mrvm_settings", "prob_threshold", "output_mrvm_settings.prob_threshold", .float⟩,
   ⟨"output_mrvm_settings", "low_resolution", "output_mrvm_settings.low_resolution", .float⟩,
   ⟨"output_mrvm_settings", "high_resolution", "output_mrvm_settings.high_resolution", .float⟩,
   ⟨"output_mrvm_settings", "hit_prob", "output_mrvm_settings.hit_prob", .float⟩,
   ⟨"output_mrvm_settings", "miss_prob", "output_mrvm_settings.miss_prob", .float⟩,
   ⟨"output_mrvm_settings", "z_offset", "output_mrvm_settings.z_offset", .float⟩,
   ⟨"output_mrvm_settings", "max_point_num_in_cell", "output_mrvm_settings.max_point_num_in_cell", .int⟩]

/-- map_builder_options.cc:186-188, read from the top element. -/
def accumulateRows : List OptRow :=
  [⟨"front_end_options", "accumulate_cloud_num", "front_end_options.accumulate_cloud_num", .int⟩]

/-- map_builder_options.cc:190-214, read from the front end element. -/
def frontRows : List OptRow :=
  [⟨"motion_filter", "translation_range", "front_end_options.motion_filter.translation_range", .float⟩,
   ⟨"motion_filter", "angle_range", "front_end_options.motion_filter.angle_range", .float⟩,
   ⟨"motion_filter", "time_range", "front_end_options.motion_filter.time_range", .float⟩,
   ⟨"motion_compensation_options", "enable", "front_end_options.motion_compensation_options.enable", .bool⟩,
   ⟨"motion_compensation_options", "use_average",
     "front_end_options.motion_compensation_options.use_average", .bool⟩,
   ⟨"imu_options", "use_imu", "front_end_options.imu_options.enabled", .bool⟩,
   ⟨"imu_options", "type", "front_end_options.imu_options.type", .int⟩,
   ⟨"imu_options", "imu_frequency", "front_end_options.imu_options.frequency", .float⟩,
   ⟨"imu_options", "gravity_constant", "front_end_options.imu_options.gravity_constant", .float⟩]

/-- map_builder_options.cc:225-291, read from the back end element. -/
def backRows : List OptRow :=
  [⟨"submap_options", "frame_count", "back_end_options.submap_options.frame_count", .int⟩,
   ⟨"submap_options", "enable_inner_mrvm", "back_end_options.submap_options.enable_inner_mrvm", .bool⟩,
   ⟨"submap_options", "enable_voxel_filter", "back_end_options.submap_options.enable_voxel_filter", .bool⟩,
   ⟨"submap_options", "enable_random_sampleing",
     "back_end_options.submap_options.enable_random_sampleing", .bool⟩,
   ⟨"submap_options", "random_sampling_rate", "back_end_options.submap_options.random_sampling_rate", .float⟩,
   ⟨"submap_options", "voxel_size", "back_end_options.submap_options.voxel_size", .float⟩,
   ⟨"submap_options", "enable_disk_saving", "back_end_options.submap_options.enable_disk_saving", .bool⟩,
   ⟨"submap_options", "enable_check", "back_end_options.submap_options.enable_check", .bool⟩,
   ⟨"submap_options", "disk_saving_delay", "back_end_options.submap_options.disk_saving_delay", .int⟩,
   ⟨"submap_options", "saving_name_prefix", "back_end_options.submap_options.saving_name_prefix", .string⟩,
   ⟨"isam_optimizer_options", "use_odom", "back_end_options.isam_optimizer_options.use_odom", .bool⟩,
   ⟨"isam_optimizer_options", "use_gps", "back_end_options.isam_optimizer_options.use_gps", .bool⟩,
   ⟨"isam_optimizer_options", "output_graph_pic",
     "back_end_options.isam_optimizer_options.output_graph_pic", .bool⟩,
   ⟨"isam_optimizer_options", "enable_extrinsic_calib",
     "back_end_options.isam_optimizer_options.enable_extrinsic_calib", .bool⟩,
   ⟨"isam_optimizer_options", "gps_factor_init_num",
     "back_end_options.isam_optimizer_options.gps_factor_init_num", .int⟩,
   ⟨"isam_optimizer_options", "gps_factor_sample_step",
     "back_end_options.isam_optimizer_options.gps_factor_sample_step", .int⟩,
   ⟨"isam_optimizer_options", "gps_factor_init_angle_rad",
     "back_end_options.isam_optimizer_options.gps_factor_init_angle_rad", .double⟩,
   ⟨"loop_detector_setting", "use_gps", "back_end_options.loop_detector_setting.use_gps", .bool⟩,
   ⟨"loop_detector_setting", "use_descriptor", "back_end_options.loop_detector_setting.use_descriptor", .bool⟩,
   ⟨"loop_detector_setting", "output_matched_cloud",
     "back_end_options.loop_detector_setting.output_matched_cloud", .bool⟩,
   ⟨"loop_detector_setting", "trying_detect_loop_count",
     "back_end_options.loop_detector_setting.trying_detect_loop_count", .int⟩,
   ⟨"loop_detector_setting", "loop_ignore_threshold",
     "back_end_options.loop_detector_setting.loop_ignore_threshold", .int⟩,
   ⟨"loop_detector_setting", "nearest_history_pos_num",
     "back_end_options.loop_detector_setting.nearest_history_pos_num", .int⟩,
   ⟨"loop_detector_setting", "max_close_loop_distance",
     "back_end_options.loop_detector_setting.max_close_loop_distance", .float⟩,
   ⟨"loop_detector_setting", "max_close_loop_z_distance",
     "back_end_options.loop_detector_setting.max_close_loop_z_distance", .float⟩,
   ⟨"loop_detector_setting", "m2dp_match_score",
     "back_end_options.loop_detector_setting.m2dp_match_score", .float⟩,
   ⟨"loop_detector_setting", "accept_scan_match_score",
     "back_end_options.loop_detector_setting.accept_scan_match_score", .float⟩]

/-- map_builder_options.cc:294-305. -/
def pkgRows : List OptRow :=
  [⟨"map_package_options", "enable", "map_package_options.enable", .bool⟩,
   ⟨"map_package_options", "border_offset", "map_package_options.border_offset", .double⟩,
   ⟨"map_package_options", "piece_width", "map_package_options.piece_width", .double⟩,
   ⟨"map_package_options", "cloud_file_prefix", "map_package_options.cloud_file_prefix", .string⟩,
   ⟨"map_package_options", "descript_filename", "map_package_options.descript_filename", .string⟩]

/-- map_builder.h:68-116, loop_detector_options.h:29-40, isam_optimizer.h:59-67, submap_options.h:30-43,
multi_resolution_voxel_map.h:55-66, map_package.h:36-42, interface.h:59-65 : the values before
reading (the float rounding of the literals is ignored). -/
def defaultList : List (String × OptVal) :=
  [("whole_options.export_file_path", .str ['.', '/']), ("whole_options.map_package_path", .str ['.', '/']),
   ("whole_options.odom_calib_mode", .int 1), ("whole_options.separate_output", .bool false),
   ("whole_options.output_mrvm", .bool true), ("whole_options.output_direct_combined_map", .bool true),
   ("whole_options.output_kitti_pose", .bool false), ("whole_options.separate_step", .int 200),
   ("output_mrvm_settings.output_average", .bool false), ("output_mrvm_settings.output_rgb", .bool false),
   ("output_mrvm_settings.use_max_intensity", .bool true),
   ("output_mrvm_settings.prob_threshold", .num (6 / 10)), ("output_mrvm_settings.low_resolution", .num 1),
   ("output_mrvm_settings.high_resolution", .num (1 / 10)), ("output_mrvm_settings.hit_prob", .num (55 / 100)),
   ("output_mrvm_settings.miss_prob", .num (48 / 100)), ("output_mrvm_settings.z_offset", .num 0),
   ("output_mrvm_settings.max_point_num_in_cell", .int 10),
   ("front_end_options.scan_matcher_options.type", .int 1),
   ("front_end_options.scan_matcher_options.accepted_min_score", .num (7 / 10)),
   ("front_end_options.accumulate_cloud_num", .int 1),
   ("front_end_options.motion_filter.translation_range", .num (35 / 100)),
   ("front_end_options.motion_filter.angle_range", .num (3 / 2)),
   ("front_end_options.motion_filter.time_range", .num 0),
   ("front_end_options.motion_compensation_options.enable", .bool true),
   ("front_end_options.motion_compensation_options.use_average", .bool true),
   ("front_end_options.imu_options.enabled", .bool true), ("front_end_options.imu_options.type", .int 0),
   ("front_end_options.imu_options.frequency", .num 0),
   ("front_end_options.imu_options.gravity_constant", .num (98 / 10)),
   ("back_end_options.submap_matcher_options.type", .int 1),
   ("back_end_options.submap_matcher_options.accepted_min_score", .num (7 / 10)),
   ("back_end_options.submap_options.frame_count", .int 5),
   ("back_end_options.submap_options.enable_inner_mrvm", .bool false),
   ("back_end_options.submap_options.enable_voxel_filter", .bool false),
   ("back_end_options.submap_options.enable_random_sampleing", .bool false),
   ("back_end_options.submap_options.random_sampling_rate", .num (1 / 2)),
   ("back_end_options.submap_options.voxel_size", .num (1 / 10)),
   ("back_end_options.submap_options.enable_disk_saving", .bool false),
   ("back_end_options.submap_options.enable_check", .bool true),
   ("back_end_options.submap_options.disk_saving_delay", .int 10),
   ("back_end_options.submap_options.saving_name_prefix", .str ['s', 'u', 'b', 'm', 'a', 'p', '_']),
   ("back_end_options.isam_optimizer_options.use_odom", .bool false),
   ("back_end_options.isam_optimizer_options.use_gps", .bool false),
   ("back_end_options.isam_optimizer_options.output_graph_pic", .bool false),
   ("back_end_options.isam_optimizer_options.enable_extrinsic_calib", .bool true),
   ("back_end_options.isam_optimizer_options.gps_factor_init_num", .int 25),
   ("back_end_options.isam_optimizer_options.gps_factor_sample_step", .int 1),
   ("back_end_options.isam_optimizer_options.gps_factor_init_angle_rad", .num (16 / 10)),
   ("back_end_options.loop_detector_setting.use_gps", .bool false),
   ("back_end_options.loop_detector_setting.use_descriptor", .bool false),
   ("back_end_options.loop_detector_setting.output_matched_cloud", .bool false),
   ("back_end_options.loop_detector_setting.loop_ignore_threshold", .int 15),
   ("back_end_options.loop_detector_setting.trying_detect_loop_count", .int 1),
   ("back_end_options.loop_detector_setting.nearest_history_pos_num", .int 4),
   ("back_end_options.loop_detector_setting.max_close_loop_distance", .num 25),
   ("back_end_options.loop_detector_setting.max_close_loop_z_distance", .num 1),
   ("back_end_options.loop_detector_setting.m2dp_match_score", .num (99 / 100)),
   ("back_end_options.loop_detector_setting.accept_scan_match_score", .num (75 / 100)),
   ("map_package_options.enable", .bool true), ("map_package_options.border_offset", .num 100),
   ("map_package_options.piece_width", .num 500),
   ("map_package_options.cloud_file_prefix", .str ['p', 'a', 'r', 't', '_']),
   ("map_package_options.descript_filename",
     .str ['m', 'a', 'p', '_', 'p', 'a', 'c', 'k', 'a', 'g', 'e', '.', 'x', 'm', 'l'])]

def defaultSettings : Settings := fun s => (defaultList.lookup s).getD (.int 0)

def OptVal.toBool : OptVal → Bool | .bool b => b | _ => false
def OptVal.toInt : OptVal → Int | .int i => i | _ => 0
def OptVal.toNum : OptVal → Rat | .num q => q | _ => 0
def OptVal.toStr : OptVal → List Char | .str s => s | _ => []

/-- map_builder_options.cc:115-118, 122-125 : the directory is created (`mkdir` is `CreateDir`), then
`path.back()` is looked at (undefined for an empty string) and a slash is appended if missing. -/
def dirStep (mkdir : List Char → Bool) (t : String) (o : Settings) : Outcome Settings :=
  let p := (o t).toStr
  if mkdir p = false then .abort
  else if p = [] then .ub
  else if p.getLast? ≠ some '/' then .ok (o.set t (.str (p ++ ['/'])))
  else .ok o

/-- map_builder_options.cc:36-37 and 38-39 : the two attributes of a matcher section. -/
def matcherRows (section_ typeTarget scoreTarget : String) : List OptRow :=
  [⟨section_, "type", typeTarget, .int⟩, ⟨section_, "accepted_min_score", scoreTarget, .float⟩]

/-- map_builder_options.cc:182-183. -/
def scanRows : List OptRow := matcherRows "scan_matcher_options"
  "front_end_options.scan_matcher_options.type" "front_end_options.scan_matcher_options.accepted_min_score"

/-- map_builder_options.cc:222-223. -/
def submapRows : List OptRow := matcherRows "submap_matcher_options"
  "back_end_options.submap_matcher_options.type" "back_end_options.submap_matcher_options.accepted_min_score"

/-- pugixml `attribute("type").as_int()`: 0 when the attribute is missing. -/
def typeAttr (c : Conv) (x : Xml) : Int := ((x.attrs.lookup "type").map c.asInt).getD 0

/-- map_builder_options.cc:45-56 : the first `registrator_options` element of the chosen type. -/
def registratorNode (c : Conv) (father : Option Xml) (section_ : String) (type : Int) : Option Xml :=
  (xmlChild father section_).bind (fun m =>
    m.kids.find? (fun k => k.name == "registrator_options" && typeAttr c k == type))

/-- One entry of a matcher's `inner_options_` with the member it points to. -/
structure MatcherItem where
  name : String
  kind : OptKind
  value : OptVal
  deriving DecidableEq

/-- What a matcher type offers. interface.h:41-50 (1 IcpPM, 2 Libicp, 3 NdtWithGicp, 4 LegoLoam,
5 Ndt, 6 FastIcp), icp_fast.cc:411-418, icp_fast.h:57-59, ndt_gicp.cc:31-36, ndt_gicp.h:71-73. -/
def matcherItems (type : Int) : Option (List MatcherItem) :=
  if type = 1 then some []
  else if type = 3 then some [⟨"use_ndt", .bool, .bool true⟩, ⟨"using_voxel_filter", .bool, .bool true⟩,
    ⟨"voxel_resolution", .float, .num (2 / 10)⟩]
  else if type = 5 then some []
  else if type = 6 then some [⟨"knn_normal_estimate", .int, .int 7⟩, ⟨"max_iteration", .int, .int 100⟩,
    ⟨"dist_outlier_ratio", .float, .num (7 / 10)⟩]
  else none

/-- interface.cc:63-89 : one `param` element; the name of an absent attribute is empty. -/
def matcherParam (c : Conv) (items : List MatcherItem) (p : Xml) : Outcome (List MatcherItem) :=
  let name := (p.attrs.lookup "name").getD ""
  if items.any (fun i => i.name == name) then
    .ok (items.map (fun i => if i.name = name then { i with value := c.read i.kind p.text } else i))
  else .abort

/-- interface.cc:62-90 `InitWithXml`. -/
def matcherParams (c : Conv) : List MatcherItem → List Xml → Outcome (List MatcherItem)
  | items, [] => .ok items
  | items, p :: ps => do
    let items ← matcherParam c items p
    matcherParams c items ps

/-- interface.cc:139-173 `CreateMatcher`: the items of the new matcher, `none` for a null pointer.
The deprecated types 2 and 4 are fatal. -/
def createMatcher (c : Conv) (type : Int) (node : Option Xml) : Outcome (Option (List MatcherItem)) :=
  if type = 2 ∨ type = 4 then .abort
  else match matcherItems type with
    | none => .ok none
    | some items => do
      let items ← matcherParams c items
        ((node.map Xml.kids).getD [] |>.filter (fun k => k.name == "param"))
      return some items

structure BuilderCfg where
  settings : Settings
  scanMatcher : List MatcherItem
  submapNode : Option Xml            -- submap_matcher_options.registrator_options_node

/-- map_builder_options.cc:60-69 `CheckOptions`. -/
def checkOptions (o : Settings) : Outcome Unit := do
  Outcome.check ((o "back_end_options.loop_detector_setting.use_gps").toBool = true ∨
    (o "back_end_options.loop_detector_setting.use_descriptor").toBool = true)
  Outcome.check (1 ≤ (o "front_end_options.accumulate_cloud_num").toInt)
  Outcome.check (1 / 2 < (o "output_mrvm_settings.hit_prob").toNum)
  Outcome.check ((o "output_mrvm_settings.miss_prob").toNum < 1 / 2)
  Outcome.check (1 ≤ (o "output_mrvm_settings.max_point_num_in_cell").toInt)

/-- map_builder.cc:62-76 : the part of `InitialiseInside` that can fail. -/
def initialiseInside (c : Conv) (o : Settings) (scanNode submapNode : Option Xml) : Outcome BuilderCfg := do
  let m ← createMatcher c (o "front_end_options.scan_matcher_options.type").toInt scanNode
  Outcome.check (m.isSome = true)
  Outcome.check ((o "front_end_options.imu_options.enabled").toBool = true →
    1 / 1000000 < (o "front_end_options.imu_options.frequency").toNum)
  return { settings := o, scanMatcher := m.getD [], submapNode := submapNode }

/-- What the file system holds under the given name. -/
inductive ConfigFile where
  | missing
  | malformed
  | doc (root : Xml)                 -- the document node; its children are the top elements

/-- map_builder_options.cc:105-320 : reading the `static_mapping` element. -/
def readConfig (c : Conv) (mkdir : List Char → Bool) (sm : Xml) : Outcome BuilderCfg := do
  let o := getSingle c (some sm) defaultSettings exportRow
  let o ← dirStep mkdir exportRow.target o
  let o := getSingle c (some sm) o packageRow
  let o ← dirStep mkdir packageRow.target o
  let o := getRows c (some sm) wholeRows o
  let o := getRows c (some sm) mrvmRows o
  let front := xmlChild (some sm) "front_end_options"
  let o := if front.isSome then getRows c front scanRows o else o
  let scanNode := registratorNode c front "scan_matcher_options"
    (o "front_end_options.scan_matcher_options.type").toInt
  let o := if front.isSome then getRows c front frontRows (getRows c (some sm) accumulateRows o) else o
  let back := xmlChild (some sm) "back_end_options"
  let o := if back.isSome then getRows c back submapRows o else o
  let submapNode := registratorNode c back "submap_matcher_options"
    (o "back_end_options.submap_matcher_options.type").toInt
  let o := if back.isSome then getRows c back backRows o else o
  let o := getRows c (some sm) pkgRows o
  checkOptions o
  initialiseInside c o scanNode submapNode

/-- map_builder_options.cc:71-322 `Initialise` on a new map builder. A null file name is handed to
`std::ifstream` (line 77), which is undefined. -/
def initialise (c : Conv) (mkdir : List Char → Bool) (name : Option String) (file : ConfigFile) :
    Outcome BuilderCfg :=
  match name with
  | none => .ub
  | some n =>
    let node : Option Xml :=
      if n = "" then none
      else match file with
        | .missing => none
        | .malformed => none
        | .doc root => xmlChild (xmlChild (some root) "edward_liu") "static_mapping"
    match node with
    | none => initialiseInside c defaultSettings none none
    | some sm => readConfig c mkdir sm

/-- map_builder.cc:407-416 : the matcher of two submaps is created from the stored options whenever a
pair is matched; a null pointer fails the check. -/
def submapMatcher (c : Conv) (b : BuilderCfg) : Outcome (List MatcherItem) := do
  let m ← createMatcher c (b.settings "back_end_options.submap_matcher_options.type").toInt b.submapNode
  Outcome.check (m.isSome = true)
  return m.getD []

end Verif
