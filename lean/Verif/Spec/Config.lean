import Verif.Model.Config
namespace Verif.Spec

/-- The text of an attribute: follow the first element of each name from the `static_mapping`
element. -/
def optionText (sm : Xml) (path : List String) (attr : String) : Option String :=
  xmlAttr (path.foldl xmlChild (some sm)) attr

/-- The value the user asked for: the attribute if it is written, otherwise the default. -/
def effective (c : Conv) (sm : Xml) (path : List String) (attr : String) (kind : OptKind)
    (dflt : OptVal) : OptVal :=
  ((optionText sm path attr).map (c.read kind)).getD dflt

/-- Every option except the two directories: where it is written, its kind, and the member of the
builder's options it is meant for. -/
def documented : List (List String × String × OptKind × String) :=
  [
   (["whole_options"], "odom_calib_mode", .int,
     "whole_options.odom_calib_mode"),
   (["whole_options"], "separate_output", .bool,
     "whole_options.separate_output"),
   (["whole_options"], "output_direct_combined_map", .bool,
     "whole_options.output_direct_combined_map"),
   (["whole_options"], "output_mrvm", .bool,
     "whole_options.output_mrvm"),
   (["whole_options"], "output_kitti_pose", .bool,
     "whole_options.output_kitti_pose"),
   (["whole_options"], "separate_step", .int,
     "whole_options.separate_step"),
   (["output_mrvm_settings"], "output_average", .bool,
     "output_mrvm_settings.output_average"),
   (["output_mrvm_settings"], "output_rgb", .bool,
     "output_mrvm_settings.output_rgb"),
   (["output_mrvm_settings"], "use_max_intensity", .bool,
     "output_mrvm_settings.use_max_intensity"),
   (["output_mrvm_settings"], "prob_threshold", .float,
     "output_mrvm_settings.prob_threshold"),
   (["output_mrvm_settings"], "low_resolution", .float,
     "output_mrvm_settings.low_resolution"),
   (["output_mrvm_settings"], "high_resolution", .float,
     "output_mrvm_settings.high_resolution"),
   (["output_mrvm_settings"], "hit_prob", .float,
     "output_mrvm_settings.hit_prob"),
   (["output_mrvm_settings"], "miss_prob", .float,
     "output_mrvm_settings.miss_prob"),
   (["output_mrvm_settings"], "z_offset", .float,
     "output_mrvm_settings.z_offset"),
   (["output_mrvm_settings"], "max_point_num_in_cell", .int,
     "output_mrvm_settings.max_point_num_in_cell"),
   (["front_end_options"], "accumulate_cloud_num", .int,
     "front_end_options.accumulate_cloud_num"),
   (["front_end_options", "motion_filter"], "translation_range", .float,
     "front_end_options.motion_filter.translation_range"),
   (["front_end_options", "motion_filter"], "angle_range", .float,
     "front_end_options.motion_filter.angle_range"),
   (["front_end_options", "motion_filter"], "time_range", .float,
     "front_end_options.motion_filter.time_range"),
   (["front_end_options", "motion_compensation_options"], "enable", .bool,
     "front_end_options.motion_compensation_options.enable"),
   (["front_end_options", "motion_compensation_options"], "use_average", .bool,
     "front_end_options.motion_compensation_options.use_average"),
   (["front_end_options", "imu_options"], "use_imu", .bool,
     "front_end_options.imu_options.enabled"),
   (["front_end_options", "imu_options"], "type", .int,
     "front_end_options.imu_options.type"),
   (["front_end_options", "imu_options"], "imu_frequency", .float,
     "front_end_options.imu_options.frequency"),
   (["front_end_options", "imu_options"], "gravity_constant", .float,
     "front_end_options.imu_options.gravity_constant"),
   (["back_end_options", "submap_options"], "frame_count", .int,
     "back_end_options.submap_options.frame_count"),
   (["back_end_options", "submap_options"], "enable_inner_mrvm", .bool,
     "back_end_options.submap_options.enable_inner_mrvm"),
   (["back_end_options", "submap_options"], "enable_voxel_filter", .bool,
     "back_end_options.submap_options.enable_voxel_filter"),
   (["back_end_options", "submap_options"], "enable_random_sampleing", .bool,
     "back_end_options.submap_options.enable_random_sampleing"),
   (["back_end_options", "submap_options"], "random_sampling_rate", .float,
     "back_end_options.submap_options.random_sampling_rate"),
   (["back_end_options", "submap_options"], "voxel_size", .float,
     "back_end_options.submap_options.voxel_size"),
   (["back_end_options", "submap_options"], "enable_disk_saving", .bool,
     "back_end_options.submap_options.enable_disk_saving"),
   (["back_end_options", "submap_options"], "enable_check", .bool,
     "back_end_options.submap_options.enable_check"),
   (["back_end_options", "submap_options"], "disk_saving_delay", .int,
     "back_end_options.submap_options.disk_saving_delay"),
   (["back_end_options", "submap_options"], "saving_name_prefix", .string,
     "back_end_options.submap_options.saving_name_prefix"),
   (["back_end_options", "isam_optimizer_options"], "use_odom", .bool,
     "back_end_options.isam_optimizer_options.use_odom"),
   (["back_end_options", "isam_optimizer_options"], "use_gps", .bool,
     "back_end_options.isam_optimizer_options.use_gps"),
   (["back_end_options", "isam_optimizer_options"], "output_graph_pic", .bool,
     "back_end_options.isam_optimizer_options.output_graph_pic"),
   (["back_end_options", "isam_optimizer_options"], "enable_extrinsic_calib", .bool,
     "back_end_options.isam_optimizer_options.enable_extrinsic_calib"),
   (["back_end_options", "isam_optimizer_options"], "gps_factor_init_num", .int,
     "back_end_options.isam_optimizer_options.gps_factor_init_num"),
   (["back_end_options", "isam_optimizer_options"], "gps_factor_sample_step", .int,
     "back_end_options.isam_optimizer_options.gps_factor_sample_step"),
   (["back_end_options", "isam_optimizer_options"], "gps_factor_init_angle_rad", .double,
     "back_end_options.isam_optimizer_options.gps_factor_init_angle_rad"),
   (["back_end_options", "loop_detector_setting"], "use_gps", .bool,
     "back_end_options.loop_detector_setting.use_gps"),
   (["back_end_options", "loop_detector_setting"], "use_descriptor", .bool,
     "back_end_options.loop_detector_setting.use_descriptor"),
   (["back_end_options", "loop_detector_setting"], "output_matched_cloud", .bool,
     "back_end_options.loop_detector_setting.output_matched_cloud"),
   (["back_end_options", "loop_detector_setting"], "trying_detect_loop_count", .int,
     "back_end_options.loop_detector_setting.trying_detect_loop_count"),
   (["back_end_options", "loop_detector_setting"], "loop_ignore_threshold", .int,
     "back_end_options.loop_detector_setting.loop_ignore_threshold"),
   (["back_end_options", "loop_detector_setting"], "nearest_history_pos_num", .int,
     "back_end_options.loop_detector_setting.nearest_history_pos_num"),
   (["back_end_options", "loop_detector_setting"], "max_close_loop_distance", .float,
     "back_end_options.loop_detector_setting.max_close_loop_distance"),
   (["back_end_options", "loop_detector_setting"], "max_close_loop_z_distance", .float,
     "back_end_options.loop_detector_setting.max_close_loop_z_distance"),
   (["back_end_options", "loop_detector_setting"], "m2dp_match_score", .float,
     "back_end_options.loop_detector_setting.m2dp_match_score"),
   (["back_end_options", "loop_detector_setting"], "accept_scan_match_score", .float,
     "back_end_options.loop_detector_setting.accept_scan_match_score"),
   (["map_package_options"], "enable", .bool,
     "map_package_options.enable"),
   (["map_package_options"], "border_offset", .double,
     "map_package_options.border_offset"),
   (["map_package_options"], "piece_width", .double,
     "map_package_options.piece_width"),
   (["map_package_options"], "cloud_file_prefix", .string,
     "map_package_options.cloud_file_prefix"),
   (["map_package_options"], "descript_filename", .string,
     "map_package_options.descript_filename"),
   (["front_end_options", "scan_matcher_options"], "type", .int,
     "front_end_options.scan_matcher_options.type"),
   (["front_end_options", "scan_matcher_options"], "accepted_min_score", .float,
     "front_end_options.scan_matcher_options.accepted_min_score"),
   (["back_end_options", "submap_matcher_options"], "type", .int,
     "back_end_options.submap_matcher_options.type"),
   (["back_end_options", "submap_matcher_options"], "accepted_min_score", .float,
     "back_end_options.submap_matcher_options.accepted_min_score")]

/-- A directory name with a slash at its end. -/
def withSlash (p : List Char) : List Char := if p.getLast? = some '/' then p else p ++ ['/']

/-- The parameter names a matcher type knows, for the types that can be used. -/
def knownParams (type : Int) : Option (List String) :=
  if type = 1 ∨ type = 5 then some []
  else if type = 3 then some ["use_ndt", "using_voxel_filter", "voxel_resolution"]
  else if type = 6 then some ["knn_normal_estimate", "max_iteration", "dist_outlier_ratio"]
  else none

/-- The names of the parameters written for a matcher: those of the first `registrator_options`
element of its type. -/
def writtenParams (c : Conv) (sm : Xml) (path : List String) (type : Int) : List String :=
  match (((path.foldl xmlChild (some sm)).map Xml.kids).getD []).find?
      (fun k => k.name == "registrator_options" && ((k.attrs.lookup "type").map c.asInt).getD 0 == type) with
  | none => []
  | some k => (k.kids.filter (fun p => p.name == "param")).map (fun p => (p.attrs.lookup "name").getD "")

/-- A matcher section that can be used. -/
def MatcherUsable (c : Conv) (sm : Xml) (path : List String) : Prop :=
  ∃ names, knownParams (effective c sm path "type" .int (.int 1)).toInt = some names ∧
    ∀ n ∈ writtenParams c sm path (effective c sm path "type" .int (.int 1)).toInt, n ∈ names

def exportPath (c : Conv) (sm : Xml) : List Char :=
  (effective c sm ["whole_options"] "export_file_path" .string (.str ['.', '/'])).toStr
def packagePath (c : Conv) (sm : Xml) : List Char :=
  (effective c sm ["whole_options"] "map_package_path" .string (.str ['.', '/'])).toStr

/-- A configuration the builder can work with. -/
structure Usable (c : Conv) (mkdir : List Char → Bool) (sm : Xml) : Prop where
  exportDir : exportPath c sm ≠ [] ∧ mkdir (exportPath c sm) = true
  packageDir : packagePath c sm ≠ [] ∧ mkdir (packagePath c sm) = true
  loops : (effective c sm ["back_end_options", "loop_detector_setting"] "use_gps" .bool (.bool false)).toBool
      = true ∨
    (effective c sm ["back_end_options", "loop_detector_setting"] "use_descriptor" .bool
      (.bool false)).toBool = true
  accumulate : 1 ≤ (effective c sm ["front_end_options"] "accumulate_cloud_num" .int (.int 1)).toInt
  hit : 1 / 2 < (effective c sm ["output_mrvm_settings"] "hit_prob" .float (.num (55 / 100))).toNum
  miss : (effective c sm ["output_mrvm_settings"] "miss_prob" .float (.num (48 / 100))).toNum < 1 / 2
  cell : 1 ≤ (effective c sm ["output_mrvm_settings"] "max_point_num_in_cell" .int (.int 10)).toInt
  scan : MatcherUsable c sm ["front_end_options", "scan_matcher_options"]
  imu : (effective c sm ["front_end_options", "imu_options"] "use_imu" .bool (.bool true)).toBool = true →
    1 / 1000000 < (effective c sm ["front_end_options", "imu_options"] "imu_frequency" .float (.num 0)).toNum

/-- The `static_mapping` element a file gives, if any. -/
def topElement (name : String) (file : ConfigFile) : Option Xml :=
  match file with
  | .doc root => if name = "" then none
      else xmlChild (xmlChild (some root) "edward_liu") "static_mapping"
  | _ => none

/-- The values of the options that are not written, by section, from the initialisers in
builder/map_builder.h:68-115, builder/multi_resolution_voxel_map.h:55-65, builder/submap_options.h:30-42,
builder/map_package.h:36-41, back_end/isam_optimizer.h:59-66, back_end/loop_detector_options.h:29-39 and
registrators/interface.h:59-61 (`kIcpPM` is 1, `kNormalImu` is 0, `kOnlineCalib` is 1). -/
def headerDefaults : List (List String × List (String × OptVal)) :=
  [(["whole_options"], [("odom_calib_mode", .int 1), ("separate_output", .bool false), ("output_mrvm", .bool true),
      ("output_direct_combined_map", .bool true), ("output_kitti_pose", .bool false), ("separate_step", .int 200)]),
   (["output_mrvm_settings"], [("output_average", .bool false), ("output_rgb", .bool false),
      ("use_max_intensity", .bool true), ("prob_threshold", .num (3 / 5)), ("low_resolution", .num 1),
      ("high_resolution", .num (1 / 10)), ("hit_prob", .num (11 / 20)), ("miss_prob", .num (12 / 25)), ("z_offset", .num 0),
      ("max_point_num_in_cell", .int 10)]),
   (["front_end_options"], [("accumulate_cloud_num", .int 1)]),
   (["front_end_options", "scan_matcher_options"], [("type", .int 1), ("accepted_min_score", .num (7 / 10))]),
   (["front_end_options", "motion_filter"], [("translation_range", .num (7 / 20)), ("angle_range", .num (3 / 2)), ("time_range", .num 0)]),
   (["front_end_options", "motion_compensation_options"], [("enable", .bool true), ("use_average", .bool true)]),
   (["front_end_options", "imu_options"], [("use_imu", .bool true), ("type", .int 0), ("imu_frequency", .num 0),
      ("gravity_constant", .num (49 / 5))]),
   (["back_end_options", "submap_matcher_options"], [("type", .int 1), ("accepted_min_score", .num (7 / 10))]),
   (["back_end_options", "submap_options"], [("frame_count", .int 5), ("enable_inner_mrvm", .bool false),
      ("enable_voxel_filter", .bool false), ("enable_random_sampleing", .bool false), ("random_sampling_rate", .num (1 / 2)),
      ("voxel_size", .num (1 / 10)), ("enable_disk_saving", .bool false), ("enable_check", .bool true),
      ("disk_saving_delay", .int 10), ("saving_name_prefix", .str "submap_".toList)]),
   (["back_end_options", "isam_optimizer_options"], [("use_odom", .bool false), ("use_gps", .bool false),
      ("output_graph_pic", .bool false), ("enable_extrinsic_calib", .bool true), ("gps_factor_init_num", .int 25),
      ("gps_factor_sample_step", .int 1), ("gps_factor_init_angle_rad", .num (8 / 5))]),
   (["back_end_options", "loop_detector_setting"], [("use_gps", .bool false), ("use_descriptor", .bool false),
      ("output_matched_cloud", .bool false), ("loop_ignore_threshold", .int 15), ("trying_detect_loop_count", .int 1),
      ("nearest_history_pos_num", .int 4), ("max_close_loop_distance", .num 25), ("max_close_loop_z_distance", .num 1),
      ("m2dp_match_score", .num (99 / 100)), ("accept_scan_match_score", .num (3 / 4))]),
   (["map_package_options"], [("enable", .bool true), ("border_offset", .num 100), ("piece_width", .num 500),
      ("cloud_file_prefix", .str "part_".toList), ("descript_filename", .str "map_package.xml".toList)])]

/-- The value of an option that is not written. -/
def headerDefault (path : List String) (attr : String) : Option OptVal := (headerDefaults.lookup path).bind (·.lookup attr)

end Verif.Spec
