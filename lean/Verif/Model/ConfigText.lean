import Verif.Model.Config
import Verif.Model.FilterConfig
import Verif.Model.XmlNum
/-
Starting a map builder from the text of a settings file: the parser (`Xml`), the conversions of
pugixml (`XmlNum`), the table of options (`Config`) and the filter section (`FilterConfig`) put
together as `MapBuilder::Initialise` does (builder/map_builder_options.cc:71-322).
-/
namespace Verif

/-- The elements of a parsed document as `Config` takes them: every element with its attributes, its
first text (pugixml.cc:6343-6356) and its child elements. -/
def toXml : XmlForest → List Xml
  | .nil => []
  | .elem n a k t =>
    .node (String.ofList n) (a.map fun p => (String.ofList p.1, String.ofList p.2))
      (String.ofList (k.firstText.getD [])) (toXml k) :: toXml t
  | .text _ t => toXml t

/-- pugixml's `as_bool`, `as_int`, `as_float`, `as_double`. -/
def textConv : Conv where
  asBool s := getBool s.toList
  asInt s := getInt s.toList
  asFloat s := getFloat s.toList
  asDouble s := getDouble s.toList

/-- map_builder_options.cc:77-86 : the file, if it is there, is parsed. -/
def configFile (content : Option (List Char)) : ConfigFile :=
  match content with
  | none => .missing
  | some bytes =>
    match loadXml bytes with
    | .ok f => .doc (.node "" [] "" (toXml f))
    | .error _ => .malformed

/-- map_builder_options.cc:87-97. -/
def configNode (name : String) (file : ConfigFile) : Option Xml :=
  if name = "" then none
  else match file with
    | .doc root => xmlChild (xmlChild (some root) "edward_liu") "static_mapping"
    | _ => none

/-- filter_interface.cc:39-56 : one `param` element of a filter. -/
def filterParamOf (p : Xml) : XmlParam where
  type := (p.attrs.lookup "type").map textConv.asInt
  name := (p.attrs.lookup "name").getD ""
  asInt := textConv.asInt p.text
  asFloat := textConv.asFloat p.text

/-- filter_factory.cc:64-66, filter_interface.cc:37-38. -/
def filterOf (x : Xml) : XmlFilter where
  tag := x.name
  name := (x.attrs.lookup "name").getD ""
  params := (x.kids.filter fun k => k.name == "param").map filterParamOf

/-- map_builder_options.cc:170-173, filter_factory.cc:64-65 : the `filter` elements of the section. -/
def filterSection (sm : Xml) : List XmlFilter :=
  ((((xmlChild (some sm) "filters").map Xml.kids).getD []).filter fun k => k.name == "filter").map filterOf

/-- filter_ground_removal.cc:29-39. -/
def groundRemovalConfig : FilterConfig where
  name := "GroundRemoval"
  params := [⟨"leaf_size", .float, 8 / 10⟩, ⟨"height_threshold", .float, 15 / 100⟩, ⟨"min_point_num_in_voxel", .int32, 10⟩]
  valid _ := true

/-- filter_ground_removal2.cc:74-106; `slope` is `std::tan(M_PI / 12.)`. -/
def groundRemoval2Config (slope : Rat) : FilterConfig where
  name := "GroundRemoval2"
  params := [⟨"r_max", .float, 100⟩, ⟨"r_min", .float, 1⟩, ⟨"start_ground_height", .float, -25 / 100⟩,
    ⟨"long_line_threshold", .float, 1⟩, ⟨"max_long_line_height", .float, 1 / 10⟩, ⟨"max_start_height", .float, 2 / 10⟩,
    ⟨"max_error", .float, 5 / 100⟩, ⟨"max_slope", .float, slope⟩, ⟨"max_b", .float, 1 / 10⟩,
    ⟨"max_dist_to_line", .float, 5 / 100⟩, ⟨"search_angle", .float, 10⟩, ⟨"bin_num", .int32, 200⟩,
    ⟨"segment_num", .int32, 180⟩, ⟨"thread_num", .int32, 4⟩]
  valid _ := true

/-- filter_range_image.cc:29-54. -/
def rangeImageConfig : FilterConfig where
  name := "RangeImage"
  params := [⟨"top_angle", .float, 30⟩, ⟨"btm_angle", .float, -15⟩, ⟨"offset_x", .float, 0⟩, ⟨"offset_y", .float, 0⟩,
    ⟨"offset_z", .float, 0⟩, ⟨"vertical_line_num", .int32, 40⟩, ⟨"horizontal_line_num", .int32, 1800⟩]
  valid _ := true

/-- filter_statistic_removal.cc:31-37. -/
def statisticRemovalConfig : FilterConfig where
  name := "StatisticRemoval"
  params := [⟨"std_mul", .float, 1⟩, ⟨"point_num_meank", .int32, 30⟩]
  valid _ := true

/-- filter_factory.cc:108-124 `RegisterSupportedFilters`. `fmax` is the largest `float`. -/
def supportedFilters (fmax slope : Rat) : List FilterConfig :=
  [randomSamplerConfig, rangeImageConfig, groundRemovalConfig, groundRemoval2Config slope, rangeConfig fmax,
    statisticRemovalConfig, voxelGridConfig, axisRangeConfig fmax, boxRemovalConfig fmax]

/-- map_builder_options.cc:113-125 : the two directories. -/
def makeDirs (mkdir : List Char → Bool) (sm : Xml) : Outcome Settings := do
  let o ← dirStep mkdir exportRow.target (getSingle textConv (some sm) defaultSettings exportRow)
  dirStep mkdir packageRow.target (getSingle textConv (some sm) o packageRow)

/-- map_builder_options.cc:71-322 `Initialise` with a file name: `content` is what the file holds, if
there is one.  The directories come before the filters and those before everything else that can
fail; `readConfig` goes through the directories once more. -/
def startBuilder (mkdir : List Char → Bool) (fmax slope : Rat) (name : String) (content : Option (List Char)) :
    Outcome (BuilderCfg × List FilterConfig) :=
  match configNode name (configFile content) with
  | none => do
    let r ← initialise textConv mkdir (some name) (configFile content)
    return (r, [])
  | some sm => do
    let _ ← makeDirs mkdir sm
    let fs ← factoryInit (supportedFilters fmax slope) (filterSection sm)
    let r ← readConfig textConv mkdir sm
    return (r, fs)

end Verif
