import Verif.Model.Filters
import Verif.Model.Floats
/-! XML configuration of filters: pre_processors/xml_interface.h, filter_interface.cc,
filter_factory.cc, and the filters' parameter tables. -/
namespace Verif

/-- pre_processors/xml_interface.h:38 (`kParamTypeCount` is never registered). -/
inductive ParamType
  | int32
  | float
  deriving DecidableEq, Repr

/-- One entry of `name_to_param_` together with the member it points to (xml_interface.h:39-45, 82).
Values are rationals; what is assigned to a `float` member is rounded, the defaults are as written. -/
structure ParamItem where
  name : String
  type : ParamType
  value : Rat
  deriving DecidableEq, Repr

/-- A `<param>` element: the `type` attribute (`none` if missing, `as_int` otherwise), the `name`
attribute and its text read as an `int` and as a `float` (pugixml's conversions, not modelled). -/
structure XmlParam where
  type : Option Int
  name : String
  asInt : Int
  asFloat : Rat

/-- A `<filter>` element. -/
structure XmlFilter where
  tag : String := "filter"
  name : String
  params : List XmlParam

/-- `static_cast` to the registered type (xml_interface.h:61-69); a float outside `int32_t` is
undefined, and an integer above 2^24 is rounded to the nearest `float`. -/
def castTo (t : ParamType) (v : Rat) : Outcome Rat :=
  match t with
  | .float => .ok (toF32 v)
  | .int32 => if -2147483648 ≤ truncInt v ∧ truncInt v ≤ 2147483647 then .ok (truncInt v : Rat) else .ub

/-- xml_interface.h:54-75 `SetValue`; `none` is the result `false`. -/
def setValue (name : String) (v : Rat) : List ParamItem → Outcome (Option (List ParamItem))
  | [] => .ok none
  | p :: ps =>
    if p.name = name then do
      let w ← castTo p.type v
      return some ({ p with value := w } :: ps)
    else do
      let r ← setValue name v ps
      return r.map (p :: ·)

/-- filter_interface.cc:39-56 : one `<param>`. -/
def applyParam (t : List ParamItem) (p : XmlParam) : Outcome (List ParamItem) :=
  match p.type with
  | some 0 => do
    let r ← setValue p.name p.asInt t
    match r with
    | some t => return t
    | none => .abort
  | some 1 => do
    let r ← setValue p.name p.asFloat t
    match r with
    | some t => return t
    | none => .abort
  | _ => .abort

/-- filter_interface.cc:38-57. -/
def applyParams : List ParamItem → List XmlParam → Outcome (List ParamItem)
  | t, [] => .ok t
  | t, p :: ps => do
    let t ← applyParam t p
    applyParams t ps

/-- A filter as far as configuration goes: `GetName`, the parameter table, `ConfigsValid`. -/
structure FilterConfig where
  name : String
  params : List ParamItem
  valid : List ParamItem → Bool

/-- filter_interface.cc:29-59 `InitFromXmlNode`: result and the filter afterwards. -/
def FilterConfig.init (f : FilterConfig) (x : XmlFilter) : Outcome (Bool × FilterConfig) := do
  Outcome.check (x.tag = "filter")
  if f.name = "" ∨ x.name ≠ f.name then return (false, f)
  else do
    let t ← applyParams f.params x.params
    return (f.valid t, { f with params := t })

/-- The value of a member. -/
def paramValue (t : List ParamItem) (n : String) : Option Rat :=
  (t.find? (fun p => decide (p.name = n))).map ParamItem.value

/-- filter_voxel_grid.cc:28-35 (`voxel_size_` defaults to 0.1f; the float rounding of the literals
1e-6 and 0.1f is ignored). -/
def voxelGridConfig : FilterConfig where
  name := "VoxelGrid"
  params := [⟨"voxel_size", .float, 1 / 10⟩]
  valid t := match paramValue t "voxel_size" with
    | some v => decide (1 / 1000000 < v)
    | none => false

/-- filter_random_sample.cc:28-39. -/
def randomSamplerConfig : FilterConfig where
  name := "RandomSampler"
  params := [⟨"sampling_rate", .float, 1⟩]
  valid t := match paramValue t "sampling_rate" with
    | some v => decide (0 ≤ v ∧ v ≤ 1)
    | none => false

/-- filter_range.cc:31-38; no check of its own (filter_interface.h:50). -/
def rangeConfig (fmax : Rat) : FilterConfig where
  name := "Range"
  params := [⟨"min_range", .float, 0⟩, ⟨"max_range", .float, fmax⟩]
  valid _ := true

/-- filter_bounding_box.cc:30-51, filter_bounding_box.h. -/
def boxRemovalConfig (fmax : Rat) : FilterConfig where
  name := "BoundingBoxRemoval"
  params := [⟨"min_x", .float, -fmax⟩, ⟨"min_y", .float, -fmax⟩, ⟨"min_z", .float, -fmax⟩,
    ⟨"max_x", .float, fmax⟩, ⟨"max_y", .float, fmax⟩, ⟨"max_z", .float, fmax⟩]
  valid t := match paramValue t "min_x", paramValue t "max_x", paramValue t "min_y", paramValue t "max_y",
      paramValue t "min_z", paramValue t "max_z" with
    | some a, some b, some c, some d, some e, some f => decide (a < b ∧ c < d ∧ e < f)
    | _, _, _, _, _, _ => false

/-- filter_axis_range.cc:27-45, the limits default to ∓`fmax`. -/
def axisRangeConfig (fmax : Rat) : FilterConfig where
  name := "AxisRange"
  params := [⟨"min", .float, -fmax⟩, ⟨"max", .float, fmax⟩, ⟨"axis_index", .int32, 2⟩]
  valid t := match paramValue t "min", paramValue t "max", paramValue t "axis_index" with
    | some a, some b, some i => decide (a < b ∧ 0 ≤ i ∧ i ≤ 2)
    | _, _, _ => false

/-- submap.cc:148-154 : the text built for the voxel filter of a submap. -/
def submapVoxelXml (voxelSize : Rat) (asInt : Int) : XmlFilter where
  name := "RandomSampler"
  params := [⟨some 1, "voxel_size", asInt, voxelSize⟩]

/-- submap.cc:146-156 : the voxel filter a submap runs. -/
def submapVoxelFilter (voxelSize : Rat) (asInt : Int) : Outcome FilterConfig := do
  let r ← voxelGridConfig.init (submapVoxelXml voxelSize asInt)
  return r.2

/-- filter_factory.cc:63-81 `InitFromXmlNode`: names that are not supported are skipped, every other
filter is appended whatever `InitFromXmlNode` returned. -/
def factoryInit (supported : List FilterConfig) : List XmlFilter → Outcome (List FilterConfig)
  | [] => .ok []
  | x :: xs =>
    match supported.find? (fun f => decide (f.name = x.name)) with
    | none => factoryInit supported xs
    | some f => do
      let r ← f.init x
      let rest ← factoryInit supported xs
      return r.2 :: rest

end Verif
