import Verif.Model.ConfigText
import Verif.Model.Extrinsics
/-
ros_node/static_mapping_node.cpp:91-383 : from the command line of the mapping node to the builder
that is about to get data, and the lines of the scripts mapping*.sh that call it.

Words are lists of characters.  From outside come (`NodeWorld`): which topic names ROS accepts, which
files are there, what the settings file holds, the links of the URDF file, the answers of the running
transform tree, and whether the builder accepts the mounting of the IMU
(`setTrackingToImu` in `Extrinsics`).  A refused topic name is an exception that nobody catches.
-/
namespace Verif

/-- `std::strstr`, `std::string::find` : `pat` occurs in the text. -/
def holdsText (pat : List Char) : List Char → Bool
  | [] => pat.isEmpty
  | c :: cs => pat.isPrefixOf (c :: cs) || holdsText pat cs

/-- static_mapping_node.cpp:92 `ros::init` takes the remappings `name:=value` out of the command line
(roscpp/init.cpp). -/
def rosInit (argv : List (List Char)) : List (List Char) :=
  argv.filter fun w => !holdsText [':', '='] w

/-- The options of the command line. -/
inductive NodeFlag where
  | pc | pcFrame | imu | imuFrame | odom | odomFrame | gps | gpsFrame | cfg | urdf | track | bag | kitti | pubs
  deriving DecidableEq

/-- static_mapping_node.cpp:107-201 : how they are written. -/
def NodeFlag.word : NodeFlag → List Char
  | .pc => ['-', 'p', 'c']
  | .pcFrame => ['-', 'p', 'c', '_', 'f', 'r', 'a', 'm', 'e', '_', 'i', 'd']
  | .imu => ['-', 'i', 'm', 'u']
  | .imuFrame => ['-', 'i', 'm', 'u', '_', 'f', 'r', 'a', 'm', 'e', '_', 'i', 'd']
  | .odom => ['-', 'o', 'd', 'o', 'm']
  | .odomFrame => ['-', 'o', 'd', 'o', 'm', '_', 'f', 'r', 'a', 'm', 'e', '_', 'i', 'd']
  | .gps => ['-', 'g', 'p', 's']
  | .gpsFrame => ['-', 'g', 'p', 's', '_', 'f', 'r', 'a', 'm', 'e', '_', 'i', 'd']
  | .cfg => ['-', 'c', 'f', 'g']
  | .urdf => ['-', 'u', 'r', 'd', 'f']
  | .track => ['-', 't', 'r', 'a', 'c', 'k']
  | .bag => ['-', 'b', 'a', 'g']
  | .kitti => ['-', 'k', 'i', 't', 't', 'i']
  | .pubs => ['-', 'p', 'u', 'b', 's']

/-- static_mapping_node.cpp:106-200 : the values without the option. -/
def NodeFlag.default : NodeFlag → List Char
  | .pcFrame | .track => ['b', 'a', 's', 'e', '_', 'l', 'i', 'n', 'k']
  | .imuFrame => ['/', 'n', 'o', 'v', 'a', 't', 'e', 'l', '_', 'i', 'm', 'u']
  | _ => []

/-- `pcl::console::find_argument`, `parse_argument` : the word behind the first place of the option. -/
def argAfter (name : List Char) : List (List Char) → Option (List Char)
  | [] => none
  | w :: rest => if w = name then rest.head? else argAfter name rest

/-- The value of an option; the search begins behind the name of the program. -/
def nodeArg (argv : List (List Char)) (f : NodeFlag) : List Char :=
  (argAfter f.word ((rosInit argv).drop 1)).getD f.default

/-- Where the data come from (static_mapping_node.cpp:387-455). -/
inductive DataSource where
  | bag (file : List Char)
  | kitti (dir : List Char)
  | live
  deriving DecidableEq

structure NodeWorld (G : Type) where
  nameOk : List Char → Bool
  fileExists : List Char → Bool
  content : List Char → Option (List Char)
  urdf : List Char → Option (List (UrdfLink G (List Char)))
  live : List Char → List Char → Outcome G
  imuOk : G → Bool
  mkdir : List Char → Bool
  fmax : Rat
  slope : Rat

/-- What the builder has been told when the first message comes. -/
structure NodeRun (G : Type) where
  toLidar : G
  toImu : Option G
  odomToLidar : Option G
  toOdom : Option G
  toGps : Option G
  cfg : BuilderCfg × List FilterConfig
  useOdom : Bool
  useGps : Bool
  showMap : Bool
  showSubmap : Bool
  showPath : Bool
  showEdge : Bool
  source : DataSource

inductive NodeEnd (G : Type) where
  | exit (code : Int)              -- before the builder exists
  | noImu                          -- 361-364 : the settings want an IMU, the command line has none
  | run (r : NodeRun G)

section
variable {G : Type} [Group G]

/-- 116-163 : `subscribe`, if the sensor is used. -/
def subscribeIf (w : NodeWorld G) (use : Bool) (topic : List Char) : Outcome Unit :=
  Outcome.check (use = true → w.nameOk topic = true)

/-- tf2's `canTransform`: it refuses empty names and names that begin with a slash
(tf2/buffer_core.cpp `warnFrameId`); otherwise as in `tfLookup`. -/
def bufferLookup (ts : List (List Char × List Char × G)) (target source : List Char) : Outcome G :=
  if target.head? = none ∨ target.head? = some '/' ∨ source.head? = none ∨ source.head? = some '/' then .abort
  else tfLookup ts target source

/-- 182-186, 189-194 : a path that does not exist is forgotten. -/
def existing (w : NodeWorld G) (path : List Char) : List Char :=
  if path ≠ [] ∧ w.fileExists path = false then [] else path

/-- 318-357 : one look-up; `lookup` is that of the buffer or of the listener. -/
def lookIf (use : Bool) (r : Outcome G) : Outcome (Option G) :=
  if use then do
    let g ← r
    return some g
  else return none

/-- 322-356 : the mountings. -/
def nodeLookups (w : NodeWorld G) (lookup : List Char → List Char → Outcome G) (arg : NodeFlag → List Char)
    (useImu useOdom useGps : Bool) : Outcome (G × Option G × Option G × Option G × Option G) := do
  let lidar ← lookup (arg .track) (arg .pcFrame)
  let imu ← lookIf useImu (do
    let g ← lookup (arg .track) (arg .imuFrame)
    Outcome.check (w.imuOk g)
    return g)
  let odomLidar ← lookIf useOdom (lookup (arg .odomFrame) (arg .pcFrame))
  let odom ← lookIf useOdom (lookup (arg .track) (arg .odomFrame))
  let gps ← lookIf useGps (lookup (arg .track) (arg .gpsFrame))
  return (lidar, imu, odomLidar, odom, gps)

/-- 320, 338-339 : the transforms of the URDF file (urdf_reader.cc:35 aborts if it cannot be read) or
the running transform tree. -/
def nodeLookup (w : NodeWorld G) (urdf : List Char) : Outcome (List Char → List Char → Outcome G) :=
  if urdf = [] then return w.live
  else match w.urdf urdf with
    | none => .abort
    | some links => return bufferLookup (urdfTransforms links)

/-- 358-367 : the settings; without a file the defaults. -/
def nodeConfig (w : NodeWorld G) (cfg : List Char) : Outcome (BuilderCfg × List FilterConfig) :=
  if cfg = [] then do
    let b ← initialise textConv w.mkdir none .missing
    return (b, [])
  else startBuilder w.mkdir w.fmax w.slope (String.ofList cfg) (w.content cfg)

/-- 360 : `options.front_end_options.imu_options.enabled`. -/
def imuWanted (b : BuilderCfg) : Bool := (b.settings "front_end_options.imu_options.enabled").toBool

/-- 387-455 : which of the three loops runs. -/
def dataSource (bag kitti : List Char) : DataSource :=
  if bag ≠ [] then .bag bag else if kitti ≠ [] then .kitti kitti else .live

/-- 120-163 : whether the three sensors are used. -/
def useImuOf (arg : NodeFlag → List Char) : Bool := arg .imu ≠ []
def useOdomOf (arg : NodeFlag → List Char) : Bool := arg .odom ≠ [] ∧ arg .odomFrame ≠ []
def useGpsOf (arg : NodeFlag → List Char) : Bool := arg .gps ≠ [] ∧ arg .gpsFrame ≠ []

/-- 318-383 : the builder is made and told everything. -/
def makeBuilder (w : NodeWorld G) (arg : NodeFlag → List Char) (source : DataSource) : Outcome (NodeEnd G) := do
  let lookup ← nodeLookup w (arg .urdf)
  let m ← nodeLookups w lookup arg (useImuOf arg) (useOdomOf arg) (useGpsOf arg)
  let cfg ← nodeConfig w (arg .cfg)
  if arg .cfg ≠ [] ∧ imuWanted cfg.1 = true ∧ useImuOf arg = false then return .noImu
  else return .run (
    { toLidar := m.1, toImu := m.2.1, odomToLidar := m.2.2.1, toOdom := m.2.2.2.1, toGps := m.2.2.2.2,
      cfg := cfg, useOdom := useOdomOf arg, useGps := useGpsOf arg,
      showMap := holdsText ['[', 'm', 'a', 'p', ']'] (arg .pubs),     -- 370-383
      showSubmap := holdsText ['[', 's', 'u', 'b', 'm', 'a', 'p', ']'] (arg .pubs),
      showPath := holdsText ['[', 'p', 'a', 't', 'h', ']'] (arg .pubs),
      showEdge := holdsText ['[', 'e', 'd', 'g', 'e', ']'] (arg .pubs),
      source := source })

/-- 106-383 with the values of the options. -/
def startWith (w : NodeWorld G) (arg : NodeFlag → List Char) : Outcome (NodeEnd G) :=
  if arg .pc = [] then return .exit (-1)                                  -- 108-110
  else do
    subscribeIf w true (arg .pc)                                          -- 115-116
    subscribeIf w (useImuOf arg) (arg .imu)                               -- 126-132
    subscribeIf w (useOdomOf arg) (arg .odom)                             -- 141-143
    subscribeIf w (useGpsOf arg) (arg .gps)                               -- 156-158
    Outcome.check (arg .track ≠ [])                                       -- 177-178
    if existing w (arg .kitti) ≠ [] ∧ existing w (arg .bag) ≠ [] then return .exit (-1)   -- 196-199
    else makeBuilder w arg (dataSource (existing w (arg .bag)) (existing w (arg .kitti)))

/-- 91-383 `main`. -/
def startNode (w : NodeWorld G) (argv : List (List Char)) : Outcome (NodeEnd G) :=
  startWith w (nodeArg argv)

end

/-- A piece of a word as the shell sees it without quotes: `[abc]` stands for one of the letters. -/
abbrev GlobPiece := List Char

/-- The shell's test whether a file name fits `[..][..]..`. -/
def globFits : List GlobPiece → List Char → Bool
  | [], [] => true
  | p :: ps, c :: cs => p.contains c && globFits ps cs
  | _, _ => false

/-- The text of the pattern itself. -/
def globText (ps : List GlobPiece) : List Char := ps.flatMap fun p => '[' :: p ++ [']']

/-- The shell: the names in the directory that fit (in the order of the directory listing, which is
sorted), or the pattern itself if none does. -/
def shellWords (files : List (List Char)) (ps : List GlobPiece) : List (List Char) :=
  let fit := files.filter fun f => globFits ps f
  if fit = [] then [globText ps] else fit

end Verif
