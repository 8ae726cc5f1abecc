import Verif.Model.StartNode
import Verif.Spec.Extrinsics
import Verif.Spec.ShippedFiles
/-! What the command line of the mapping node says. -/
namespace Verif.Spec
open Verif

/-- `part` occurs in the text. -/
def Contains (text part : List Char) : Prop := ∃ a b, text = a ++ part ++ b

/-- The words `ws` are left when the remappings `name:=value` of ROS are taken out of `argv`. -/
inductive Cleaned : List (List Char) → List (List Char) → Prop
  | nil : Cleaned [] []
  | keep {w argv ws} (h : ¬ Contains w [':', '=']) : Cleaned argv ws → Cleaned (w :: argv) (w :: ws)
  | drop {w argv ws} (h : Contains w [':', '=']) : Cleaned argv ws → Cleaned (w :: argv) ws

/-- The options and values of a list, one behind the other. -/
def optionWords : List (NodeFlag × List Char) → List (List Char)
  | [] => []
  | (f, v) :: l => f.word :: v :: optionWords l

/-- The command line is the name of the program and options with values, each option at most once, in
between perhaps remappings; no value looks like an option. -/
structure LineOf (pairs : List (NodeFlag × List Char)) (argv : List (List Char)) : Prop where
  words : ∃ prog, Cleaned argv (prog :: optionWords pairs)
  once : (pairs.map Prod.fst).Nodup
  plain : ∀ p ∈ pairs, ∀ f : NodeFlag, p.2 ≠ f.word

/-- The documented value of an option that is not given. -/
def defaultOf : NodeFlag → String
  | .pcFrame => "base_link"
  | .track => "base_link"
  | .imuFrame => "/novatel_imu"
  | _ => ""

/-- `v` is the value of the option `f`. -/
def Value (pairs : List (NodeFlag × List Char)) (f : NodeFlag) (v : List Char) : Prop :=
  (f, v) ∈ pairs ∨ ((∀ u, (f, u) ∉ pairs) ∧ v = (defaultOf f).toList)

/-- The frame `n` can be looked up from the frame `t`: its name is one that tf2 takes, the file knows it, and fixed
joints lead from one to the other. -/
structure FrameUsable {G : Type} (links : List (UrdfLink G (List Char))) (t n : List Char) : Prop where
  name : n ≠ [] ∧ n.head? ≠ some '/'
  known : ∃ m, FixedJoint links n m ∨ FixedJoint links m n
  joined : SameBody links t n

/-- The frames that are looked up. -/
def FrameUsed (v : NodeFlag → List Char) : NodeFlag → Prop
  | .track | .pcFrame => True
  | .imuFrame => v .imu ≠ []
  | .odomFrame => v .odom ≠ [] ∧ v .odomFrame ≠ []
  | .gpsFrame => v .gps ≠ [] ∧ v .gpsFrame ≠ []
  | _ => False

/-- Everything that the node needs, apart from its settings: topics with good names, not two recordings at once, a
URDF file that joins all frames, and an IMU whose mounting is accepted. -/
structure NodeReady {G : Type} [Group G] (w : NodeWorld G) (v : NodeFlag → List Char) : Prop where
  cloud : v .pc ≠ []
  track : v .track ≠ []
  names : ∀ f, f = .pc ∨ f = .imu ∨ f = .odom ∨ f = .gps → v f ≠ [] → w.nameOk (v f) = true
  single : ¬ ((v .bag ≠ [] ∧ w.fileExists (v .bag) = true) ∧ (v .kitti ≠ [] ∧ w.fileExists (v .kitti) = true))
  urdf : v .urdf ≠ []
  frames : ∃ links depth, w.urdf (v .urdf) = some links ∧ JointTree links depth ∧
    ∀ f, FrameUsed v f → FrameUsable links (v .track) (v f)
  imu : ∀ g, w.imuOk g = true

section
variable {G : Type}

/-- urdf/test2.urdf; the poses of the joints are parameters. -/
def test2Urdf (imu lidar l2 gps : G) : List (UrdfLink G (List Char)) :=
  [⟨"base_link".toList, none⟩, ⟨"frame_l2".toList, some ("frame_velodyne_points".toList, true, l2)⟩,
   ⟨"frame_velodyne_points".toList, some ("base_link".toList, true, lidar)⟩,
   ⟨"gps".toList, some ("base_link".toList, true, gps)⟩, ⟨"imu_link".toList, some ("base_link".toList, true, imu)⟩]

end

/-- The command that a script runs, with the variables of the script put in; `pubs` is what the shell makes of the
last word. -/
def lidarOnlyScript (pubs : List (List Char)) : List (List Char) :=
  ["./build/ros_node/static_mapping_node".toList, "-cfg".toList, "./config/lidar_only.xml".toList,
   "-pc".toList, "velodyne_points".toList, "-pc_frame_id".toList, "frame_velodyne_points".toList,
   "-urdf".toList, "./urdf/test2.urdf".toList,
   "-bag".toList, "/mnt/Data/visual/map_test/20200507124024_1_NoPlace.bag".toList, "-pubs".toList] ++ pubs

def kittiScript (pubs : List (List Char)) : List (List Char) :=
  ["./build/ros_node/static_mapping_node".toList, "-cfg".toList, "./config/lidar_only_kitti.xml".toList,
   "-pc".toList, "velodyne_points".toList, "-pc_frame_id".toList, "frame_velodyne_points".toList,
   "-urdf".toList, "./urdf/test2.urdf".toList,
   "-kitti".toList, "/home/edward/data/kitti/00/velodyne".toList, "-pubs".toList] ++ pubs

def lidarImuScript (pubs : List (List Char)) : List (List Char) :=
  ["./build/ros_node/static_mapping_node".toList, "-cfg".toList, "./config/lidar_imu_default.xml".toList,
   "-urdf".toList, "./urdf/test2.urdf".toList, "-pc".toList, "/points_raw".toList,
   "-pc_frame_id".toList, "frame_velodyne_points".toList, "-imu".toList, "/imu_raw".toList,
   "-imu_frame_id".toList, "imu_link".toList, "-bag".toList, "/mnt/park.bag".toList, "-pubs".toList] ++ pubs

def lidarImuGpsScript (pubs : List (List Char)) : List (List Char) :=
  ["./build/ros_node/static_mapping_node".toList, "-cfg".toList, "./config/lidar_imu_gps_default.xml".toList,
   "-pc".toList, "velodyne_points".toList, "-pc_frame_id".toList, "frame_velodyne_points".toList,
   "-imu".toList, "imu/raw_data".toList, "-imu_frame_id".toList, "imu_link".toList,
   "-urdf".toList, "./urdf/test2.urdf".toList, "-gps".toList, "navsatfix".toList, "-gps_frame_id".toList, "gps".toList,
   "-bag".toList, "/mnt/Data/juxin_fisheye_0228/proj-29.bag".toList, "-pubs".toList] ++ pubs

/-- The last words of the scripts. -/
def shortPubs : List GlobPiece := ["map".toList, "path".toList, "edge".toList]
def longPubs : List GlobPiece := ["map".toList, "path".toList, "edge".toList, "submap".toList]

/-- A world in which the files of the project are where the scripts expect them. -/
structure Installed {G : Type} [Group G] (w : NodeWorld G) (imu lidar l2 gps : G) : Prop where
  names : ∀ t, t = "velodyne_points" ∨ t = "/points_raw" ∨ t = "/imu_raw" ∨ t = "imu/raw_data" ∨ t = "navsatfix" →
    w.nameOk t.toList = true
  urdf : w.urdf "./urdf/test2.urdf".toList = some (test2Urdf imu lidar l2 gps)
  imuOk : ∀ g, w.imuOk g = true
  only : w.content "./config/lidar_only.xml".toList = some lidarOnlyText
  kitti : w.content "./config/lidar_only_kitti.xml".toList = some lidarKittiText
  lidarImu : w.content "./config/lidar_imu_default.xml".toList = some lidarImuText
  lidarImuGps : w.content "./config/lidar_imu_gps_default.xml".toList = some lidarImuGpsText
  dirs : w.mkdir = fun _ => true
  numbers : w.fmax = 2 ^ 128 - 2 ^ 104 ∧ w.slope = 1 / 4

end Verif.Spec
