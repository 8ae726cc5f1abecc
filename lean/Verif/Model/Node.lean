import Verif.Model.Time
import Verif.Model.Playback
/-!
The ROS node: `ros_node/msg_conversion.cc`, the call-backs and the bag loop of
`ros_node/static_mapping_node.cpp`.

Simplifications: numbers are of any type `R`; a point is a list of numbers with a test for being
finite. Waiting between messages and `ros::ok()` are left out. `rosbag` selects and instantiates
messages by type; a message is its topic and its typed content.
-/
namespace Verif

/-- `std_msgs::Header` with its `ros::Time`; also `data::Header` after conversion. -/
structure RosHeader where
  seq : UInt32
  frameId : String
  sec : UInt32
  nsec : UInt32
deriving DecidableEq

/-- `data::Header` (builder/data/data_types.h). -/
structure LocalHeader where
  seq : UInt32
  frameId : String
  stamp : SimpleTime
deriving DecidableEq

/-- `ToLocalHeader`, `ToLocalTime` (msg_conversion.cc:28-41). -/
def toLocalHeader (h : RosHeader) : LocalHeader :=
  { seq := h.seq, frameId := h.frameId, stamp := { secs := h.sec, nsecs := h.nsec } }

/-- `geometry_msgs::Vector3`, `Point`. -/
structure RosVec (R : Type) where
  x : R
  y : R
  z : R
deriving DecidableEq

/-- `geometry_msgs::Quaternion`. -/
structure RosQuat (R : Type) where
  x : R
  y : R
  z : R
  w : R
deriving DecidableEq

/-- `Eigen::Quaterniond`, with its memory order x, y, z, w. -/
structure EigQuat (R : Type) where
  coeffs : Fin 4 → R

/-- `Eigen::Quaterniond::x() .. w()`. -/
def EigQuat.x {R : Type} (q : EigQuat R) : R := q.coeffs 0
def EigQuat.y {R : Type} (q : EigQuat R) : R := q.coeffs 1
def EigQuat.z {R : Type} (q : EigQuat R) : R := q.coeffs 2
def EigQuat.w {R : Type} (q : EigQuat R) : R := q.coeffs 3

/-- `sensor_msgs::Imu`. -/
structure RosImu (R : Type) where
  header : RosHeader
  orientation : RosQuat R
  orientationCov : Fin 9 → R
  angular : RosVec R
  angularCov : Fin 9 → R
  linear : RosVec R
  linearCov : Fin 9 → R

/-- `data::ImuMsg` (data_types.h:50-77), without roll, pitch and yaw. -/
structure LocalImu (R : Type) where
  header : LocalHeader
  orientation : EigQuat R
  orientationCov : Fin 9 → R
  angular : Fin 3 → R
  angularCov : Fin 9 → R
  linear : Fin 3 → R
  linearCov : Fin 9 → R

/-- Components by index, as an `Eigen::Vector3d` written component by component. -/
def vec3 {R : Type} (a b c : R) : Fin 3 → R := fun i => if i = 0 then a else if i = 1 then b else c

/-- Coefficients of a quaternion whose x, y, z, w are written one by one. -/
def quat4 {R : Type} (x y z w : R) : EigQuat R :=
  ⟨fun i => if i = 0 then x else if i = 1 then y else if i = 2 then z else w⟩

/-- `ToLocalImu` (msg_conversion.cc:43-71). -/
def toLocalImu {R : Type} (m : RosImu R) : LocalImu R :=
  { header := toLocalHeader m.header
    angular := vec3 m.angular.x m.angular.y m.angular.z
    linear := vec3 m.linear.x m.linear.y m.linear.z
    orientation := quat4 m.orientation.x m.orientation.y m.orientation.z m.orientation.w
    angularCov := fun i => m.angularCov i
    linearCov := fun i => m.linearCov i
    orientationCov := fun i => m.orientationCov i }

/-- `nav_msgs::Odometry`. -/
structure RosOdom (R : Type) where
  header : RosHeader
  childFrame : String
  position : RosVec R
  orientation : RosQuat R
  poseCov : Fin 36 → R
  twistLinear : RosVec R
  twistAngular : RosVec R
  twistCov : Fin 36 → R

/-- `data::OdomMsg` (data_types.h:119-148). -/
structure LocalOdom (R : Type) where
  header : LocalHeader
  childFrame : String
  position : Fin 3 → R
  orientation : EigQuat R
  poseCov : Fin 36 → R
  twistLinear : Fin 3 → R
  twistAngular : Fin 3 → R
  twistCov : Fin 36 → R

/-- `ToLocalOdom` (msg_conversion.cc:73-97); `child_frame_id` keeps its initial value. -/
def toLocalOdom {R : Type} (m : RosOdom R) : LocalOdom R :=
  { header := toLocalHeader m.header
    childFrame := ""
    position := vec3 m.position.x m.position.y m.position.z
    orientation := quat4 m.orientation.x m.orientation.y m.orientation.z m.orientation.w
    twistLinear := vec3 m.twistLinear.x m.twistLinear.y m.twistLinear.z
    twistAngular := vec3 m.twistAngular.x m.twistAngular.y m.twistAngular.z
    poseCov := fun i => m.poseCov i
    twistCov := fun i => m.twistCov i }

/-- `sensor_msgs::NavSatFix`; also `data::NavSatFixMsg` apart from the header. -/
structure RosFix (R : Type) where
  header : RosHeader
  status : Int8
  service : UInt16
  latitude : R
  longitude : R
  altitude : R
  cov : Fin 9 → R
  covType : UInt8

/-- `data::NavSatFixMsg` (data_types.h:95-111). -/
structure LocalFix (R : Type) where
  header : LocalHeader
  status : Int8
  service : UInt16
  latitude : R
  longtitude : R
  altitude : R
  cov : Fin 9 → R
  covType : UInt8

/-- `ToLocalNavSatMsg` (msg_conversion.cc:99-115). -/
def toLocalFix {R : Type} (m : RosFix R) : LocalFix R :=
  { header := toLocalHeader m.header
    status := m.status
    service := m.service
    latitude := m.latitude
    longtitude := m.longitude
    altitude := m.altitude
    cov := fun i => m.cov i
    covType := m.covType }

/-- A point cloud message after `fromPCLPointCloud2`: its time in microseconds, the flag `is_dense`
and the points. -/
structure RosCloud (P : Type) where
  stamp : UInt64
  dense : Bool
  points : List P

/-- `pcl::removeNaNFromPointCloud(cloud, cloud, index)`: a cloud that says it is dense is left as it
is; otherwise the points with a coordinate that is not finite are removed and the flag is set. -/
def removeNan {P : Type} (finite : P → Bool) (c : RosCloud P) : RosCloud P :=
  if c.dense then c else { c with points := c.points.filter finite, dense := true }

/-- The content of a message, by its type. -/
inductive RosBody (R P : Type) where
  | cloud (c : RosCloud P)
  | imu (m : RosImu R)
  | odom (m : RosOdom R)
  | fix (m : RosFix R)
  | other

/-- A message of the bag. -/
structure RosMsg (R P : Type) where
  topic : String
  body : RosBody R P

/-- The command line, as far as messages are concerned (static_mapping_node.cpp:106-163). -/
structure NodeArgs where
  cloudTopic : String
  imuTopic : String
  odomTopic : String
  odomFrame : String
  gpsTopic : String
  gpsFrame : String

/-- `use_imu`, `use_odom`, `use_gps` (static_mapping_node.cpp:120-163). -/
def NodeArgs.useImu (a : NodeArgs) : Bool := a.imuTopic ≠ ""
def NodeArgs.useOdom (a : NodeArgs) : Bool := a.odomTopic ≠ "" && a.odomFrame ≠ ""
def NodeArgs.useGps (a : NodeArgs) : Bool := a.gpsTopic ≠ "" && a.gpsFrame ≠ ""

/-- A call of one of the mapper's insert functions. -/
inductive NodeInsert (R P : Type) where
  | cloud (c : RosCloud P)
  | imu (m : LocalImu R)
  | odom (m : LocalOdom R)
  | fix (m : LocalFix R)

/-- The `if` chain of the bag loop with the call-backs (static_mapping_node.cpp:61-88, 398-416). -/
def nodeMessage {R P : Type} (finite : P → Bool) (a : NodeArgs) (m : RosMsg R P) :
    Option (NodeInsert R P) :=
  match m.body with
  | .cloud c => if m.topic = a.cloudTopic then some (.cloud (removeNan finite c)) else none
  | .imu i =>
    if m.topic = a.imuTopic then (if a.useImu then some (.imu (toLocalImu i)) else none) else none
  | .odom o =>
    if m.topic = a.odomTopic then (if a.useOdom then some (.odom (toLocalOdom o)) else none) else none
  | .fix f =>
    if m.topic = a.gpsTopic then (if a.useGps then some (.fix (toLocalFix f)) else none) else none
  | .other => none

/-- The node with a bag (static_mapping_node.cpp:106-110, 387-430): without a cloud topic it ends at
once, otherwise all messages that the bag delivers are handled in turn. The read-ahead is one
second. -/
def nodeBag {R P : Type} (finite : P → Bool) (a : NodeArgs) (msgs : List (BagMsg (RosMsg R P))) :
    Outcome (List (NodeInsert R P)) :=
  if a.cloudTopic = "" then .ok []
  else do
    let l ← bagPlayback 1000000000 msgs
    return l.filterMap fun m => nodeMessage finite a m.body

end Verif
