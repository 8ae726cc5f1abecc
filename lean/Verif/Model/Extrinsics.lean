import Mathlib.Algebra.Group.Basic
import Verif.Model.Outcome
import Verif.Model.LoopCheck
/-
Where the sensors are mounted, and what is done with it
(builder/map_builder.cc 81-82, 115-185; ros_node/tf_bridge.cc 43-76, urdf_reader.cc 33-67,
static_mapping_node.cpp 318-357; builder/data/data_collector.cc 174-186;
back_end/isam_optimizer.cc 153-161, 209-224, 238-262).

Poses are the elements of an arbitrary group `G` acting on points `P`; `zero` is the zero vector, so
that the translation of a pose `g` is `act g zero`.  The IMU is modelled with matrices over an ordered
field.
-/
namespace Verif

/-- map_builder.h:239-245.  The transforms set before a run. -/
structure Mounts (G : Type) where
  toLidar : G       -- tracking_to_lidar_
  toGps : G         -- tracking_to_gps_
  odomToLidar : G   -- transform_odom_lidar_

section
variable {G P : Type} [Group G]

/-- map_builder.cc:156-169 `InsertPointcloudMsg`, an accepted cloud: it is transformed in place.  The
two results are the cloud handed to the collector and the caller's cloud afterwards. -/
def mountCloud (act : G → P → P) (m : Mounts G) (cloud : List P) : List P × List P :=
  let c := cloud.map (act m.toLidar)
  (c, c)

/-- data_collector.cc:174-186: odometry poses relative to the first one. -/
def storeOdom (first : Option G) (pose : G) : Option G × G :=
  let f := first.getD pose
  (some f, f⁻¹ * pose)

/-- All messages: the poses stored. -/
def storeOdoms : Option G → List G → List G
  | _, [] => []
  | first, p :: ps =>
    let r := storeOdom first p
    r.2 :: storeOdoms r.1 ps

/-- isam_optimizer.cc:153-161: the initial value of the calibration. -/
def odomCalib (m : Mounts G) : G := m.odomToLidar⁻¹

/-- isam_optimizer.cc:209-224: what the odometry constraint expects to be measured at `pose`:
`compose(between(calib, pose), calib)`. -/
def odomExpected (calib pose : G) : G := calib⁻¹ * pose * calib

/-- isam_optimizer.cc:238-262 `add_enu_factor`, without calibration: what the GPS constraint expects
to be measured at `pose`: `transformFrom(compose(coord, pose), translation of tracking_to_gps)`. -/
def gpsExpected (act : G → P → P) (zero : P) (m : Mounts G) (coord pose : G) : P :=
  act (coord * pose) (act m.toGps zero)

/-- static_mapping_node.cpp:318-357: the transforms are looked up by frame names. -/
def nodeMounts {N : Type} (lookup : N → N → Outcome G) (tracking cloud odom gps : N) :
    Outcome (Mounts G) := do
  let l ← lookup tracking cloud
  let o ← lookup odom cloud
  let g ← lookup tracking gps
  return { toLidar := l, odomToLidar := o, toGps := g }

/-- urdf_reader.cc:33-67: a link with its parent, whether the joint is fixed, and its pose in the
parent. -/
structure UrdfLink (G N : Type) where
  name : N
  parent : Option (N × Bool × G)

/-- urdf_reader.cc:44-66: the static transforms (child, parent, pose). -/
def urdfTransforms {N : Type} (links : List (UrdfLink G N)) : List (N × N × G) :=
  links.filterMap fun l =>
    match l.parent with
    | none => none
    | some (p, fixed, pose) => if fixed then some (l.name, p, pose) else none

/-- tf2's buffer: the pose of a frame in the root of its tree, following at most `fuel` transforms.  -/
def tfRoot {N : Type} [DecidableEq N] (ts : List (N × N × G)) : Nat → N → Option (N × G)
  | 0, _ => none
  | fuel + 1, n =>
    match ts.find? fun t => t.1 = n with
    | none => some (n, 1)
    | some (_, p, pose) =>
      match tfRoot ts fuel p with
      | none => none
      | some (r, g) => some (r, g * pose)

/-- A frame is known if a transform mentions it. -/
def tfKnown {N : Type} [DecidableEq N] (ts : List (N × N × G)) (n : N) : Bool :=
  ts.any fun t => t.1 = n || t.2.1 = n

/-- tf_bridge.cc:65-76 `LoopUpTransfrom` with a buffer: it must be possible to transform between the
frames. -/
def tfLookup {N : Type} [DecidableEq N] (ts : List (N × N × G)) (target source : N) : Outcome G :=
  if tfKnown ts target && tfKnown ts source then
    match tfRoot ts (ts.length + 1) target, tfRoot ts (ts.length + 1) source with
    | some (r, a), some (r', b) => if r = r' then .ok (a⁻¹ * b) else .abort
    | _, _ => .abort
  else .abort

end

/-- tf_bridge.cc:43-63 `LoopUpTransfrom` with a listener: the number of the attempt that succeeds;
`ans i` is the answer of `waitForTransform` at attempt `i`. -/
def tfWait (ans : Nat → Bool) : Nat → Nat → Outcome Nat
  | 0, _ => .abort
  | count + 1, i =>
    if ans i then .ok i
    else if count = 0 then .abort     -- CHECK_GT(wait_count, 0)
    else tfWait ans count (i + 1)

section
variable {R : Type} [Field R] [LinearOrder R] [IsStrictOrderedRing R]

/-- map_builder.cc:127-136 `SetTrackingToImu`: the CHECK on the first two components of the
translation (squared). -/
def setTrackingToImu (t : Rigid R) : Outcome (Rigid R) := do
  Outcome.check (t.trans 0 ^ 2 + t.trans 1 ^ 2 < (1 / 1000000) ^ 2)
  return t

/-- An IMU message: angular velocity and linear acceleration. -/
structure ImuReading (R : Type) where
  gyro : Fin 3 → R
  acc : Fin 3 → R

/-- map_builder.cc:171-184 `InsertImuMsg`: both vectors are rotated into the tracking frame. -/
def insertImu (t : Rigid R) (m : ImuReading R) : ImuReading R :=
  { gyro := t.rot.mulVec m.gyro, acc := t.rot.mulVec m.acc }

end
end Verif
