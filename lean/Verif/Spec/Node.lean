import Verif.Model.Node
/-! What a message says, and what the mapper is to receive. -/
namespace Verif.Spec

/-- A stamp in nanoseconds. -/
def RosHeader.nanos (h : RosHeader) : Nat := h.sec.toNat * 1000000000 + h.nsec.toNat
def stampNanos (t : SimpleTime) : Nat := t.secs.toNat * 1000000000 + t.nsecs.toNat

/-- Same number, frame and time. -/
def SameHeader (a : RosHeader) (b : LocalHeader) : Prop :=
  b.seq = a.seq ∧ b.frameId = a.frameId ∧ stampNanos b.stamp = RosHeader.nanos a

/-- Same vector: components 0, 1, 2 are x, y, z. -/
def SameVec {R : Type} (a : RosVec R) (b : Fin 3 → R) : Prop := b 0 = a.x ∧ b 1 = a.y ∧ b 2 = a.z

/-- Same quaternion. -/
def SameQuat {R : Type} (a : RosQuat R) (b : EigQuat R) : Prop :=
  b.x = a.x ∧ b.y = a.y ∧ b.z = a.z ∧ b.w = a.w

/-- The same inertial measurement. -/
def SameImu {R : Type} (a : RosImu R) (b : LocalImu R) : Prop :=
  SameHeader a.header b.header ∧ SameQuat a.orientation b.orientation ∧ SameVec a.angular b.angular ∧
    SameVec a.linear b.linear ∧ b.orientationCov = a.orientationCov ∧ b.angularCov = a.angularCov ∧
    b.linearCov = a.linearCov

/-- The same odometry, apart from the child frame. -/
def SameOdom {R : Type} (a : RosOdom R) (b : LocalOdom R) : Prop :=
  SameHeader a.header b.header ∧ SameVec a.position b.position ∧
    SameQuat a.orientation b.orientation ∧ b.poseCov = a.poseCov ∧
    SameVec a.twistLinear b.twistLinear ∧ SameVec a.twistAngular b.twistAngular ∧
    b.twistCov = a.twistCov

/-- The same GPS fix. -/
def SameFix {R : Type} (a : RosFix R) (b : LocalFix R) : Prop :=
  SameHeader a.header b.header ∧ b.status = a.status ∧ b.service = a.service ∧
    b.latitude = a.latitude ∧ b.longtitude = a.longitude ∧ b.altitude = a.altitude ∧
    b.cov = a.cov ∧ b.covType = a.covType

/-- The cloud with exactly the finite points, in order, at the same time. -/
def CleanOf {P : Type} (finite : P → Bool) (a b : RosCloud P) : Prop :=
  b.stamp = a.stamp ∧ b.points = a.points.filter finite

/-- A cloud whose flag tells the truth. -/
def DenseOk {P : Type} (finite : P → Bool) (c : RosCloud P) : Prop :=
  c.dense = true → ∀ p ∈ c.points, finite p = true

/-- The insertion is the message. -/
def Same {R P : Type} (finite : P → Bool) : RosBody R P → NodeInsert R P → Prop
  | .cloud a, .cloud b => CleanOf finite a b
  | .imu a, .imu b => SameImu a b
  | .odom a, .odom b => SameOdom a b
  | .fix a, .fix b => SameFix a b
  | _, _ => False

/-- The user asked for this message: it is of the type and on the topic of one of the sensors, and
for odometry and GPS the sensor's frame is named too. -/
def Wanted {R P : Type} (a : NodeArgs) (m : RosMsg R P) : Bool :=
  match m.body with
  | .cloud _ => m.topic = a.cloudTopic
  | .imu _ => m.topic = a.imuTopic && a.imuTopic ≠ ""
  | .odom _ => m.topic = a.odomTopic && a.odomTopic ≠ "" && a.odomFrame ≠ ""
  | .fix _ => m.topic = a.gpsTopic && a.gpsTopic ≠ "" && a.gpsFrame ≠ ""
  | .other => false

end Verif.Spec
