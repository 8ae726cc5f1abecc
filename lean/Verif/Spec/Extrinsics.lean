import Mathlib.Data.Fin.VecNotation
import Mathlib.Logic.Relation
import Verif.Model.Extrinsics
/-! What the sensors measure, given the true motion of the vehicle and the true mounting. -/
namespace Verif.Spec
open Verif

/-- The true mounting: the pose of every sensor in the tracking frame. -/
structure TrueMounts (G : Type) where
  lidar : G
  odom : G
  gps : G

section
variable {G P : Type} [Group G]

/-- The lidar at vehicle pose `X` sees the points `w` of the world in its own frame. -/
def lidarSees (act : G → P → P) (t : TrueMounts G) (X : G) (w : List P) : List P :=
  w.map (act (X * t.lidar)⁻¹)

/-- The odometry sensor reports its own pose, in a frame of its own that is at `W` in the world. -/
def odomReports (t : TrueMounts G) (W X : G) : G := W⁻¹ * (X * t.odom)

/-- The GPS receiver reports where it is in the world. -/
def gpsReports (act : G → P → P) (zero : P) (t : TrueMounts G) (X : G) : P :=
  act (X * t.gps) zero

/-- The transforms are the true ones. -/
structure Correct (t : TrueMounts G) (m : Mounts G) : Prop where
  lidar : m.toLidar = t.lidar
  gps : m.toGps = t.gps
  odom : m.odomToLidar = t.odom⁻¹ * t.lidar

end

/-- A fixed joint of the file joins the frame `c` to its parent `p`. -/
def FixedJoint {N : Type} (links : List (UrdfLink G N)) (c p : N) : Prop :=
  ∃ l ∈ links, ∃ g, l.name = c ∧ l.parent = some (p, true, g)

/-- The fixed joints form trees: no frame has two parents, and `depth` counts the joints up to the root, at most
all of them. -/
structure JointTree {N : Type} (links : List (UrdfLink G N)) (depth : N → Nat) : Prop where
  oneParent : ∀ c p q, FixedJoint links c p → FixedJoint links c q → p = q
  down : ∀ c p, FixedJoint links c p → depth c = depth p + 1
  bound : ∀ n, depth n ≤ (links.filter fun l => l.parent.any fun x => x.2.1).length

/-- A chain of fixed joints, up and down, leads from one frame to the other. -/
def SameBody {N : Type} (links : List (UrdfLink G N)) : N → N → Prop := Relation.EqvGen (FixedJoint links)

section
variable {R : Type} [Field R] [LinearOrder R] [IsStrictOrderedRing R]

/-- Vector product. -/
def crossV (a b : Fin 3 → R) : Fin 3 → R :=
  ![a 1 * b 2 - a 2 * b 1, a 2 * b 0 - a 0 * b 2, a 0 * b 1 - a 1 * b 0]

/-- The IMU, mounted at `t` in the tracking frame, on a body that turns with `ω`, angular acceleration
`α`, and specific force `f` at the origin of the tracking frame (all in the tracking frame): it measures
at its own place and in its own axes. -/
def imuMeasures (t : Rigid R) (ω α f : Fin 3 → R) : ImuReading R :=
  { gyro := t.rot.transpose.mulVec ω
    acc := t.rot.transpose.mulVec (f + crossV α t.trans + crossV ω (crossV ω t.trans)) }

/-- Squared length. -/
def sqLen (a : Fin 3 → R) : R := a 0 ^ 2 + a 1 ^ 2 + a 2 ^ 2

end
end Verif.Spec
