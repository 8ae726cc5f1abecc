import Verif.Model.PoseNormal
import Verif.Spec.Euler
/-! Rigid motions as 4x4 matrices, and the distance of two matrices. -/
namespace Verif.Spec
noncomputable section

/-- The last row is `0 0 0 1`. -/
def Homogeneous (t : Pose4) : Prop := t 3 0 = 0 ∧ t 3 1 = 0 ∧ t 3 2 = 0 ∧ t 3 3 = 1

/-- A turn followed by a shift: homogeneous, and the upper left part is a rotation. -/
def RigidMotion (t : Pose4) : Prop :=
  Homogeneous t ∧ IsRot3 !![t 0 0, t 0 1, t 0 2; t 1 0, t 1 1, t 1 2; t 2 0, t 2 1, t 2 2]

def setsGlobal : PoseCall → Bool
  | .setGlobal _ => true
  | .setLocal _ => false

def setsLocal : PoseCall → Bool
  | .setGlobal _ => false
  | .setLocal _ => true

/-- The last pose given to `SetGlobalPose`, or the identity. -/
def lastGlobal : List PoseCall → Pose4
  | [] => 1
  | .setGlobal t :: cs => if (cs.any setsGlobal) then lastGlobal cs else t
  | .setLocal _ :: cs => lastGlobal cs

/-- The last pose given to `SetLocalPose`, or the identity. -/
def lastLocal : List PoseCall → Pose4
  | [] => 1
  | .setLocal t :: cs => if (cs.any setsLocal) then lastLocal cs else t
  | .setGlobal _ :: cs => lastLocal cs

/-- The pose a call gives. -/
def givenPose : PoseCall → Pose4
  | .setGlobal t => t
  | .setLocal t => t

end
end Verif.Spec
