import Verif.Model.OdomExtrap
/-! Histories with odometry messages. -/
namespace Verif.Spec
variable {R : Type}

/-- The calls other than odometry messages and gravity estimates. -/
def plainCalls : List (OdoOp R) → List (ExOp R)
  | [] => []
  | .base op :: r => op :: plainCalls r
  | _ :: r => plainCalls r

/-- How many odometry messages there are. -/
def odomCount : List (OdoOp R) → Nat
  | [] => 0
  | .odom _ :: r => odomCount r + 1
  | _ :: r => odomCount r

end Verif.Spec
