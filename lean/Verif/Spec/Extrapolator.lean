import Verif.Model.Extrapolator
/-
Specification of pose extrapolation (C45, C55).
-/
namespace Verif.Spec

/-- The poses a history of calls adds, in the order of the calls. -/
def addedPoses {R : Type} : List (ExOp R) → List (TPose R)
  | [] => []
  | .add p :: r => p :: addedPoses r
  | _ :: r => addedPoses r

/-- Stamps that are set and never go back. -/
def GoodStamps {R : Type} (l : List (TPose R)) : Prop :=
  (∀ p ∈ l, 0 < p.time) ∧ l.Pairwise (fun a b => a.time ≤ b.time)

/-- A pose that is at least `dur` old at the time `now`. -/
def OldEnough {R : Type} (dur now : Nat) (p : TPose R) : Prop := p.time + dur ≤ now

/-- The point that moves from `x0` with velocity `v`, after `t` nanoseconds. -/
def onLine (x0 v : Vec3 Rat) (t : Nat) : Vec3 Rat :=
  ⟨x0.x + v.x * ((t : Rat) / 1000000000), x0.y + v.y * ((t : Rat) / 1000000000),
    x0.z + v.z * ((t : Rat) / 1000000000)⟩

/-- No nanosecond tolerance can confuse the two stamps. -/
def Apart (a b : Nat) : Prop := a + 1 < b ∨ b + 1 < a

/-- The stamp of a query, if the call is one. -/
def queryStamp {R : Type} : ExOp R → Option Nat
  | .query t => some t
  | _ => none

end Verif.Spec

namespace Verif.Spec
variable {R W : Type}

/-- The mapping process before the first message: with the IMU off an empty extrapolator exists,
with the IMU on it is made by the first IMU message. -/
def driverStart (useImu : Bool) (dur : Nat) (r0 : R) (w0 : W) : Driver R W where
  useImu := useImu
  dur := dur
  ex := if useImu then none else some (exCtrv dur r0 w0)
  waiting := []
  first := false

/-- Along the run, every IMU message carries a stamp that is not before the previous IMU message's
(`now`) and not before the newest pose's. -/
def ImuInTime (ops : RotOps R W) (r0 : R) (w0 : W) : Driver R W → Nat → List (DrvEvent R) → Prop
  | _, _, [] => True
  | d, now, .imu t r1 :: r =>
    now ≤ t ∧ (∀ s, d.ex = some s → lastPoseTime s ≤ t) ∧
      ∀ d', drvStep ops r0 w0 d (.imu t r1) = .ok d' → ImuInTime ops r0 w0 d' t r
  | d, now, e :: r => ∀ d', drvStep ops r0 w0 d e = .ok d' → ImuInTime ops r0 w0 d' now r

end Verif.Spec
