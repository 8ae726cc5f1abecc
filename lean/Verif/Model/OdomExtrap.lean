import Verif.Model.Extrapolator
/-
builder/pose_extrapolator.cc: odometry messages (113-120, 135-175, 249-254) and the gravity estimate
(201-210) of an extrapolator made by one of its two factories (48-73).

The velocities from odometry are left out: no state is reached in which they are read
(`C116_same`).  A three by three matrix made from a block of three rows and one column (168) is
undefined behaviour when Eigen's assertions are compiled out, and stops the program otherwise; the
model calls it undefined.
-/
namespace Verif

/-- The extrapolator with `odometry_data_` (stamps only). -/
structure ExtrapO (R W : Type) where
  ex : Extrap R W
  odom : List Nat

/-- 249-254 `TrimOdometryData`, with a pose in the queue. -/
def trimOdom (last : Nat) : List Nat → List Nat
  | a :: b :: c :: r => if b ≤ last then trimOdom last (b :: c :: r) else a :: b :: c :: r
  | l => l

variable {R W : Type}

/-- 135-175 `AddOdometryData`. -/
def addOdomData (t : Nat) (s : ExtrapO R W) : Outcome (ExtrapO R W) := do
  if s.ex.imuMode = false then return s
  match s.ex.queue.getLast? with
  | none => return { s with odom := s.odom ++ [t] }
  | some newest =>
    Outcome.check (newest.time ≤ t)
    if (trimOdom newest.time (s.odom ++ [t])).length < 2 then
      return { s with odom := trimOdom newest.time (s.odom ++ [t]) }
    else .ub

/-- 201-210 `EstimateGravityOrientation`: a copy of the tracker is advanced. -/
def gravityAt (t : Nat) (s : ExtrapO R W) : Outcome (ExtrapO R W) :=
  if s.ex.imuMode = false then .ok s
  else
    match s.ex.tracker with
    | none => .ub
    | some tt => do
      let _ ← advanceTracker t s.ex.imu tt
      return s

/-- 91-121 with line 118. -/
def addPoseO (ops : RotOps R W) (p : TPose R) (s : ExtrapO R W) : Outcome (ExtrapO R W) := do
  let ex ← addPose ops p s.ex
  return { ex := ex
           odom := if s.ex.imuMode = true ∧ s.ex.queue ≠ [] then trimOdom p.time s.odom else s.odom }

/-- The calls. -/
inductive OdoOp (R : Type) where
  | base (op : ExOp R)
  | odom (t : Nat)
  | gravity (t : Nat)

def odoStep (ops : RotOps R W) (s : ExtrapO R W) : OdoOp R → Outcome (ExtrapO R W)
  | .base (.add p) => addPoseO ops p s
  | .base op => do
    let ex ← exStep ops s.ex op
    return { s with ex := ex }
  | .odom t => addOdomData t s
  | .gravity t => gravityAt t s

def odoRun (ops : RotOps R W) : ExtrapO R W → List (OdoOp R) → Outcome (ExtrapO R W)
  | s, [] => .ok s
  | s, op :: r => do
    let s' ← odoStep ops s op
    odoRun ops s' r

end Verif
