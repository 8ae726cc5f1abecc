import Verif.Model.Outcome
import Verif.Model.Extrapolator
/-
builder/sensor_fusions/imu_gps_tracker.{h,cc}: the factor graph built from IMU messages and GPS positions.
(The class is included by builder/map_builder.h; no object of it is created.)

GTSAM's preintegration is the list of what it was given; its prediction and its optimiser are parameters.
Stamps are `Nat` nanoseconds as in Verif/Model/Extrapolator.lean.  The warning about missing messages and the
printed position are left out.
-/
namespace Verif

/-- A measurement given to the preintegration: acceleration, angular velocity, seconds. -/
structure ImuPiece where
  acc : Vec3 Rat
  gyr : Vec3 Rat
  dt : Rat
  deriving DecidableEq

/-- gtsam's keys `P(k)`, `V(k)`, `B(k)` (imu_gps_tracker.cc:32-34). -/
inductive TrackKey where
  | pose (k : Nat)
  | vel (k : Nat)
  | bias (k : Nat)
  deriving DecidableEq

/-- The factors added.  `imu i j b pieces bias gravity` : from `P(i)`, `V(i)` to `P(j)`, `V(j)` with `B(b)`, the
preintegration started with the estimate `bias`. -/
inductive TrackFactor (S B : Type) where
  | priorPose (k : Nat)
  | priorVel (k : Nat) (v : Vec3 Rat)
  | priorBias (k : Nat)
  | imu (i j b : Nat) (pieces : List ImuPiece) (bias : B) (gravity : Rat)
  | sameBias (i j : Nat)
  | gps (k : Nat) (pos : Vec3 Rat)

/-- The values inserted for a key. -/
inductive TrackValue (S B : Type) where
  | start
  | startVel (v : Vec3 Rat)
  | poseOf (s : S)
  | velOf (s : S)
  | biasOf (b : B)

/-- imu_gps_tracker.h:66-86, the members.  `S` is gtsam's `NavState`, `B` its bias. -/
structure ImuGps (S B : Type) where
  gravity : Rat
  period : Rat
  lastImu : Nat
  graph : List (TrackFactor S B)
  values : List (TrackKey × TrackValue S B)
  pieces : List ImuPiece
  pieceBias : B
  prevState : S
  prevBias : B
  count : Nat

variable {S B : Type}

/-- imu_gps_tracker.cc:36-67, the constructor.  `junk` is the uninitialised prior velocity (line 49), `s0` and
`b0` the default state and bias.  The gravity of the preintegration is the time constant (lines 63-64). -/
def ImuGps.new (timeConstant frequency : Rat) (junk : Vec3 Rat) (s0 : S) (b0 : B) : ImuGps S B where
  gravity := timeConstant
  period := 1 / frequency
  lastImu := 0
  graph := [.priorPose 0, .priorVel 0 junk, .priorBias 0]
  values := [(.pose 0, .start), (.vel 0, .startVel junk), (.bias 0, .biasOf b0)]
  pieces := []
  pieceBias := b0
  prevState := s0
  prevBias := b0
  count := 0

/-- imu_gps_tracker.cc:69-85 `AddImuData`. -/
def ImuGps.addImu (acc gyr : Vec3 Rat) (stamp : Nat) (t : ImuGps S B) : Outcome (ImuGps S B) :=
  if nsEq t.lastImu 0 = false then do
    Outcome.check (t.lastImu < stamp)
    return { t with pieces := t.pieces ++ [⟨acc, gyr, nsToSec (stamp - t.lastImu)⟩], lastImu := stamp }
  else return { t with pieces := t.pieces ++ [⟨acc, gyr, t.period⟩], lastImu := stamp }

/-- gtsam's `Values::insert`: a key that is already there is an error. -/
def valuesInsert (k : TrackKey) (v : TrackValue S B) (vs : List (TrackKey × TrackValue S B)) :
    Outcome (List (TrackKey × TrackValue S B)) :=
  if vs.any (fun e => decide (e.1 = k)) then .abort else .ok (vs ++ [(k, v)])

/-- imu_gps_tracker.cc:87-124 `AddGpsData`.  `predict s b pieces` is the propagated state, `opt graph values k`
the optimised state and bias number `k`. -/
def ImuGps.addGps (predict : S → B → List ImuPiece → S)
    (opt : List (TrackFactor S B) → List (TrackKey × TrackValue S B) → Nat → S × B)
    (pos : Vec3 Rat) (t : ImuGps S B) : Outcome (ImuGps S B) := do
  let n := t.count + 1
  let graph := t.graph ++ [.imu (n - 1) n (n - 1) t.pieces t.pieceBias t.gravity, .sameBias (n - 1) n, .gps n pos]
  let s := predict t.prevState t.prevBias t.pieces
  let v1 ← valuesInsert (.pose n) (.poseOf s) t.values
  let v2 ← valuesInsert (.vel n) (.velOf s) v1
  let v3 ← valuesInsert (.bias n) (.biasOf t.prevBias) v2
  let r := opt graph v3 n
  return { t with count := n, graph := graph, values := v3, prevState := r.1, prevBias := r.2,
                  pieces := [], pieceBias := r.2 }

/-- The calls. -/
inductive TrackEvent where
  | imu (acc gyr : Vec3 Rat) (stamp : Nat)
  | gps (pos : Vec3 Rat)

/-- One call. -/
def ImuGps.step (predict : S → B → List ImuPiece → S)
    (opt : List (TrackFactor S B) → List (TrackKey × TrackValue S B) → Nat → S × B)
    (t : ImuGps S B) : TrackEvent → Outcome (ImuGps S B)
  | .imu a g s => t.addImu a g s
  | .gps p => t.addGps predict opt p

/-- A history of calls. -/
def ImuGps.run (predict : S → B → List ImuPiece → S)
    (opt : List (TrackFactor S B) → List (TrackKey × TrackValue S B) → Nat → S × B) :
    ImuGps S B → List TrackEvent → Outcome (ImuGps S B)
  | t, [] => .ok t
  | t, e :: es => do
    let t' ← t.step predict opt e
    ImuGps.run predict opt t' es

end Verif
