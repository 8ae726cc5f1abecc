import Verif.Model.Outcome
import Verif.Model.Geom
/-
builder/pose_extrapolator.{h,cc}, builder/imu_tracker.{h,cc} and the way builder/map_builder.cc
drives them.

Stamps are `Nat` nanoseconds.  On well-formed stamps `SimpleTime`'s comparisons are those of the
nanosecond values, `-` is truncated subtraction and `==` has a tolerance of one nanosecond
(simple_time.cc:56-81, 108-119; modelled bit for bit in Verif/Model/Time.lean and proved in C01).
`ToSec` becomes the exact quotient by 10^9.

Rotations are abstract: the angular velocity between two rotations, the rotation turned for some
seconds, and what the two IMU trackers report are parameters (`RotOps`).  The two `CHECK_GT`s on
the gravity estimate (imu_tracker.cc:66-67) are not modelled.  Odometry messages are not modelled:
`MapBuilder` never passes one (`InsertOdomMsg` stops the process, map_builder.cc:198-201), so
`odometry_data_` is always empty.
-/
namespace Verif

/-- data/data_types.h, `TimedPose`: a stamp and a rigid pose, as translation and rotation. -/
structure TPose (R : Type) where
  time : Nat
  pos : Vec3 Rat
  rot : R
  deriving DecidableEq

/-- The rotation arithmetic used by the extrapolator.
`angVel old new seconds` is pose_extrapolator.cc:236-239; `turn r w seconds` is `r` times
pose_extrapolator.cc:296-304; `imuTurn r from to` is `r` times the rotation lines 290-294 report
for the time between two stamps. -/
structure RotOps (R W : Type) where
  angVel : R → R → Rat → W
  turn : R → W → Rat → R
  imuTurn : R → Nat → Nat → R

/-- pose_extrapolator.h, the members.  A tracker is represented by its `time_`; IMU messages by
their stamps.  `none` is a null `unique_ptr`. -/
structure Extrap (R W : Type) where
  imuMode : Bool
  dur : Nat
  queue : List (TPose R)
  cache : TPose R
  linVel : Vec3 Rat
  angVel : W
  tracker : Option Nat
  extTracker : Option Nat
  imu : List Nat

/-- simple_time.cc:61-67 on nanoseconds. -/
def nsEq (a b : Nat) : Bool := decide (a ≤ b + 1 ∧ b ≤ a + 1)

/-- `SimpleTime::ToSec`, exact. -/
def nsToSec (n : Nat) : Rat := (n : Rat) / 1000000000

/-- Eigen's `a + s * b` on 3-vectors. -/
def vecAddScaled (a : Vec3 Rat) (s : Rat) (b : Vec3 Rat) : Vec3 Rat :=
  ⟨a.x + s * b.x, a.y + s * b.y, a.z + s * b.z⟩

/-- Eigen's `(a - b) / s` on 3-vectors. -/
def vecSubDiv (a b : Vec3 Rat) (s : Rat) : Vec3 Rat :=
  ⟨(a.x - b.x) / s, (a.y - b.y) / s, (a.z - b.z) / s⟩

variable {R W : Type}

/-- pose_extrapolator.cc:99-102. -/
def trimPoses (limit : Nat) : List (TPose R) → List (TPose R)
  | a :: b :: c :: r =>
    if b.time ≤ limit then trimPoses limit (b :: c :: r) else a :: b :: c :: r
  | l => l

/-- pose_extrapolator.cc:216-240. -/
def updateVel (ops : RotOps R W) (s : Extrap R W) : Extrap R W :=
  match s.queue.head?, s.queue.getLast? with
  | some old, some new =>
    if s.queue.length < 2 then s
    else if new.time - old.time < s.dur then s
    else { s with
      linVel := vecSubDiv new.pos old.pos (nsToSec (new.time - old.time))
      angVel := ops.angVel old.rot new.rot (nsToSec (new.time - old.time)) }
  | _, _ => s

/-- pose_extrapolator.cc:242-247, the loop: `last` is the newest pose's stamp. -/
def trimImu (last : Nat) : List Nat → List Nat
  | a :: b :: r => if b ≤ last then trimImu last (b :: r) else a :: b :: r
  | l => l

/-- pose_extrapolator.cc:278-283 with imu_tracker.cc:41: every message before `time` advances the
tracker, which must not go back in time. -/
def advanceMsgs (time : Nat) (tt : Nat) : List Nat → Outcome Nat
  | [] => .ok tt
  | m :: r =>
    if m < time then do
      Outcome.check (tt ≤ m)
      advanceMsgs time m r
    else .ok tt

/-- pose_extrapolator.cc:256-285.  The binary search of line 273 is a linear one here (the two
agree on the sorted lists all theorems are about). -/
def advanceTracker (time : Nat) (imu : List Nat) (tt : Nat) : Outcome Nat := do
  Outcome.check (tt ≤ time)
  match imu with
  | [] => return time
  | f :: r =>
    if time < f then return time
    let tt1 := if tt < f then f else tt
    let tt2 ← advanceMsgs time tt1 ((f :: r).dropWhile (fun m => decide (m < tt1)))
    Outcome.check (tt2 ≤ time)
    return time

/-- pose_extrapolator.cc:108-115: the time of the tracker to advance; a new one starts at the
first IMU message if that is earlier. -/
def trackerStart (time : Nat) (imu : List Nat) : Option Nat → Nat
  | some tt => tt
  | none => match imu with
    | [] => time
    | f :: _ => min time f

/-- pose_extrapolator.cc:90-122. -/
def addPose (ops : RotOps R W) (p : TPose R) (s : Extrap R W) : Outcome (Extrap R W) := do
  let s := { s with queue := s.queue ++ [p] }
  if s.queue.length = 1 then
    return { s with cache := p }
  let s := updateVel ops { s with queue := trimPoses (p.time - s.dur) s.queue }
  if s.imuMode = false then
    return s
  let tt ← advanceTracker p.time s.imu (trackerStart p.time s.imu s.tracker)
  return { s with tracker := some tt, extTracker := some tt, imu := trimImu p.time s.imu }

/-- pose_extrapolator.cc:124-133. -/
def addImu (t : Nat) (s : Extrap R W) : Outcome (Extrap R W) := do
  if s.imuMode = false then return s
  match s.queue.getLast? with
  | none => return { s with imu := s.imu ++ [t] }
  | some newest =>
    Outcome.check (newest.time ≤ t)
    return { s with imu := trimImu newest.time (s.imu ++ [t]) }

/-- pose_extrapolator.cc:177-197, 287-319.  `back()` of an empty deque and a null tracker are
undefined behaviour. -/
def extrapolate (ops : RotOps R W) (t : Nat) (s : Extrap R W) :
    Outcome (TPose R × Extrap R W) :=
  match s.queue.getLast? with
  | none => .ub
  | some newest => do
    Outcome.check (newest.time ≤ t)
    if nsEq s.cache.time t then
      return (s.cache, s)
    let dt := nsToSec (t - newest.time)
    let pos := vecAddScaled newest.pos dt s.linVel
    if s.imuMode = false then
      let p : TPose R := ⟨t, pos, ops.turn newest.rot s.angVel dt⟩
      return (p, { s with cache := p })
    match s.extTracker, s.tracker with
    | some et, some tt =>
      let et ← advanceTracker t s.imu et
      let p : TPose R := ⟨t, pos, ops.imuTurn newest.rot tt et⟩
      return (p, { s with cache := p, extTracker := some et })
    | _, _ => .ub

/-- pose_extrapolator.cc:209-213. -/
def initRoughVel (v : Vec3 Rat) (s : Extrap R W) : Extrap R W := { s with linVel := v }

/-- pose_extrapolator.cc:74-80. -/
def lastPoseTime (s : Extrap R W) : Nat :=
  match s.queue.getLast? with
  | none => 0
  | some p => p.time

/-- The calls a user makes. -/
inductive ExOp (R : Type) where
  | add (p : TPose R)
  | query (t : Nat)
  | imu (t : Nat)
  | rough (v : Vec3 Rat)

/-- One call. -/
def exStep (ops : RotOps R W) (s : Extrap R W) : ExOp R → Outcome (Extrap R W)
  | .add p => addPose ops p s
  | .query t => do
    let r ← extrapolate ops t s
    return r.2
  | .imu t => addImu t s
  | .rough v => return initRoughVel v s

/-- A history of calls, oldest first. -/
def exRun (ops : RotOps R W) : Extrap R W → List (ExOp R) → Outcome (Extrap R W)
  | s, [] => .ok s
  | s, op :: r => do
    let s' ← exStep ops s op
    exRun ops s' r

/-- pose_extrapolator.cc:39-46, 68-72: `InitialSimpleCTRV`.  `r0`, `w0` are the identity rotation
and the zero angular velocity. -/
def exCtrv (dur : Nat) (r0 : R) (w0 : W) : Extrap R W where
  imuMode := false
  dur := dur
  queue := []
  cache := ⟨0, ⟨0, 0, 0⟩, r0⟩
  linVel := ⟨0, 0, 0⟩
  angVel := w0
  tracker := none
  extTracker := none
  imu := []

/-- pose_extrapolator.cc:48-66: `InitializeWithImu` with a first message stamped `t`; `r1` is the
orientation its acceleration gives. -/
def exImu (ops : RotOps R W) (dur : Nat) (r0 r1 : R) (w0 : W) (t : Nat) :
    Outcome (Extrap R W) := do
  let s ← addImu t { exCtrv dur r0 w0 with imuMode := true }
  addPose ops ⟨t, ⟨0, 0, 0⟩, r1⟩ { s with tracker := some t }

/-- The mapping thread and the two insertion calls, as far as the extrapolator sees them
(map_builder.cc:156-191, 260-397): clouds waiting in the data collector are their stamps, and
`first` is `got_first_point_cloud_`. -/
structure Driver (R W : Type) where
  useImu : Bool
  dur : Nat
  ex : Option (Extrap R W)
  waiting : List Nat
  first : Bool

/-- What can happen.  `process pose` carries the pose that matching ends with, whatever it is. -/
inductive DrvEvent (R : Type) where
  | arrive (t : Nat)
  | imu (t : Nat) (r1 : R)
  | process (pos : Vec3 Rat) (rot : R)

/-- map_builder.cc:156-169 (`arrive`), 171-191 (`imu`), 267-304 and 355-357 (`process`).
`r0`, `w0` as in `exCtrv`. -/
def drvStep (ops : RotOps R W) (r0 : R) (w0 : W) (d : Driver R W) :
    DrvEvent R → Outcome (Driver R W)
  | .arrive t =>
    match d.ex with
    | none => if d.useImu then .ok d else .ok { d with waiting := d.waiting ++ [t] }
    | some s =>
      if t < lastPoseTime s then .ok d else .ok { d with waiting := d.waiting ++ [t] }
  | .imu t r1 =>
    if d.useImu = false then .ok d
    else match d.ex with
      | none => do
        let s ← exImu ops d.dur r0 r1 w0 t
        return { d with ex := some s }
      | some s => do
        let s ← addImu t s
        return { d with ex := some s }
  | .process pos rot =>
    match d.waiting with
    | [] => .ok d
    | t :: rest =>
      match d.ex with
      | none => .ok { d with waiting := rest, first := true }
      | some s =>
        if d.first = false then do
          let s ← addPose ops ⟨t, ⟨0, 0, 0⟩, r0⟩ s
          return { d with ex := some s, waiting := rest, first := true }
        else if t < lastPoseTime s then .ok { d with waiting := rest }
        else do
          let r ← extrapolate ops t s
          let s ← addPose ops ⟨t, pos, rot⟩ r.2
          return { d with ex := some s, waiting := rest }

/-- A run of the driver. -/
def drvRun (ops : RotOps R W) (r0 : R) (w0 : W) : Driver R W → List (DrvEvent R) →
    Outcome (Driver R W)
  | d, [] => .ok d
  | d, e :: r => do
    let d' ← drvStep ops r0 w0 d e
    drvRun ops r0 w0 d' r

end Verif
