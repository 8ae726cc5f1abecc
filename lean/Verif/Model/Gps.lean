import Verif.Model.Time
import Verif.Model.Geom
/-
builder/data/data_collector.cc : GPS ingest, GPS / odometry interpolation and trimming.

`GeographicLib::LocalCartesian::Forward` is the parameter `fwd` (reference, position ↦ local
coordinates). Positions are exact rationals; `ToSec()` is the exact number of seconds. The path
cloud kept for debugging is not modelled. One call is one critical section, so atomic.
-/
namespace Verif

abbrev LatLonAlt := Vec3 Rat

/-- data_types.h `NavSatFixMsg`: stamp, status, position. -/
structure GpsMsg where
  time : SimpleTime
  status : Int
  lla : LatLonAlt
  deriving DecidableEq, Repr

/-- data_types.h : `STATUS_FIX = 0`. -/
def statusFix : Int := 0

/-- data_collector.h `GpsData`. -/
structure GpsData where
  fixed : Bool
  time : SimpleTime
  lla : LatLonAlt
  enu : Vec3 Rat
  deriving DecidableEq, Repr

structure GpsState where
  ref : Option LatLonAlt := none
  data : List GpsData := []
  deriving DecidableEq, Repr

/-- data_collector.cc:83-118 `AddSensorData(NavSatFixMsg)`. -/
def addGps (fwd : LatLonAlt → LatLonAlt → Vec3 Rat) (st : GpsState) (m : GpsMsg) :
    Outcome GpsState :=
  let fixed := decide (m.status = statusFix)
  let store (ref : LatLonAlt) (st : GpsState) : Outcome GpsState :=
    let d : GpsData := { fixed := fixed, time := m.time, lla := m.lla, enu := fwd ref m.lla }
    match st.data.getLast? with
    | none => .ok { st with data := st.data ++ [d] }
    | some last =>
      if m.time.gt last.time then .ok { st with data := st.data ++ [d] } else .abort
  match st.ref with
  | none => if fixed then store m.lla { st with ref := some m.lla } else .ok st
  | some r => store r st

def addGpsAll (fwd : LatLonAlt → LatLonAlt → Vec3 Rat) : GpsState → List GpsMsg → Outcome GpsState
  | st, [] => .ok st
  | st, m :: ms => do
    let st ← addGps fwd st m
    addGpsAll fwd st ms

/-- simple_time.h:111-114 `ToSec`, exact. -/
def SimpleTime.toSec (t : SimpleTime) : Rat := (t.secs.toNat : Rat) + (t.nsecs.toNat : Rat) / 1000000000

/-- data_collector.cc:232-244 : the part after the lock is released.  Exact numbers here; with the
rounding of the program (model `InterpF`) a gap of exactly a microsecond passes the check. -/
def gpsBetween (time : SimpleTime) (a b : GpsData) : Outcome (Option (Vec3 Rat)) := do
  Outcome.check (time.ge a.time = true ∧ time.le b.time = true)
  let delta := (b.time.sub a.time).toSec
  Outcome.check (delta > 1 / 1000000)
  if delta > 2 / 10 ∨ a.fixed = false ∨ b.fixed = false then return none
  else
    let f := (time.sub a.time).toSec / delta
    Outcome.check (0 ≤ f ∧ f ≤ 1)
    return some ⟨a.enu.x + f * (b.enu.x - a.enu.x), a.enu.y + f * (b.enu.y - a.enu.y),
                 a.enu.z + f * (b.enu.z - a.enu.z)⟩

/-- data_collector.cc:207-216 : exactly one stored sample. -/
def gpsSingle (d : GpsData) (time : SimpleTime) (threshold : Rat) : Option (Vec3 Rat) :=
  let diff := time.toSec - d.time.toSec
  if (if diff < 0 then -diff else diff) ≤ threshold ∧ d.fixed = true then some d.enu else none

/-- data_collector.cc:217-245 : at least two samples, `first` and `last` being the outer ones. `at`
with a bad index throws (abort). -/
def gpsMany (data : List GpsData) (first last : GpsData) (time : SimpleTime) (trim : Bool) :
    Outcome (Option (Vec3 Rat) × List GpsData) :=
  if time.lt first.time || time.gt last.time then .ok (none, data)
  else do
    let (i, j) ← timeStampBinarySearch (data.map GpsData.time) time
    match data[i.toNat]?, data[j.toNat]? with
    | some a, some b => do
      let data' := if trim then data.drop i.toNat else data
      let r ← gpsBetween time a b
      return (r, data')
    | _, _ => .abort

/-- data_collector.cc:196-245 `InterpolateGps`: result and new buffer. -/
def interpolateGps (data : List GpsData) (time : SimpleTime) (threshold : Rat) (trim : Bool) :
    Outcome (Option (Vec3 Rat) × List GpsData) := do
  Outcome.check (threshold ≤ 1 / 2)
  match data with
  | [] => return (none, data)
  | [d] => return (gpsSingle d time threshold, data)
  | first :: second :: rest =>
    gpsMany data first ((second :: rest).getLast (by simp)) time trim

/-- data_collector.cc:330-341 : index found by the loop of `TRIM_DATA` (`i < n - 2`). -/
def trimIndex (time : SimpleTime) : Nat → List SimpleTime → Nat
  | 0, _ => 0
  | _, [] => 0
  | n + 1, t :: ts => if t.ge time then 0 else trimIndex time n ts + 1

/-- data_collector.cc:330-341 `TRIM_DATA` / 343-351 `TrimGpsData`, `TrimImuData`. -/
def trimData {α : Type} (timeOf : α → SimpleTime) (data : List α) (time : SimpleTime) : List α :=
  if data.length ≤ 2 then data
  else data.drop (trimIndex time (data.length - 2) (data.map timeOf))

end Verif
