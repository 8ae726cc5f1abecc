import Verif.Model.Gps
import Verif.Model.FrontEnd
/-
builder/data/data_collector.cc : odometry ingest and interpolation.

A pose is rigid (`Rigid Rat`), so the inverse of the first pose is its transpose; `slerp` is Eigen's
quaternion interpolation. The path cloud kept for debugging is not modelled. One call is one critical
section, so atomic.
-/
namespace Verif

/-- data_types.h:131-147 `OdomMsg`: stamp and pose (`PoseInMatrix`). -/
structure OdomSample where
  time : SimpleTime
  pose : Rigid Rat

/-- data_collector.h : `odom_init_offset_` and `odom_data_`. -/
structure OdomState where
  offset : Option (Rigid Rat) := none
  data : List OdomSample := []

/-- data_collector.cc:174-185 `AddSensorData(OdomMsg)`. -/
def addOdom (st : OdomState) (m : OdomSample) : OdomState :=
  let offset := st.offset.getD m.pose
  { offset := some offset
    data := st.data ++ [{ time := m.time, pose := Rigid.between offset m.pose }] }

def addOdomAll (st : OdomState) (ms : List OdomSample) : OdomState := ms.foldl addOdom st

abbrev Slerp := Matrix (Fin 3) (Fin 3) Rat → Matrix (Fin 3) (Fin 3) Rat → Rat → Matrix (Fin 3) (Fin 3) Rat

/-- data_collector.cc:282-295 : the part after the lock is released. -/
def odomBetween (slerp : Slerp) (time : SimpleTime) (a b : OdomSample) :
    Outcome (Option (Rigid Rat)) := do
  let delta := (b.time.sub a.time).toSec
  Outcome.check (delta > 1 / 1000000)
  if delta > 1 then return none
  else
    Outcome.check (time.ge a.time = true ∧ time.le b.time = true)
    let f := (time.sub a.time).toSec / delta
    Outcome.check (0 ≤ f ∧ f ≤ 1)
    let p ← interpolateTransform slerp a.pose b.pose f
    return some p

/-- data_collector.cc:258-266 : exactly one stored sample. -/
def odomSingle (d : OdomSample) (time : SimpleTime) (threshold : Rat) : Option (Rigid Rat) :=
  let diff := time.toSec - d.time.toSec
  if (if diff < 0 then -diff else diff) ≤ threshold then some d.pose else none

/-- data_collector.cc:267-295 : at least two samples, `first` and `last` being the outer ones.
`odom_data_[i]` with a bad index is undefined behaviour. -/
def odomMany (slerp : Slerp) (data : List OdomSample) (first last : OdomSample) (time : SimpleTime)
    (trim : Bool) : Outcome (Option (Rigid Rat) × List OdomSample) :=
  if time.lt first.time || time.gt last.time then .ok (none, data)
  else do
    let (i, j) ← timeStampBinarySearch (data.map OdomSample.time) time
    match data[i.toNat]?, data[j.toNat]? with
    | some a, some b => do
      let data' := if trim then data.drop i.toNat else data
      let r ← odomBetween slerp time a b
      return (r, data')
    | _, _ => .ub

/-- data_collector.cc:247-296 `InterpolateOdom`: result and new buffer. -/
def interpolateOdom (slerp : Slerp) (data : List OdomSample) (time : SimpleTime) (threshold : Rat)
    (trim : Bool) : Outcome (Option (Rigid Rat) × List OdomSample) := do
  Outcome.check (threshold ≤ 1 / 2)
  match data with
  | [] => return (none, data)
  | [d] => return (odomSingle d time threshold, data)
  | first :: second :: rest =>
    odomMany slerp data first ((second :: rest).getLast (by simp)) time trim

end Verif
