import Verif.Model.Seconds
import Verif.Model.Odom
/-!
Interpolation between the readings of a sensor with the number types of the program: seconds, shares
and positions are `double`, and the share handed to `InterpolateTransform` is a `float`.  The models
`Gps` and `Odom` have the same functions over exact numbers.

Simplification: the exponent of a floating-point number is unbounded (no overflow, no subnormals).
-/
namespace Verif

/-- builder/data/data_collector.cc:240-242 and common/math.h:207-209, one coordinate: the difference,
its product with the share and the sum are each rounded to `double`. -/
def lerpF (f a b : ℚ) : ℚ := toF64 (a + toF64 (f * toF64 (b - a)))

/-- builder/data/data_collector.cc:227-243 (`InterpolateGps`, after the search).  The literals `1.e-6`
and `0.2` are the nearest `double`s. -/
def gpsBetweenF (time : SimpleTime) (a b : GpsData) : Outcome (Option (Vec3 Rat)) := do
  Outcome.check (time.ge a.time = true ∧ time.le b.time = true)
  let delta := (b.time.sub a.time).toSecF
  Outcome.check (delta > toF64 (1 / 1000000))
  if delta > toF64 (2 / 10) ∨ a.fixed = false ∨ b.fixed = false then return none
  else
    let f := SimpleTime.shareF a.time b.time time
    Outcome.check (0 ≤ f ∧ f ≤ 1)
    return some ⟨lerpF f a.enu.x b.enu.x, lerpF f a.enu.y b.enu.y, lerpF f a.enu.z b.enu.z⟩

/-- builder/data/data_collector.cc:207-215: the only reading, used if the dates, as seconds, are not
further apart than the threshold. -/
def gpsSingleF (d : GpsData) (time : SimpleTime) (threshold : Rat) : Option (Vec3 Rat) :=
  if |toF64 (time.toSecF - d.time.toSecF)| ≤ threshold ∧ d.fixed = true then some d.enu else none

/-- builder/data/data_collector.cc:216-226, two readings or more. -/
def gpsManyF (data : List GpsData) (first last : GpsData) (time : SimpleTime) (trim : Bool) :
    Outcome (Option (Vec3 Rat) × List GpsData) :=
  if time.lt first.time || time.gt last.time then .ok (none, data)
  else do
    let (i, j) ← timeStampBinarySearch (data.map GpsData.time) time
    match data[i.toNat]?, data[j.toNat]? with
    | some a, some b => do
      let data' := if trim then data.drop i.toNat else data
      let r ← gpsBetweenF time a b
      return (r, data')
    | _, _ => .abort

/-- builder/data/data_collector.cc:196-245 `DataCollector::InterpolateGps`. -/
def interpolateGpsF (data : List GpsData) (time : SimpleTime) (threshold : Rat) (trim : Bool) :
    Outcome (Option (Vec3 Rat) × List GpsData) := do
  Outcome.check (threshold ≤ 1 / 2)
  match data with
  | [] => return (none, data)
  | [d] => return (gpsSingleF d time threshold, data)
  | first :: second :: rest =>
    gpsManyF data first ((second :: rest).getLast (by simp)) time trim

/-- common/math.h:198-211 `InterpolateTransform<double>`: the argument `factor` is a `float`.  The
quaternion interpolation is a parameter. -/
def interpolateTransformF (slerp : Slerp) (t1 t2 : Rigid Rat) (factor : ℚ) : Outcome (Rigid Rat) := do
  Outcome.check (0 ≤ factor ∧ factor ≤ 1)
  return { rot := slerp t1.rot t2.rot factor
           trans := fun i => lerpF factor (t1.trans i) (t2.trans i) }

/-- builder/data/data_collector.cc:282-297 (`InterpolateOdom`, after the search): the share is computed
as `double` and converted to `float` by the call. -/
def odomBetweenF (slerp : Slerp) (time : SimpleTime) (a b : OdomSample) :
    Outcome (Option (Rigid Rat)) := do
  let delta := (b.time.sub a.time).toSecF
  Outcome.check (delta > toF64 (1 / 1000000))
  if delta > 1 then return none
  else
    Outcome.check (time.ge a.time = true ∧ time.le b.time = true)
    let f := SimpleTime.shareF a.time b.time time
    Outcome.check (0 ≤ f ∧ f ≤ 1)
    let p ← interpolateTransformF slerp a.pose b.pose (toF32 f)
    return some p

/-- builder/data/data_collector.cc:258-266. -/
def odomSingleF (d : OdomSample) (time : SimpleTime) (threshold : Rat) : Option (Rigid Rat) :=
  if |toF64 (time.toSecF - d.time.toSecF)| ≤ threshold then some d.pose else none

/-- builder/data/data_collector.cc:267-280. -/
def odomManyF (slerp : Slerp) (data : List OdomSample) (first last : OdomSample) (time : SimpleTime)
    (trim : Bool) : Outcome (Option (Rigid Rat) × List OdomSample) :=
  if time.lt first.time || time.gt last.time then .ok (none, data)
  else do
    let (i, j) ← timeStampBinarySearch (data.map OdomSample.time) time
    match data[i.toNat]?, data[j.toNat]? with
    | some a, some b => do
      let data' := if trim then data.drop i.toNat else data
      let r ← odomBetweenF slerp time a b
      return (r, data')
    | _, _ => .ub

/-- builder/data/data_collector.cc:247-297 `DataCollector::InterpolateOdom`. -/
def interpolateOdomF (slerp : Slerp) (data : List OdomSample) (time : SimpleTime) (threshold : Rat)
    (trim : Bool) : Outcome (Option (Rigid Rat) × List OdomSample) := do
  Outcome.check (threshold ≤ 1 / 2)
  match data with
  | [] => return (none, data)
  | [d] => return (odomSingleF d time threshold, data)
  | first :: second :: rest =>
    odomManyF slerp data first ((second :: rest).getLast (by simp)) time trim

end Verif
