import Verif.Model.Gps
import Verif.Spec.Time
namespace Verif.Spec

/-- The messages from the first fixed one on. -/
def fromFirstFix (ms : List GpsMsg) : List GpsMsg := ms.dropWhile (fun m => decide (m.status ≠ 0))

/-- Stamps strictly increase. -/
def Increasing (ts : List SimpleTime) : Prop := ts.Pairwise (fun a b => ns a < ns b)

/-- The sample a message becomes, given the reference. -/
def sampleOf (fwd : LatLonAlt → LatLonAlt → Vec3 Rat) (ref : LatLonAlt) (m : GpsMsg) : GpsData :=
  { fixed := decide (m.status = 0), time := m.time, lla := m.lla, enu := fwd ref m.lla }

/-- `p` divides the segment from `a` to `b` in the ratio of the times: `(tb - ta) * (p - a) =
(t - ta) * (b - a)` in every coordinate. -/
def OnSegment (a b : GpsData) (t : SimpleTime) (p : Vec3 Rat) : Prop :=
  let w : Rat := (ns b.time : Rat) - ns a.time
  let v : Rat := (ns t : Rat) - ns a.time
  w * (p.x - a.enu.x) = v * (b.enu.x - a.enu.x) ∧
  w * (p.y - a.enu.y) = v * (b.enu.y - a.enu.y) ∧
  w * (p.z - a.enu.z) = v * (b.enu.z - a.enu.z)

/-- Neighbouring stamps are more than one microsecond apart. -/
def GapsOver1us (l : List GpsData) : Prop :=
  ∀ i a b, l[i]? = some a → l[i + 1]? = some b → ns a.time + 1000 < ns b.time

end Verif.Spec
