import Verif.Model.InterpF
import Verif.Spec.Odom
import Verif.Spec.Seconds
namespace Verif.Spec

/-- `p` is, up to rounding, the value at time `t` on the way from `a` (at `ta`) to `b` (at `tb`):
`slack` times the length of the way, and fifteen digits of the larger end. -/
def OnWay (slack : Rat) (ta tb t : Nat) (a b p : Rat) : Prop :=
  |p - (a + ((t : Rat) - ta) / ((tb : Rat) - ta) * (b - a))| ≤ slack * |b - a| + (|a| + |b|) / 2 ^ 50

/-- The same for the three coordinates of a position. -/
def GpsOnWay (a b : GpsData) (t : SimpleTime) (p : Vec3 Rat) : Prop :=
  OnWay (1 / 2 ^ 49) (ns a.time) (ns b.time) (ns t) a.enu.x b.enu.x p.x ∧
  OnWay (1 / 2 ^ 49) (ns a.time) (ns b.time) (ns t) a.enu.y b.enu.y p.y ∧
  OnWay (1 / 2 ^ 49) (ns a.time) (ns b.time) (ns t) a.enu.z b.enu.z p.z

/-- A pose on the way from `a` to `b`: seven digits of the way, and the rotation is the quaternion
interpolation at a share that is right to seven digits. -/
def OdomOnWay (slerp : Slerp) (a b : OdomSample) (t : SimpleTime) (p : Rigid Rat) : Prop :=
  (∀ i, OnWay (1 / 2 ^ 23) (ns a.time) (ns b.time) (ns t) (a.pose.trans i) (b.pose.trans i) (p.trans i)) ∧
  ∃ u : Rat, 0 ≤ u ∧ u ≤ 1 ∧
    |u - ((ns t : Rat) - ns a.time) / ((ns b.time : Rat) - ns a.time)| ≤ 1 / 2 ^ 23 ∧
    p.rot = slerp a.pose.rot b.pose.rot u

/-- Neighbouring stamps are at least one microsecond apart. -/
def Gaps1us (ts : List SimpleTime) : Prop :=
  ∀ i a b, ts[i]? = some a → ts[i + 1]? = some b → ns a + 1000 ≤ ns b

end Verif.Spec
