import Verif.Model.Odom
import Verif.Spec.Gps
namespace Verif.Spec

/-- The pose turns and shifts without deforming: its rotation part is orthogonal. -/
def Orthogonal (p : Rigid Rat) : Prop := p.rot * p.rot.transpose = 1 ∧ p.rot.transpose * p.rot = 1

/-- `p` is the pose part of the way from `a` to `b` in proportion to time: with `u` the elapsed
share, `u * (tb - ta) = t - ta`, the position is that far along the segment and the rotation is the
quaternion interpolation at `u`. -/
def OdomOnPath (slerp : Slerp) (a b : OdomSample) (t : SimpleTime) (p : Rigid Rat) : Prop :=
  ∃ u : Rat, 0 ≤ u ∧ u ≤ 1 ∧
    u * ((ns b.time : Rat) - ns a.time) = (ns t : Rat) - ns a.time ∧
    p.rot = slerp a.pose.rot b.pose.rot u ∧
    ∀ i, p.trans i - a.pose.trans i = u * (b.pose.trans i - a.pose.trans i)

/-- Neighbouring samples are more than one microsecond apart. -/
def OdomGaps (l : List OdomSample) : Prop :=
  ∀ i a b, l[i]? = some a → l[i + 1]? = some b → ns a.time + 1000 < ns b.time

end Verif.Spec
