import Verif.Model.Time
/-! Specification of time stamps: a stamp denotes a point of the nanosecond line. -/
namespace Verif.Spec

/-- The nanosecond count a stamp denotes. -/
def ns (t : SimpleTime) : Nat := t.secs.toNat * 1000000000 + t.nsecs.toNat

/-- A stamp is normalised when its nanosecond field is below one second. -/
def Normalised (t : SimpleTime) : Prop := t.nsecs.toNat < 1000000000

/-- First nanosecond count whose seconds do not fit 32 bits. -/
def nsLimit : Nat := 2 ^ 32 * 1000000000

/-- The stamps are in (weak) time order. -/
def TimeOrdered (l : List SimpleTime) : Prop := l.Pairwise (fun a b => ns a ≤ ns b)

end Verif.Spec
