import Verif.Model.Time
import Verif.Model.Floats
/-
Times as `double` seconds: common/simple_time.h:113-115 `ToSec`, common/simple_time.cc:38-46
`FromSec`, and the quotient of two durations of builder/data/data_collector.cc:233-241, 283-291.

Every operation rounds to a `double` (`toF64`); the literal `1.e-9` is the `double` nearest to it.
`uint32_t` and `double` mix exactly.  A `double` outside the range of `uint32_t` cast to it is
undefined behaviour.
-/
namespace Verif
namespace SimpleTime

/-- simple_time.h:113-115. -/
def toSecF (t : SimpleTime) : ℚ :=
  toF64 ((t.secs.toNat : ℚ) + toF64 ((t.nsecs.toNat : ℚ) * toF64 (1 / 1000000000)))

/-- simple_time.cc:38-46. -/
def fromSecF (sec : ℚ) : Outcome SimpleTime :=
  if sec < 0 then .ok ⟨0, 0⟩
  else if 4294967296 ≤ sec then .ub
  else
    let s := ⌊sec⌋.toNat
    let n := toF64 (toF64 (sec - s) * 1000000000)
    if 4294967296 ≤ n then .ub
    else .ok ⟨UInt32.ofNat s, UInt32.ofNat ⌊n⌋.toNat⟩

/-- data_collector.cc:233, 240 and 283, 290: the share of the interval from `a` to `b` that has
passed at `t`. -/
def shareF (a b t : SimpleTime) : ℚ := toF64 ((t.sub a).toSecF / (b.sub a).toSecF)

end SimpleTime
end Verif
