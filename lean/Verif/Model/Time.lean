import Verif.Model.Outcome
/-
common/simple_time.{h,cc} : `SimpleTime`, PCL time conversion, `TimeStampBinarySearch`.

Not modelled: `GetCurrentTime`, `Sleep`, `FromSec`/`ToSec` (double arithmetic),
`DebugString`.  The field `u_judge_range` is always 1 (simple_time.cc:27-30, no setter), so it
is a constant here.
-/
namespace Verif

/-- simple_time.h:102-103 : two `uint32_t` fields. -/
structure SimpleTime where
  secs : UInt32
  nsecs : UInt32
  deriving Repr, DecidableEq

namespace SimpleTime

/-- simple_time.h:117-119 : 64-bit unsigned arithmetic, cast to `int64_t`. -/
def toNanoSec (t : SimpleTime) : Int64 :=
  (t.secs.toUInt64 * 1000000000 + t.nsecs.toUInt64).toInt64

/-- simple_time.cc:48-50 : the casts to `uint32_t` truncate. -/
def fromNanoSec (t : UInt64) : SimpleTime :=
  { secs := (t / 1000000000).toUInt32, nsecs := (t % 1000000000).toUInt32 }

/-- simple_time.cc:52-54. -/
def timeMax : SimpleTime := { secs := 0xFFFFFFFF, nsecs := 999999999 }

/-- simple_time.cc:61-67, `u_judge_range = 1`. -/
def eq (a b : SimpleTime) : Bool :=
  let diff := a.toNanoSec - b.toNanoSec
  let diff := if diff < 0 then -diff else diff
  diff ≤ 1

/-- simple_time.cc:56-58. -/
def ne (a b : SimpleTime) : Bool := !(eq a b)

/-- simple_time.cc:69-72 : `int64_t` sum passed as `uint64_t`. -/
def add (a b : SimpleTime) : SimpleTime :=
  fromNanoSec (a.toNanoSec + b.toNanoSec).toUInt64

/-- simple_time.cc:74-81. -/
def sub (a b : SimpleTime) : SimpleTime :=
  let tmp := a.toNanoSec - b.toNanoSec
  let tmp := if tmp < 0 then 0 else tmp
  fromNanoSec tmp.toUInt64

/-- simple_time.cc:83-101.  `-INT_MIN` is signed overflow: undefined behaviour. -/
def divAssign (t : SimpleTime) (a : Int32) : Outcome SimpleTime :=
  if a = 0 then .ok t
  else if a = Int32.minValue then .ub
  else
    let div := if a < 0 then -a else a
    let tmp := t.toNanoSec / div.toInt64
    .ok { secs := (tmp / 1000000000).toUInt64.toUInt32
          nsecs := (tmp % 1000000000).toUInt64.toUInt32 }

/-- simple_time.cc:108-119. -/
def lt (a b : SimpleTime) : Bool := a.toNanoSec < b.toNanoSec
def le (a b : SimpleTime) : Bool := a.toNanoSec ≤ b.toNanoSec
def gt (a b : SimpleTime) : Bool := a.toNanoSec > b.toNanoSec
def ge (a b : SimpleTime) : Bool := a.toNanoSec ≥ b.toNanoSec

end SimpleTime

/-- simple_time.h:126-129 : `time * 1000ull` wraps modulo 2^64. -/
def toLocalTime (t : UInt64) : SimpleTime := SimpleTime.fromNanoSec (t * 1000)

/-- simple_time.h:131-133 : the `int64_t` is converted to `uint64_t` by the `ull` divisor. -/
def toPclTime (t : SimpleTime) : UInt64 := t.toNanoSec.toUInt64 / 1000

/-- simple_time.h:141-148, the loop.  `start`/`end` are `int`; every `at(mid)` the loop does
has `0 ≤ start ≤ mid ≤ end < size`; an out-of-range `at` throws (outcome `abort`). -/
def tsSearchLoop (data : List SimpleTime) (time : SimpleTime) (start fin : Int) :
    Outcome (Int × Int) :=
  if _h : fin - start > 1 then
    let mid := start + (fin - start) / 2
    match (if 0 ≤ mid then data[mid.toNat]? else none) with
    | none => .abort
    | some d =>
      if time.lt d then tsSearchLoop data time start mid
      else tsSearchLoop data time mid fin
  else .ok (start, fin)
termination_by (fin - start).toNat
decreasing_by all_goals omega

/-- simple_time.h:135-151.  The data vector is represented by its time stamps.  Sizes beyond
`INT_MAX` are not modelled. -/
def timeStampBinarySearch (data : List SimpleTime) (time : SimpleTime) : Outcome (Int × Int) := do
  let r ← tsSearchLoop data time 0 ((data.length : Int) - 1)
  Outcome.check (r.2 - r.1 = 1)
  return r

end Verif
