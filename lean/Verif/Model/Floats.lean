import Mathlib.Data.Int.Log
import Mathlib.Data.Rat.Floor
import Mathlib.Algebra.Order.Field.Rat
/-
The numbers a `float` or a `double` can hold, and rounding to them.

A finite binary number with `p` significant bits is `m * 2 ^ k` with `|m| < 2 ^ p`.  `flRound p`
rounds to the nearest of these, ties to the even `m`: this is how x86 and ARM convert, add and
multiply by default.  Left out: infinities, not-a-number and the bounds on the exponent (a `float`
overflows at about 3.4e38 and loses bits below 1.2e-38; no coordinate or time of this program is near
either), and compilers that contract `a * b + c` into one rounding, which rounds less often.
-/
namespace Verif

/-- Rounding to the nearest integer, ties to even. -/
def rintEven (y : ℚ) : ℤ :=
  if y - ⌊y⌋ < 1 / 2 then ⌊y⌋
  else if 1 / 2 < y - ⌊y⌋ then ⌊y⌋ + 1
  else if ⌊y⌋ % 2 = 0 then ⌊y⌋ else ⌊y⌋ + 1

/-- The step between neighbouring numbers with `p` bits near `x`. -/
def flUlp (p : ℕ) (x : ℚ) : ℚ := (2 : ℚ) ^ (Int.log 2 |x| - p + 1)

/-- Rounding to `p` significant bits. -/
def flRound (p : ℕ) (x : ℚ) : ℚ :=
  if x = 0 then 0 else rintEven (x / flUlp p x) * flUlp p x

/-- Conversion to `float`. -/
def toF32 (x : ℚ) : ℚ := flRound 24 x

/-- Conversion to `double`. -/
def toF64 (x : ℚ) : ℚ := flRound 53 x

end Verif
