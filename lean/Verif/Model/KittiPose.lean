import Verif.Model.PathExport
import Verif.Model.CloudGeom
import Mathlib.Data.Int.Log
/-
builder/map_builder.cc:626-644 (in `MapBuilder::OutputPath`): the file kitti_pose.txt.

A stream with `std::setprecision(8)` writes a `double` as `%.8g`: eight significant digits, rounded to
nearest (ties to even), without trailing zeros, with an exponent when it is below -4 or above 7.
Numbers are rational; infinities and not-a-number are left out and zero has no sign.
-/
namespace Verif

/-- A text without the zeros at its end. -/
def dropZeros (s : List Char) : List Char := (s.reverse.dropWhile (· = '0')).reverse

/-- A fraction of `k` digits: nothing at all if it is zero. -/
def fracText (k n : Nat) : List Char :=
  match dropZeros (padDigits k n) with
  | [] => []
  | c :: s => '.' :: c :: s

/-- Eight digits and an exponent for a positive number. -/
def sciParts (x : ℚ) : Nat × ℤ :=
  let e := Int.log 10 x
  let m := roundEven (x / (10 : ℚ) ^ (e - 7))
  if m = 100000000 then (10000000, e + 1) else (m, e)

/-- The exponent: a sign and at least two digits. -/
def expText (e : ℤ) : List Char :=
  (if e < 0 then '-' else '+') ::
    (if e.natAbs < 10 then '0' :: decNat e.natAbs else decNat e.natAbs)

/-- The text of a positive number given by its parts. -/
def partsText (m : Nat) (e : ℤ) : List Char :=
  if -4 ≤ e ∧ e < 8 then
    decNat (m / 10 ^ (7 - e).toNat) ++ fracText (7 - e).toNat (m % 10 ^ (7 - e).toNat)
  else
    decNat (m / 10 ^ 7) ++ fracText 7 (m % 10 ^ 7) ++ 'e' :: expText e

/-- `%.8g`. -/
def general8 (x : ℚ) : List Char :=
  if x = 0 then ['0']
  else if x < 0 then '-' :: partsText (sciParts (-x)).1 (sciParts (-x)).2
  else partsText (sciParts x).1 (sciParts x).2

/-- 632-639: the twelve numbers, row by row. -/
def kittiNumbers (p : Mat4 ℚ) : List ℚ :=
  [p 0 0, p 0 1, p 0 2, p 0 3, p 1 0, p 1 1, p 1 2, p 1 3, p 2 0, p 2 1, p 2 2, p 2 3]

/-- The numbers of a line, with a blank between them and a line feed at the end. -/
def blankLine : List ℚ → List Char
  | [] => ['\n']
  | [x] => general8 x ++ ['\n']
  | x :: y :: r => general8 x ++ ' ' :: blankLine (y :: r)

/-- 626-644.  `want`: the option is set; `opens`: the file could be opened; `none`: no file.  One line
for each submap of the current trajectory. -/
def kittiFile (want opens : Bool) (poses : List (Mat4 ℚ)) : Option (List Char) :=
  if want && opens then some (poses.flatMap fun p => blankLine (kittiNumbers p)) else none

end Verif
