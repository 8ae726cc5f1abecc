import Verif.Model.Xml
import Verif.Model.MultiTraj
import Verif.Model.KittiPose
import Verif.Model.Floats
/-
third_parties/pugixml/pugixml.cc:4476-4680 and 5157-5210, 6398-6440 : numbers and switches in XML
files, as attributes (`append_attribute(…) = value`, `attribute(…).as_double()`) and as the text of an
element (`text().as_int()`, `text().as_float()`).

`printf` and `strtod` are the C library's: `%.17g` and `%.9g` write the nearest number of 17 and 9
significant digits, `strtod` gives the `double` nearest to the number it reads.  Not modelled: numbers
too large or too small for a `double`, infinities, not-a-number, the sign of zero, hexadecimal
floating point texts, locales with another decimal point.
-/
namespace Verif

/-! Whole numbers -/

/-- 4521-4529 : the decimal digits at the front of a text, in 32 bits, and how many there are. -/
def scanDec : Nat → Nat → List Char → Nat × Nat
  | acc, k, [] => (acc, k)
  | acc, k, c :: r =>
    if isDigitChar c then scanDec ((10 * acc + (c.toNat - 48)) % 2 ^ 32) (k + 1) r else (acc, k)

/-- 4499-4504 : the value of a hexadecimal digit. -/
def hexDigit (c : Char) : Option Nat :=
  if 48 ≤ c.toNat ∧ c.toNat ≤ 57 then some (c.toNat - 48)
  else if 97 ≤ c.toNat ∧ c.toNat ≤ 102 then some (c.toNat - 87)
  else if 65 ≤ c.toNat ∧ c.toNat ≤ 70 then some (c.toNat - 55)
  else none

/-- 4497-4508. -/
def scanHex : Nat → Nat → List Char → Nat × Nat
  | acc, k, [] => (acc, k)
  | acc, k, c :: r =>
    match hexDigit c with
    | some d => scanHex ((16 * acc + d) % 2 ^ 32) (k + 1) r
    | none => (acc, k)

/-- 4539 : more digits than 32 bits hold; `lead` is the first of them. -/
def decOverflow (digits : Nat) (lead : Char) (result : Nat) : Bool :=
  decide (10 ≤ digits ∧ ¬ (digits = 10 ∧ (lead.toNat < 52 ∨ (lead = '4' ∧ 2 ^ 31 ≤ result))))

/-- 4488 : `0x` or `0X`. -/
def hexPrefix (s : List Char) : Bool := s[0]? = some '0' ∧ (s[1]? = some 'x' ∨ s[1]? = some 'X')

/-- 4488-4540 : the number without its sign, and whether it is too large. -/
def unsignedText (s : List Char) : Nat × Bool :=
  if hexPrefix s then
    let t := (s.drop 2).dropWhile (· = '0')
    ((scanHex 0 0 t).1, decide (8 < (scanHex 0 0 t).2))
  else
    let t := s.dropWhile (· = '0')
    ((scanDec 0 0 t).1, decOverflow (scanDec 0 0 t).2 (t.headD (Char.ofNat 0)) (scanDec 0 0 t).1)

/-- 4485. -/
def skipSign (s : List Char) : List Char := if s.head? = some '-' ∨ s.head? = some '+' then s.tail else s

/-- 4476-4554 `string_to_integer<unsigned int>`. -/
def stringToU32 (minv maxv : Nat) (s : List Char) : Nat :=
  let t := s.dropWhile isXmlSpace
  let u := unsignedText (skipSign t)
  if t.head? = some '-' then
    if u.2 = true ∨ (2 ^ 32 - minv) % 2 ^ 32 < u.1 then minv else (2 ^ 32 - u.1) % 2 ^ 32
  else if u.2 = true ∨ maxv < u.1 then maxv else u.1

/-- 4556-4559 : the unsigned number converted to `int`. -/
def getInt (s : List Char) : Int :=
  let u := stringToU32 (2 ^ 31) (2 ^ 31 - 1) s
  if u < 2 ^ 31 then u else (u : Int) - 2 ^ 32

/-- 4561-4564. -/
def getUint (s : List Char) : Nat := stringToU32 0 (2 ^ 32 - 1) s

/-- 4584-4591. -/
def getBool (s : List Char) : Bool :=
  s.head? = some '1' || s.head? = some 't' || s.head? = some 'T' || s.head? = some 'y' || s.head? = some 'Y'

/-- 4605-4622 `integer_to_string`. -/
def setInt (z : Int) : List Char := decInt z

/-- 4675-4679. -/
def setBool (b : Bool) : List Char := if b then ['t', 'r', 'u', 'e'] else ['f', 'a', 'l', 's', 'e']

/-! Numbers with a fraction -/

/-- `d + 1` digits and an exponent for a positive number. -/
def sciPartsP (d : Nat) (x : ℚ) : Nat × ℤ :=
  let e := Int.log 10 x
  let m := roundEven (x / (10 : ℚ) ^ (e - d))
  if m = 10 ^ (d + 1) then (10 ^ d, e + 1) else (m, e)

/-- The text of a positive number given by its parts. -/
def partsTextP (d : Nat) (m : Nat) (e : ℤ) : List Char :=
  if -4 ≤ e ∧ e < d + 1 then
    decNat (m / 10 ^ (d - e).toNat) ++ fracText (d - e).toNat (m % 10 ^ (d - e).toNat)
  else
    decNat (m / 10 ^ d) ++ fracText d (m % 10 ^ d) ++ 'e' :: expText e

/-- `printf` with `%.<d+1>g`. -/
def generalP (d : Nat) (x : ℚ) : List Char :=
  if x = 0 then ['0']
  else if x < 0 then '-' :: partsTextP d (sciPartsP d (-x)).1 (sciPartsP d (-x)).2
  else partsTextP d (sciPartsP d x).1 (sciPartsP d x).2

/-- 4664-4671 : `%.17g`. -/
def setDouble (x : ℚ) : List Char := generalP 16 x

/-- 4655-4662 : `%.9g`. -/
def setFloat (x : ℚ) : List Char := generalP 8 x

/-- The digits behind a decimal point. -/
def fracDigits (s : List Char) : List Char :=
  if s.head? = some '.' then s.tail.takeWhile isDigitChar else []

/-- What follows them. -/
def afterFrac (s : List Char) : List Char :=
  if s.head? = some '.' then s.tail.dropWhile isDigitChar else s

/-- The exponent behind them (zero if there is none). -/
def scanExp (s : List Char) : Int :=
  if s.head? = some 'e' ∨ s.head? = some 'E' then signedDigits s.tail else 0

/-- A number without its sign. -/
def scanNumber (s : List Char) : ℚ :=
  let a := s.takeWhile isDigitChar
  let r := s.dropWhile isDigitChar
  let b := fracDigits r
  (atoiDigits (a ++ b) 0 : ℚ) * (10 : ℚ) ^ (scanExp (afterFrac r) - b.length)

/-- `strtod`: white space, a sign, digits with a decimal point, an exponent. -/
def strtod (s : List Char) : ℚ :=
  let t := s.dropWhile isSpaceChar
  toF64 (if t.head? = some '-' then -scanNumber (skipSign t) else scanNumber (skipSign t))

/-- 4566-4573. -/
def getDouble (s : List Char) : ℚ := strtod s

/-- 4575-4582 : the `double` converted to `float`. -/
def getFloat (s : List Char) : ℚ := toF32 (strtod s)

/-! A number that may be missing -/

/-- 5157-5190 (`xml_attribute::as_…`) : the default if there is no such attribute. -/
def asAttr {α : Type} (get : List Char → α) (dflt : α) (a : XmlAttrs) (name : List Char) : α :=
  match attrOf a name with
  | some v => get v
  | none => dflt

end Verif
