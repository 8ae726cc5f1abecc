import Verif.Spec.KittiPose
import Verif.Spec.Seconds
/-! What the texts of numbers mean (C102). -/
namespace Verif.Spec

/-- The nearest number of a range. -/
def clampInt (lo hi z : ℤ) : ℤ := if z < lo then lo else if hi < z then hi else z

/-- The value of a row of hexadecimal digits. -/
def hexVal : List Char → Nat → Option Nat
  | [], acc => some acc
  | c :: r, acc =>
    if '0' ≤ c ∧ c ≤ '9' then hexVal r (16 * acc + (c.toNat - '0'.toNat))
    else if 'a' ≤ c ∧ c ≤ 'f' then hexVal r (16 * acc + (c.toNat - 'a'.toNat + 10))
    else if 'A' ≤ c ∧ c ≤ 'F' then hexVal r (16 * acc + (c.toNat - 'A'.toNat + 10))
    else none

/-- A sign as it is written. -/
def IsSign (s : Option Char) : Prop := s = none ∨ s = some '-' ∨ s = some '+'

/-- The number with its sign. -/
def withSign (s : Option Char) (v : Nat) : ℤ := if s = some '-' then -(v : ℤ) else v

/-- A text that does not go on with a number begun before it. -/
def EndsNumber (rest : List Char) : Prop :=
  ∀ c, rest.head? = some c → c.isAlphanum = false ∧ c ≠ '.' ∧ c ≠ '+' ∧ c ≠ '-'

end Verif.Spec
