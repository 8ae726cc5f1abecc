import Verif.Spec.Time
import Mathlib.Data.Rat.Floor
/-! Specification of seconds: what a time stamp is in exact seconds, and which numbers are `double`s. -/
namespace Verif.Spec

/-- The exact number of seconds. -/
def exactSec (t : SimpleTime) : ℚ := (ns t : ℚ) / 1000000000

/-- A number a `double` can hold (53 significant bits). -/
def IsDouble (x : ℚ) : Prop := ∃ m k : ℤ, |m| ≤ 2 ^ 53 ∧ x = m * 2 ^ k

/-- A number a `float` can hold (24 significant bits). -/
def IsFloat (x : ℚ) : Prop := ∃ m k : ℤ, |m| ≤ 2 ^ 24 ∧ x = m * 2 ^ k

end Verif.Spec
