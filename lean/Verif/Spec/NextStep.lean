import Mathlib.Data.Real.Basic
/-! Specification for C142: polynomials of degree three and their valleys. -/
namespace Verif.Spec

/-- The polynomial `p x³ + q x² + r x + s`. -/
structure Poly3 where
  p : ℝ
  q : ℝ
  r : ℝ
  s : ℝ

/-- Its value. -/
def Poly3.value (c : Poly3) (x : ℝ) : ℝ := c.p * x ^ 3 + c.q * x ^ 2 + c.r * x + c.s
/-- Its slope. -/
def Poly3.slope (c : Poly3) (x : ℝ) : ℝ := 3 * c.p * x ^ 2 + 2 * c.q * x + c.r
/-- The slope of its slope. -/
def Poly3.bend (c : Poly3) (x : ℝ) : ℝ := 6 * c.p * x + 2 * c.q

/-- Level at `m`, and bent upwards there. -/
def Poly3.Valley (c : Poly3) (m : ℝ) : Prop := c.slope m = 0 ∧ 0 < c.bend m
/-- Level at `m`, and bent downwards there. -/
def Poly3.Hill (c : Poly3) (m : ℝ) : Prop := c.slope m = 0 ∧ c.bend m < 0
/-- Going downhill from `x` leads towards `m`. -/
def Poly3.LeadsTo (c : Poly3) (m x : ℝ) : Prop := x = m ∨ 0 < (x - m) * c.slope x

end Verif.Spec
