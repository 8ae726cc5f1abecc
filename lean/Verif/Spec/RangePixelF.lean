import Verif.Model.RangePixelF
import Verif.Spec.RangePixel
namespace Verif.Spec
noncomputable section

/-- Neither so large nor, unless zero, so small that its square would leave the range of a `float`. -/
def Usual (x : ℝ) : Prop := x = 0 ∨ 1 / 2 ^ 50 ≤ |x| ∧ |x| ≤ 2 ^ 50

/-- A point with such coordinates. -/
structure UsualPoint (q : InnerPoint ℝ) : Prop where
  x : Usual q.x
  y : Usual q.y
  z : Usual q.z

/-- What IEEE 754 and the C library promise: results are off by half a unit in the last place at most, an arc tangent
by two. -/
structure Ieee (o : FloatOps) : Prop where
  f32_zero : o.f32 0 = 0
  f32 : ∀ x, |x| ≤ 2 ^ 127 → |o.f32 x - x| ≤ 1 / 2 ^ 24 * |x| + 1 / 2 ^ 150
  f64 : ∀ x, |x| ≤ 2 ^ 1023 → |o.f64 x - x| ≤ 1 / 2 ^ 53 * |x| + 1 / 2 ^ 1075
  at2 : ∀ y x, (y = 0 ∨ 1 / 2 ^ 55 ≤ |y| ∧ |y| ≤ 2 ^ 55) → (x = 0 ∨ 1 / 2 ^ 55 ≤ |x| ∧ |x| ≤ 2 ^ 55) →
    |o.at2 y x - Complex.arg ⟨x, y⟩| ≤ 1 / 2 ^ 22 * |Complex.arg ⟨x, y⟩|

/-- An image of a size someone may ask for. -/
structure Sized (c : ImageCfg) : Prop where
  rows : 0 < c.rows ∧ c.rows ≤ 65536
  cols : 0 < c.cols ∧ c.cols ≤ 65536
  btm : |c.btm| ≤ 90
  top : |c.top| ≤ 90
  view : c.btm + 1 / 100 ≤ c.top

/-- In row `k`, and the angle `m` or more from its borders. -/
def WellInRow (c : ImageCfg) (m ε : ℝ) (k : Int) : Prop := InRow c (ε - m) k ∧ InRow c (ε + m) k

/-- In column `k`, and the angle `m` or more from its borders; for column 0 the start or the end of the turn is not a
border. -/
def WellInCol (c : ImageCfg) (m φ : ℝ) (k : Int) : Prop :=
  0 ≤ k ∧ k < c.cols ∧
    ((k - 1 / 2) * (2 * Real.pi / c.cols) + m ≤ φ ∧ φ + m ≤ (k + 1 / 2) * (2 * Real.pi / c.cols) ∨
      k = 0 ∧ (c.cols - 1 / 2) * (2 * Real.pi / c.cols) + m ≤ φ)

end
end Verif.Spec
