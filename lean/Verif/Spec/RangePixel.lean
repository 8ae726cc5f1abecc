import Verif.Model.RangePixel
import Mathlib.Geometry.Euclidean.Triangle
namespace Verif.Spec
noncomputable section

/-- A point as seen from the place the image is taken from. -/
def fromSensor (c : ImageCfg) (p : InnerPoint ℝ) : InnerPoint ℝ :=
  ⟨p.x + c.ox, p.y + c.oy, p.z + c.oz, p.intensity, p.factor⟩

/-- The point, seen from the sensor, at the distance `r`, the angle `ε` above the horizon and the angle `φ` to the
left of the x axis. -/
structure SeenAt (q : InnerPoint ℝ) (r ε φ : ℝ) : Prop where
  far : 0 < r
  up : -(Real.pi / 2) < ε ∧ ε < Real.pi / 2
  turn : 0 ≤ φ ∧ φ < 2 * Real.pi
  x : q.x = r * Real.cos ε * Real.cos φ
  y : q.y = r * Real.cos ε * Real.sin φ
  z : q.z = r * Real.sin ε

/-- Row `k` of an image of the field from `btm` to `top` degrees. -/
def InRow (c : ImageCfg) (ε : ℝ) (k : Int) : Prop :=
  0 ≤ k ∧ k < c.rows ∧
    (c.btm + k * ((c.top - c.btm) / c.rows)) / 180 * Real.pi ≤ ε ∧
    ε < (c.btm + (k + 1) * ((c.top - c.btm) / c.rows)) / 180 * Real.pi

/-- Up to one row below the field. -/
def JustBelow (c : ImageCfg) (ε : ℝ) : Prop :=
  (c.btm - (c.top - c.btm) / c.rows) / 180 * Real.pi < ε ∧ ε < c.btm / 180 * Real.pi

/-- Column `k`: its middle is at `k` parts of the full turn; column 0 goes on at the end of the turn. -/
def InCol (c : ImageCfg) (φ : ℝ) (k : Int) : Prop :=
  0 ≤ k ∧ k < c.cols ∧
    ((k - 1 / 2) * (2 * Real.pi / c.cols) ≤ φ ∧ φ < (k + 1 / 2) * (2 * Real.pi / c.cols) ∨
      k = 0 ∧ (c.cols - 1 / 2) * (2 * Real.pi / c.cols) ≤ φ)

/-- The grey of a range: 0 to 255 over `max`. -/
def Grey (max m : ℝ) (v : Nat) : Prop := (v : ℝ) ≤ m / max * 255 ∧ m / max * 255 < v + 1

end
end Verif.Spec
