import Verif.Spec.PathExport
import Verif.Model.Tools
/-
What the tools should do.
-/
namespace Verif.Spec

/-- The four numbers of a row. -/
def pointNumbers (p : PathPoint) : List Rat := [p.p.x, p.p.y, p.p.z, p.intensity]

/-- The number of points kept: `ratio` times the number of points, rounded down, up to rounding. -/
def AboutRatio (k n : Nat) (ratio : ℚ) : Prop :=
  (k : ℚ) ≤ n * ratio * (1 + 1 / 2 ^ 22) ∧ n * ratio * (1 - 1 / 2 ^ 22) - 1 < k

/-- A field with this name holds floating point numbers: `coord i` for the i-th point. -/
def HoldsCoord (c : RawCloud) (name : List Char) (coord : Nat → ℚ) : Prop :=
  ∃ f ∈ c.fields, f.name = name ∧
    ((f.datatype = .float32 ∧ f.offset + 4 ≤ c.pointStep ∧
        ∀ i, i < c.height * c.width → c.float32At (i * c.pointStep + f.offset) = coord i) ∨
     (f.datatype = .float64 ∧ f.offset + 8 ≤ c.pointStep ∧
        ∀ i, i < c.height * c.width → c.float64At (i * c.pointStep + f.offset) = coord i))

/-- A well-formed cloud of `height * width` points whose coordinates are `pos`. -/
structure HasXyz (c : RawCloud) (pos : Nat → Vec3 ℚ) : Prop where
  nodup : (c.fields.map (·.name)).Nodup
  room : c.height * c.width * c.pointStep ≤ c.dataLength
  x : HoldsCoord c ['x'] fun i => (pos i).x
  y : HoldsCoord c ['y'] fun i => (pos i).y
  z : HoldsCoord c ['z'] fun i => (pos i).z

/-- Within half a centimetre, up to rounding of the quotient. -/
def Centi (raw : Int) (v : ℚ) : Prop := |(raw : ℚ) / 100 - v| ≤ 1 / 200 + |v| / 2 ^ 50

end Verif.Spec
