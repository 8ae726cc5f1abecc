import Verif.Spec.NdtGrid
import Verif.Spec.AverageF
/-! What the cells of the normal distributions transform are meant to be, up to rounding. -/
namespace Verif.Spec

/-- Cells along one axis: later coordinates are in later cells, and each coordinate in reach is in its
cell of side `leaf` or next to it. -/
structure AxisCells (leaf reach : ℚ) (cell : ℚ → Int) : Prop where
  mono : Monotone cell
  near : ∀ x : ℚ, |x| ≤ reach → |cell x - ⌊x / leaf⌋| ≤ 1

/-- The points of a cloud that are in the same cell as `q` on all three axes. -/
def sameCell (cell : ℚ → Int) (q : Fin 3 → ℚ) (ps : List (Fin 3 → ℚ)) : List (Fin 3 → ℚ) :=
  ps.filter (fun p => decide ((fun i => cell (p i)) = fun i => cell (q i)))

/-- The mean of a cell, stored as `mean`: within the smallest box around the points and near their mean,
if all coordinates are at most `M`. -/
def GoodMean (mean : Fin 3 → ℚ) (ms : List (Fin 3 → ℚ)) : Prop :=
  ∀ i, Amid (mean i) (ms.map (fun p => p i)) ∧
    ∀ M : ℚ, (∀ p ∈ ms, |p i| ≤ M) → |mean i - meanPoint ms i| ≤ (ms.length + 1) * M / 2 ^ 52

/-- The quadratic form of a matrix. -/
def quadForm (A : Matrix (Fin 3) (Fin 3) ℚ) (v : Fin 3 → ℚ) : ℚ := ∑ i, ∑ j, v i * v j * A i j

/-- The symmetric matrix with the lower triangle of `A`. -/
def lowerHalf (A : Matrix (Fin 3) (Fin 3) ℚ) : Matrix (Fin 3) (Fin 3) ℚ := fun i j =>
  if j ≤ i then A i j else A j i

end Verif.Spec
