import Mathlib.Topology.MetricSpace.HausdorffDistance
import Verif.Model.MathHelpers
/-! What the helpers of `common/math.h` are to compute. -/
namespace Verif.Spec

/-- The line through `origin` along `direction`. -/
def lineAlong {n : Nat} (origin direction : EuclideanSpace ℝ (Fin n)) :
    Set (EuclideanSpace ℝ (Fin n)) :=
  Set.range fun t : ℝ => origin + t • direction

/-- The sum of the squared distances of the points from the plane through `c` with normal `n`. -/
def planeError (c n : Fin 3 → ℝ) (points : List (Fin 3 → ℝ)) : ℝ :=
  (points.map fun p => (dotProduct n (p - c)) ^ 2).sum

/-- `u` holds left singular vectors of the matrix with the given columns, in order of decreasing
singular values: it is orthogonal and diagonalises the matrix times its transpose. -/
def IsLeftSingular (columns : List (Fin 3 → ℝ)) (u : Matrix (Fin 3) (Fin 3) ℝ) : Prop :=
  u.transpose * u = 1 ∧ ∃ l : Fin 3 → ℝ, l 1 ≤ l 0 ∧ l 2 ≤ l 1 ∧
    (Matrix.of fun i j => (columns.map fun p => p i * p j).sum) =
      u * Matrix.diagonal l * u.transpose

end Verif.Spec
