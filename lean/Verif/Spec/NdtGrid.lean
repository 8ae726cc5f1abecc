import Verif.Model.NdtGrid
/-! What the cells of the normal distributions transform are meant to be. -/
namespace Verif.Spec

section
variable {K : Type} [Field K] [LinearOrder K] [IsStrictOrderedRing K] [FloorRing K]

/-- The cube of the grid of side `leaf` that holds a point. -/
def cubeOf (leaf : K) (p : Fin 3 → K) : Fin 3 → Int := fun i => ⌊p i / leaf⌋

/-- The points of a cloud in a cube, in their order. -/
def inCube (leaf : K) (cube : Fin 3 → Int) (ps : List (Fin 3 → K)) : List (Fin 3 → K) :=
  ps.filter (fun p => decide (cubeOf leaf p = cube))

/-- Mean of points. -/
def meanPoint (ps : List (Fin 3 → K)) : Fin 3 → K := fun i => (ps.map (fun p => p i)).sum / (ps.length : K)

/-- Sum of the products of the deviations from the mean. -/
def scatter (ps : List (Fin 3 → K)) : Matrix (Fin 3) (Fin 3) K := fun i j =>
  (ps.map (fun p => (p i - meanPoint ps i) * (p j - meanPoint ps j))).sum

/-- Sample covariance of points. -/
def sampleCov (ps : List (Fin 3 → K)) : Matrix (Fin 3) (Fin 3) K := fun i j =>
  scatter ps i j / ((ps.length : K) - 1)

/-- Covariance of points, dividing by their number. -/
def populationCov (ps : List (Fin 3 → K)) : Matrix (Fin 3) (Fin 3) K := fun i j =>
  scatter ps i j / (ps.length : K)

/-- `e`, `V` are the eigenvalues, in ascending order, and eigenvectors (the columns, orthogonal and of
length one) of `A`. -/
structure IsEigen (A : Matrix (Fin 3) (Fin 3) K) (e : Fin 3 → K) (V : Matrix (Fin 3) (Fin 3) K) : Prop where
  orth : V.transpose * V = 1
  eig : A * V = V * Matrix.diagonal e
  ord : e 0 ≤ e 1 ∧ e 1 ≤ e 2

/-- Ascending keys. -/
def KeysUp {L : Type} (m : List (Int × L)) : Prop := m.Pairwise (fun a b => a.1 < b.1)

/-- The size of a grid that `int` can number. -/
def Fits (b : NdtBox) : Prop :=
  (∀ i, -2147483648 ≤ b.lo i ∧ b.hi i ≤ 2147483647) ∧ b.div 0 * b.div 1 * b.div 2 ≤ 2147483647

/-- What the code computes for the covariance of a cell, in terms of the true one. -/
def cellMatrix (ms : List (Fin 3 → K)) : Matrix (Fin 3) (Fin 3) K := fun i j =>
  ((ms.length : K) - 1) / (ms.length : K) * (populationCov ms i j + (1 : Matrix (Fin 3) (Fin 3) K) i j / (ms.length : K))

end
end Verif.Spec
