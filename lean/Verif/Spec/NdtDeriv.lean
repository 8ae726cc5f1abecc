import Verif.Model.NdtDeriv
import Verif.Spec.Euler
import Mathlib.Analysis.Calculus.Deriv.Basic
/-! What the score of the normal distributions transform and its derivatives are. -/
namespace Verif.Spec
noncomputable section

/-- A pose moves a point: rotate about z, then y, then x, then translate. -/
def movePoint (p : Fin 6 → ℝ) (x : Fin 3 → ℝ) : Fin 3 → ℝ :=
  fun k => (rotX (p 3) * rotY (p 4) * rotZ (p 5)).mulVec x k + ![p 0, p 1, p 2] k

/-- Squared distance from a cell, in the metric of its inverse covariance. -/
def mahalanobis (C : Fin 3 → Fin 3 → ℝ) (y : Fin 3 → ℝ) : ℝ := ∑ i, ∑ j, y i * C i j * y j

/-- The score of a pose: each point adds `-d1 exp(-d2 / 2 · distance²)` for each of its cells. -/
def ndtScore (d1 d2 : ℝ) (items : List NdtItem) (p : Fin 6 → ℝ) : ℝ :=
  (items.map fun it => (it.cells.map fun c =>
    -d1 * Real.exp (-(d2 / 2) * mahalanobis c.icov (fun k => movePoint p it.x k - c.mean k))).sum).sum

/-- A partial derivative of a function of the pose. -/
def Partial (f : (Fin 6 → ℝ) → ℝ) (i : Fin 6) (p : Fin 6 → ℝ) (d : ℝ) : Prop :=
  HasDerivAt (fun t => f (Function.update p i t)) d (p i)

/-- Inverse covariances are symmetric and not negative. -/
def CellsOk (items : List NdtItem) : Prop :=
  ∀ it ∈ items, ∀ c ∈ it.cells, (∀ i j, c.icov i j = c.icov j i) ∧ ∀ y, 0 ≤ mahalanobis c.icov y

/-- An angle that the code does not round: zero, or at least a ten-thousandth. -/
def Plain (a : ℝ) : Prop := a = 0 ∨ 1 / 10000 ≤ |a|

end
end Verif.Spec
