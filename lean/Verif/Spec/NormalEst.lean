import Verif.Model.NormalEst
/-! What the normal of a patch should be. -/
namespace Verif.Spec
noncomputable section

/-- All points lie in the plane with unit normal `n` at the distance `c` from the sensor. -/
structure Flat (n : Fin 3 → ℝ) (c : ℝ) (l : List (Fin 3 → ℝ)) : Prop where
  unit : n ⬝ᵥ n = 1
  onPlane : ∀ p ∈ l, n ⬝ᵥ p = c

/-- The points do not lie on one line. -/
def NotOnALine (l : List (Fin 3 → ℝ)) : Prop :=
  ∃ p ∈ l, ∃ q ∈ l, ∃ r ∈ l, ¬ ∃ a b : ℝ, (a ≠ 0 ∨ b ≠ 0) ∧ ∀ i, a * (q i - p i) + b * (r i - p i) = 0

/-- How far the points are from the plane `x ⬝ p = 1` (in its own units). -/
def planeMisfit (l : List (Fin 3 → ℝ)) (x : Fin 3 → ℝ) : ℝ := (l.map fun p => (x ⬝ᵥ p - 1) ^ 2).sum

end
end Verif.Spec
