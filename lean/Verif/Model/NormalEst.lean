import Verif.Model.Normals
import Mathlib.LinearAlgebra.Matrix.Rank
import Mathlib.LinearAlgebra.Matrix.NonsingularInverse
import Mathlib.Data.Real.Sqrt
/-
builder/data/cloud_types.cc:73-103 : the arithmetic of `CalculateNormals` on one group of points.

Over the real numbers.  `fullPivHouseholderQr().rank()` is the rank.  Dividing by a determinant that is zero gives values
that are not numbers: such a normal is `none`.
-/
namespace Verif
noncomputable section

/-- Lines 78-83, `M_wave`. -/
def waveM (l : List (Fin 3 → ℝ)) : Matrix (Fin 3) (Fin 3) ℝ := fun i j => (l.map fun p => p i * p j).sum

/-- Line 84, `b_wave`. -/
def waveB (l : List (Fin 3 → ℝ)) : Fin 3 → ℝ := fun i => (l.map fun p => p i).sum

/-- Line 85, `mean`. -/
def groupMean (l : List (Fin 3 → ℝ)) : Fin 3 → ℝ := fun i => waveB l i / l.length

/-- Lines 86-89, `C`. -/
def groupCov (l : List (Fin 3 → ℝ)) : Matrix (Fin 3) (Fin 3) ℝ :=
  fun i j => (l.map fun p => (p i - groupMean l i) * (p j - groupMean l j)).sum

/-- Eigen's `normalized()` : a vector of length zero stays. -/
def unitNormal (v : Fin 3 → ℝ) : Fin 3 → ℝ :=
  let z := ∑ i, v i ^ 2
  if 0 < z then fun i => v i / Real.sqrt z else v

/-- Lines 94, 102 : `(M_wave.inverse() * b_wave).normalized()`. -/
def groupNormal (l : List (Fin 3 → ℝ)) : Option (Fin 3 → ℝ) :=
  if (waveM l).det = 0 then none else some (unitNormal ((waveM l)⁻¹.mulVec (waveB l)))

open Classical in
/-- Lines 73-103, the arithmetic; line 90 returns if the rank and one are less than three. -/
def realEstimator : Estimator (Fin 3 → ℝ) (Option (Fin 3 → ℝ)) where
  mean := groupMean
  rankOk l := !decide ((groupCov l).rank + 1 < 3)
  normal := groupNormal

end
end Verif
