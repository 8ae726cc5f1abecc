import Verif.Model.ImuTracker
import Verif.Spec.Euler
/-! What the IMU tracker should do. -/
namespace Verif.Spec
noncomputable section

/-- The inner product of two vectors. -/
def inner3 (a b : Fin 3 → ℝ) : ℝ := ∑ i, a i * b i

/-- The length of a vector. -/
def length3 (a : Fin 3 → ℝ) : ℝ := Real.sqrt (inner3 a a)

/-- A choice of an axis perpendicular to two vectors, of length one. -/
def PerpAxis (axis : (Fin 3 → ℝ) → (Fin 3 → ℝ) → Fin 3 → ℝ) : Prop :=
  ∀ a b, inner3 (axis a b) (axis a b) = 1 ∧ inner3 (axis a b) a = 0 ∧ inner3 (axis a b) b = 0

/-- The orientation `R` takes gravity to the vertical, up to a part in 10¹¹. -/
def Upright (R : Mat3) (g : Fin 3 → ℝ) : Prop :=
  (1 - 1e-11) * length3 g ≤ R.mulVec g 2

end
end Verif.Spec
