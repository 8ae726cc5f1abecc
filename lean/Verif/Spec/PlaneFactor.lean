import Verif.Spec.Slerp
import Mathlib.LinearAlgebra.CrossProduct
/-! Turning about an axis, and the distance from a plane. -/
namespace Verif.Spec
noncomputable section

/-- The vector `v` turned by the angle `θ` about the axis `n` of length 1 (Rodrigues). -/
def rodrigues (n : Fin 3 → ℝ) (θ : ℝ) (v : Fin 3 → ℝ) : Fin 3 → ℝ :=
  Real.cos θ • v + Real.sin θ • crossProduct n v + ((1 - Real.cos θ) * (n ⬝ᵥ v)) • n

/-- The plane through `a` across `n`. -/
def OnPlane (a n x : Fin 3 → ℝ) : Prop := n 0 * (x 0 - a 0) + n 1 * (x 1 - a 1) + n 2 * (x 2 - a 2) = 0

/-- `d` is the distance of `x` from the plane: it is the distance of some point of the plane, and none is nearer. -/
def PlaneDistance (a n x : Fin 3 → ℝ) (d : ℝ) : Prop :=
  0 ≤ d ∧ (∃ y, OnPlane a n y ∧ lenSq (x - y) = d ^ 2) ∧ ∀ y, OnPlane a n y → d ^ 2 ≤ lenSq (x - y)

end
end Verif.Spec
