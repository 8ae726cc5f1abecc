import Verif.Model.PointToPoint
import Verif.Spec.Euler
/-! What the point-to-point step should do. -/
namespace Verif.Spec
noncomputable section
open Matrix

/-- The sum of the squared distances of the pairs after the motion. -/
def pointCost (l : List IcpPair) (R : Mat3) (t : Fin 3 → ℝ) : ℝ :=
  (l.map fun e => e.w * ∑ i, ((R *ᵥ e.p) i + t i - e.q i) ^ 2).sum

/-- A singular value decomposition `m = U diag(s) Vᵀ` with decreasing values that are not negative. -/
def SvdOk (svd : Mat3 → Mat3 × Mat3) : Prop :=
  ∀ m, (svd m).1ᵀ * (svd m).1 = 1 ∧ (svd m).2ᵀ * (svd m).2 = 1 ∧
    ∃ s : Fin 3 → ℝ, m = (svd m).1 * diagonal s * (svd m).2ᵀ ∧ s 1 ≤ s 0 ∧ s 2 ≤ s 1 ∧ 0 ≤ s 2

end
end Verif.Spec
