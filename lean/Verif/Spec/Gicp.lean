import Verif.Model.Gicp
import Verif.Spec.NdtDeriv
/-! Specification for C76: what generalised ICP minimises, and what a usable distance is. -/
namespace Verif.Spec
noncomputable section

/-- Where state `x` puts a point: turned by the guess, then about x, y, z, then moved by both shifts. -/
def gicpPlace (base : GicpMat) (x : Fin 6 → ℝ) (p : Fin 3 → ℝ) : Fin 3 → ℝ :=
  fun k => (rotZ (x 5) * rotY (x 4) * rotX (x 3)).mulVec (base.rot.mulVec p) k + base.shift k + ![x 0, x 1, x 2] k

/-- The mean squared distance between the moved points and their partners. -/
def gicpCost (base : GicpMat) (pairs : List GicpPair) (x : Fin 6 → ℝ) : ℝ :=
  (pairs.map fun c => mahalanobis c.maha (fun k => gicpPlace base x c.src k - c.tgt k)).sum / pairs.length

/-- A distance: symmetric, and positive for every vector but 0. -/
def IsMetric (m : Mat3) : Prop := m.transpose = m ∧ ∀ y : Fin 3 → ℝ, y ≠ 0 → 0 < mahalanobis m y

end
end Verif.Spec
