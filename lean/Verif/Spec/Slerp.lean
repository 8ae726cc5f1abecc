import Verif.Spec.PoseNormal
import Mathlib.LinearAlgebra.Matrix.Trace
import Mathlib.Analysis.SpecialFunctions.Trigonometric.Basic
/-! The angle between two rotations. -/
namespace Verif.Spec
noncomputable section

/-- Going from rotation `A` to rotation `B` means turning by the angle `θ` (between 0 and π) about some
axis: the trace of a rotation by `θ` is `1 + 2 cos θ`. -/
def TurnAngle (A B : Mat3) (θ : ℝ) : Prop :=
  0 ≤ θ ∧ θ ≤ Real.pi ∧ (A.transpose * B).trace = 1 + 2 * Real.cos θ

/-- Length of a vector, squared. -/
def lenSq (v : Fin 3 → ℝ) : ℝ := v 0 ^ 2 + v 1 ^ 2 + v 2 ^ 2

end
end Verif.Spec
