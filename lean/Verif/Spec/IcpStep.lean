import Verif.Model.IcpStep
import Verif.Spec.Euler
import Mathlib.LinearAlgebra.CrossProduct
/-! What one point-to-plane step should do. -/
namespace Verif.Spec
noncomputable section

/-- The motion of a point for small turns `r` and a translation `t`. -/
def smallMotion (r t p : Fin 3 → ℝ) : Fin 3 → ℝ := fun i => crossProduct r p i + t i

/-- The sum of the squared distances from the target planes after the small motion `(r, t)`; with
compensation a point makes its fraction of the motion. -/
def planeCost (comp : Bool) (l : List IcpPair) (r t : Fin 3 → ℝ) : ℝ :=
  (l.map fun e => e.w * (dotProduct e.n
    (fun i => e.p i + (if comp then e.f else 1) * smallMotion r t e.p i - e.q i)) ^ 2).sum

/-- The turn and the translation of six numbers. -/
def turnOf (x : Fin 6 → ℝ) : Fin 3 → ℝ := ![x 0, x 1, x 2]
def shiftOf (x : Fin 6 → ℝ) : Fin 3 → ℝ := ![x 3, x 4, x 5]

/-- A linear system is solved. -/
def Solves (A : Fin 6 → Fin 6 → ℝ) (b x : Fin 6 → ℝ) : Prop := ∀ i, ∑ j, A i j * x j = b i

end
end Verif.Spec
