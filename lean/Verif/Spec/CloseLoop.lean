import Verif.Model.CloseLoop
import Mathlib.Data.Real.Sqrt
/-! What the edge of a loop should be. -/
namespace Verif.Spec

/-- The direction that a pose calls up. -/
def upOf (p : Rigid ℝ) : Fin 3 → ℝ := fun i => p.rot i 2

/-- How far `b` is above `a` in the frame of `a`. -/
def heightIn (a b : Rigid ℝ) : ℝ := ∑ i, upOf a i * (b.trans i - a.trans i)

/-- Horizontal distance. -/
noncomputable def flatDistance (a b : Rigid ℝ) : ℝ :=
  Real.sqrt ((b.trans 0 - a.trans 0) ^ 2 + (b.trans 1 - a.trans 1) ^ 2)

/-- Where an edge puts its source. -/
def impliedPlace (target : Rigid ℝ) (e : Rigid ℝ) : Fin 3 → ℝ :=
  fun i => (target.rot.mulVec e.trans) i + target.trans i

end Verif.Spec
