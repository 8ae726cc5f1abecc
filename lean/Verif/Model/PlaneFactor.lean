import Verif.Model.Slerp
import Mathlib.LinearAlgebra.CrossProduct
/-
The residual of a point of a moving scan against a plane.

Models `registrators/deprecated/icp_factor.h`.  Real numbers stand for the doubles; the minimiser (Ceres) and its
derivatives are left out.
-/
namespace Verif
noncomputable section

/-- Eigen's product of a quaternion and a vector (`QuaternionBase::_transformVector`). -/
def Quat.onVec (q : Quat) (v : Fin 3 → ℝ) : Fin 3 → ℝ :=
  let u := ![q.x, q.y, q.z]
  let uv := crossProduct u v + crossProduct u v
  v + q.w • uv + crossProduct u uv

/-- The members of `IcpPointToPlaneFactor` (icp_factor.h:72-76). -/
structure PlaneFactor where
  query : Fin 3 → ℝ
  target : Fin 3 → ℝ
  normal : Fin 3 → ℝ
  factor : ℝ

/-- icp_factor.h:47-54: the point as it was at the time of its measurement.  `t` and `q` are the two parameter blocks;
`eps` is the constant of Eigen's `slerp`. -/
def PlaneFactor.moved (eps : ℝ) (c : PlaneFactor) (t : Fin 3 → ℝ) (q : Fin 4 → ℝ) : Fin 3 → ℝ :=
  let whole : Quat := ⟨q 0, q 1, q 2, q 3⟩
  let cur := eigenSlerp eps ⟨1, 0, 0, 0⟩ whole c.factor
  c.factor • t + cur.onVec c.query

/-- icp_factor.h:42-60 `operator()`. -/
def PlaneFactor.residual (eps : ℝ) (c : PlaneFactor) (t : Fin 3 → ℝ) (q : Fin 4 → ℝ) : ℝ :=
  (c.moved eps t q - c.target) ⬝ᵥ c.normal

end
end Verif
