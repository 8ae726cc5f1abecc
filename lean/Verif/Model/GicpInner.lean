import Verif.Model.Gicp
import Mathlib.Analysis.SpecialFunctions.Trigonometric.Inverse
/-! The inner minimisation of generalised ICP.

Models `registrators/pclomp/gicp_omp_impl.hpp` 189-251 (`estimateRigidTransformationBFGS`) with the loop around the
steps of the minimiser. The minimiser itself (PCL's `BFGS`) is external: what it keeps, what one step does and what the
test of the gradient says are parameters. Arithmetic is over the real numbers (the code mixes `float` and `double`). -/
namespace Verif
noncomputable section

/-- The six numbers from which the minimiser starts (lines 203-209). -/
def stateOf (t : GicpMat) : GicpVec :=
  ![t.shift 0, t.shift 1, t.shift 2, atan2 (t.rot 2 1) (t.rot 2 2), Real.arcsin (-t.rot 2 0), atan2 (t.rot 1 0) (t.rot 0 0)]

/-- `BFGSSpace::Status` (PCL): the values -3, -1, 0 and 1; -2 is not returned by the two functions used here. -/
inductive BfgsStatus
  | badTolerance | running | success | noProgress
  deriving DecidableEq

/-- The minimiser: `minimizeInit`, `minimizeOneStep` (it may change the state) and `testGradient(1e-2)`. -/
structure Bfgs (σ : Type) where
  init : GicpVec → σ
  step : σ → GicpVec → σ × GicpVec × BfgsStatus
  test : σ → BfgsStatus

/-- The loop of lines 231-240. `left` is how many passes the limit allows after this one; the result is the state, the last
status and the number of passes (`inner_iterations_`). -/
def innerLoop {σ : Type} (B : Bfgs σ) : Nat → σ → GicpVec → GicpVec × BfgsStatus × Nat
  | left, s, x =>
    let o := B.step s x
    if o.2.2 ≠ .success then (o.2.1, o.2.2, 1)
    else
      match left with
      | 0 => (o.2.1, B.test o.1, 1)
      | left + 1 =>
        if B.test o.1 = .running then
          let q := innerLoop B left o.1 o.2.1
          (q.1, q.2.1, q.2.2 + 1)
        else (o.2.1, B.test o.1, 1)

/-- Lines 203-250: `none` is the exception `SolverDidntConvergeException`. `limit` is `max_inner_iterations_`. -/
def innerEstimate {σ : Type} (B : Bfgs σ) (limit : Nat) (cur : GicpMat) : Option GicpVec :=
  let o := innerLoop B (limit - 1) (B.init (stateOf cur)) (stateOf cur)
  if o.2.1 = .noProgress ∨ o.2.1 = .success ∨ o.2.2 = limit then some o.1 else none

/-- The solver of Model/Gicp.lean made of a minimiser for each guess and list of correspondences. -/
def bfgsSolver {σ : Type} (B : GicpMat → List GicpPair → Bfgs σ) (limit : Nat) : GicpSolver :=
  fun guess pairs cur => innerEstimate (B guess pairs) limit cur

end
end Verif
