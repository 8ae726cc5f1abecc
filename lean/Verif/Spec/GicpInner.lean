import Verif.Model.GicpInner
import Verif.Spec.NdtDeriv
/-! Specification for C135: how far the corresponding points are apart under a motion. -/
namespace Verif.Spec
noncomputable section

/-- The mean squared distance between partners when the points are moved by a rotation and a shift. -/
def meanApart (R : Mat3) (t : Fin 3 → ℝ) (pairs : List GicpPair) : ℝ :=
  (pairs.map fun c => mahalanobis c.maha (fun k => R.mulVec c.src k + t k - c.tgt k)).sum / pairs.length

/-- The first axis of a rotation does not point straight up or down. -/
def NotUpright (R : Mat3) : Prop := R 2 0 ^ 2 < 1

/-- A minimiser whose steps never raise the value `f`. -/
def NeverRaises {σ : Type} (B : Bfgs σ) (f : (Fin 6 → ℝ) → ℝ) : Prop := ∀ s x, f (B.step s x).2.1 ≤ f x

/-- A minimiser that answers as PCL's does with a positive tolerance. -/
def PclAnswers {σ : Type} (B : Bfgs σ) : Prop :=
  (∀ s x, (B.step s x).2.2 = .success ∨ (B.step s x).2.2 = .noProgress) ∧ ∀ s, B.test s = .success ∨ B.test s = .running

/-- Memory, state and status of the minimiser after `n` steps in a row. -/
def afterSteps {σ : Type} (B : Bfgs σ) (x : Fin 6 → ℝ) (s : σ) : Nat → σ × (Fin 6 → ℝ) × BfgsStatus
  | 0 => (s, x, .success)
  | n + 1 => B.step (afterSteps B x s n).1 (afterSteps B x s n).2.1

end
end Verif.Spec
