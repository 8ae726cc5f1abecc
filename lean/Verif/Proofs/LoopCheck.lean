import Verif.Model.LoopCheck
import Mathlib.LinearAlgebra.Matrix.Trace
import Mathlib.Tactic.Linarith
import Mathlib.Tactic.Ring
import Mathlib.Algebra.BigOperators.Fin
/-! Proofs for C39. -/
namespace Verif
open Matrix
variable {R : Type} [Field R] [LinearOrder R] [IsStrictOrderedRing R]

/-- Squared Frobenius norm. -/
def frob2 (A : Matrix (Fin 3) (Fin 3) R) : R := ∑ i, ∑ j, A i j ^ 2

theorem sqNorm_rot {A : Matrix (Fin 3) (Fin 3) R} (h : A * A.transpose = 1) (v : Fin 3 → R) :
    sqNorm (A.transpose.mulVec v) = sqNorm v := by
  unfold sqNorm
  rw [Matrix.mulVec_transpose, ← Matrix.dotProduct_mulVec, ← Matrix.mulVec_transpose,
    Matrix.mulVec_mulVec, h, Matrix.one_mulVec]

theorem sqNorm_eq (v : Fin 3 → R) : sqNorm v = v 0 ^ 2 + v 1 ^ 2 + v 2 ^ 2 := by
  simp only [sqNorm, dotProduct, Fin.sum_univ_three]; ring

theorem sqNorm_sub_le (a b c : Fin 3 → R) :
    sqNorm (a - b) ≤ 2 * sqNorm (a - c) + 2 * sqNorm (b - c) := by
  simp only [sqNorm_eq, Pi.sub_apply]
  have h0 := sq_nonneg ((a 0 - c 0) + (b 0 - c 0))
  have h1 := sq_nonneg ((a 1 - c 1) + (b 1 - c 1))
  have h2 := sq_nonneg ((a 2 - c 2) + (b 2 - c 2))
  nlinarith

theorem frob2_trace (A : Matrix (Fin 3) (Fin 3) R) : frob2 A = (A.transpose * A).trace := by
  simp only [frob2, Matrix.trace, Matrix.diag, Matrix.mul_apply, Matrix.transpose_apply]
  rw [Finset.sum_comm]
  refine Finset.sum_congr rfl fun i _ => Finset.sum_congr rfl fun j _ => ?_
  ring

theorem frob2_rot {A : Matrix (Fin 3) (Fin 3) R} (h : A * A.transpose = 1)
    (X : Matrix (Fin 3) (Fin 3) R) : frob2 (A.transpose * X) = frob2 X := by
  rw [frob2_trace, frob2_trace, Matrix.transpose_mul, Matrix.transpose_transpose,
    Matrix.mul_assoc, ← Matrix.mul_assoc A, h, Matrix.one_mul]

theorem frob2_sub_le (A B C : Matrix (Fin 3) (Fin 3) R) :
    frob2 (A - B) ≤ 2 * frob2 (A - C) + 2 * frob2 (B - C) := by
  simp only [frob2, Finset.mul_sum, ← Finset.sum_add_distrib]
  refine Finset.sum_le_sum fun i _ => Finset.sum_le_sum fun j _ => ?_
  simp only [Matrix.sub_apply]
  have := sq_nonneg ((A i j - C i j) + (B i j - C i j))
  nlinarith

end Verif
