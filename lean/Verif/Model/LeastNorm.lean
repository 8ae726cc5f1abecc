import Verif.Model.IcpStep
import Mathlib.Data.Matrix.Mul
/-! The linear solver of the fast ICP.

Models `registrators/icp_fast.cc` 203-250 (`SolvePossiblyUnderdeterminedLinearSystem`).  The decompositions of
Eigen (QR with full pivoting, Cholesky, SVD) are parameters; arithmetic is over the real numbers. -/
namespace Verif
noncomputable section

/-- What is used of `A.fullPivHouseholderQr()` : `matrixQ()`, `colsPermutation()` and `rank()`. -/
structure FullPivQr (n : ℕ) where
  Q : Matrix (Fin n) (Fin n) ℝ
  P : Matrix (Fin n) (Fin n) ℝ
  rank : ℕ

/-- The routines of Eigen: `fullPivHouseholderQr()`, `llt().solve(b)` and `jacobiSvd().solve(b)`. -/
structure LinLib where
  qr : ∀ {n : ℕ}, Matrix (Fin n) (Fin n) ℝ → FullPivQr n
  llt : ∀ {n : ℕ}, Matrix (Fin n) (Fin n) ℝ → (Fin n → ℝ) → Fin n → ℝ
  svd : ∀ {n : ℕ}, Matrix (Fin n) (Fin n) ℝ → (Fin n → ℝ) → Fin n → ℝ

/-- `triangularView<Eigen::Upper>()`. -/
def upperPart {m n : ℕ} (M : Matrix (Fin m) (Fin n) ℝ) : Matrix (Fin m) (Fin n) ℝ :=
  fun i j => if j.val < i.val then 0 else M i j

/-- `a.isApprox(b, eps)`. -/
def isApprox {n : ℕ} (eps : ℝ) (a b : Fin n → ℝ) : Prop :=
  ∑ i, (a i - b i) ^ 2 ≤ eps ^ 2 * min (∑ i, a i ^ 2) (∑ i, b i ^ 2)

/-- `matrixQ().transpose().block(0, 0, rank, rows)` (line 220). -/
def firstQt {n : ℕ} (f : FullPivQr n) (h : f.rank ≤ n) : Matrix (Fin f.rank) (Fin n) ℝ :=
  fun i j => f.Q j (Fin.castLE h i)

/-- Lines 217-229: the reduced system, by the rows of the decomposition that count. -/
def reducedSolve {n : ℕ} (L : LinLib) (A : Matrix (Fin n) (Fin n) ℝ) (f : FullPivQr n) (h : f.rank ≤ n) (b : Fin n → ℝ) :
    Fin n → ℝ :=
  let R1 : Matrix (Fin f.rank) (Fin n) ℝ := firstQt f h * A * f.P
  let y := (upperPart R1).transpose.mulVec (L.llt (R1 * R1.transpose) ((firstQt f h).mulVec b))
  f.P.mulVec y

open Classical in
/-- icp_fast.cc:203-250 `SolvePossiblyUnderdeterminedLinearSystem` : Cholesky for a matrix of full rank, else the reduced
system, and the SVD if that is not accurate.  The warning (lines 236-248) is left out. -/
def solveUnder {n : ℕ} (L : LinLib) (A : Matrix (Fin n) (Fin n) ℝ) (b : Fin n → ℝ) : Fin n → ℝ :=
  let f := L.qr A
  if h : f.rank < n then
    let x := reducedSolve L A f (Nat.le_of_lt h) b
    if isApprox (1 / 100000) b (A.mulVec x) then x else L.svd A b
  else L.llt A b

/-- `ComputePointToPlane` with this solver. -/
def planeStep (L : LinLib) (comp : Bool) (l : List IcpPair) : Mat3 × (Fin 3 → ℝ) :=
  pointToPlane (fun A b => solveUnder L (Matrix.of A) b) comp l

end
end Verif
