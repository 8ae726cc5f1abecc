import Verif.Model.LeastNorm
import Verif.Spec.IcpStep
/-! What the solver should return. -/
namespace Verif.Spec
noncomputable section
open Matrix

/-- How far `A x` is from `b`. -/
def misfit {n : ℕ} (A : Matrix (Fin n) (Fin n) ℝ) (b x : Fin n → ℝ) : ℝ := ∑ i, ((A *ᵥ x) i - b i) ^ 2

/-- No other numbers come closer. -/
def BestFit {n : ℕ} (A : Matrix (Fin n) (Fin n) ℝ) (b x : Fin n → ℝ) : Prop := ∀ y, misfit A b x ≤ misfit A b y

/-- The shortest one of those that come closest. -/
def LeastFit {n : ℕ} (A : Matrix (Fin n) (Fin n) ℝ) (b x : Fin n → ℝ) : Prop :=
  BestFit A b x ∧ ∀ y, BestFit A b y → ∑ i, x i ^ 2 ≤ ∑ i, y i ^ 2

/-- An exact QR decomposition with pivoting: `Q` and `P` are orthogonal, `R = Qᵀ A P` is upper triangular, its diagonal has
no zeros in the first `rank` rows and the rows behind are zero. -/
structure QrOk {n : ℕ} (A : Matrix (Fin n) (Fin n) ℝ) (f : FullPivQr n) : Prop where
  orthQ : f.Qᵀ * f.Q = 1
  orthP : f.Pᵀ * f.P = 1
  rank_le : f.rank ≤ n
  upper : ∀ i j : Fin n, j < i → (f.Qᵀ * A * f.P) i j = 0
  below : ∀ i j : Fin n, f.rank ≤ i.val → (f.Qᵀ * A * f.P) i j = 0
  diag : ∀ i : Fin n, i.val < f.rank → (f.Qᵀ * A * f.P) i i ≠ 0

/-- Symmetric with positive, or not negative, values. -/
def Positive {n : ℕ} (A : Matrix (Fin n) (Fin n) ℝ) : Prop := Aᵀ = A ∧ ∀ v, v ≠ 0 → 0 < v ⬝ᵥ (A *ᵥ v)
def NonNegative {n : ℕ} (A : Matrix (Fin n) (Fin n) ℝ) : Prop := Aᵀ = A ∧ ∀ v, 0 ≤ v ⬝ᵥ (A *ᵥ v)

/-- Cholesky solves the systems it is meant for. -/
def CholeskyOk (L : LinLib) : Prop :=
  ∀ (n : ℕ) (A : Matrix (Fin n) (Fin n) ℝ) (b : Fin n → ℝ), Positive A → A *ᵥ (L.llt A b) = b

/-- The decompositions do what is asked of them, in exact arithmetic. -/
structure LibOk (L : LinLib) : Prop where
  chol : CholeskyOk L
  qr : ∀ (n : ℕ) (A : Matrix (Fin n) (Fin n) ℝ), QrOk A (L.qr A)
  svd : ∀ (n : ℕ) (A : Matrix (Fin n) (Fin n) ℝ) (b : Fin n → ℝ), LeastFit A b (L.svd A b)

/-- A motion `(r, t)` that no pair notices: all points move within their target planes. -/
def Unseen (l : List IcpPair) (r t : Fin 3 → ℝ) : Prop := ∀ e ∈ l, e.n ⬝ᵥ smallMotion r t e.p = 0

end
end Verif.Spec
