import Verif.Spec.LeastNorm
import Mathlib.LinearAlgebra.Matrix.NonsingularInverse
import Mathlib.LinearAlgebra.Matrix.ToLinearEquiv
import Mathlib.LinearAlgebra.Matrix.Block
import Mathlib.Tactic.Linarith
import Mathlib.Tactic.LinearCombination
import Mathlib.Data.Real.Basic
/-! Lemmas on the least-norm solver. -/
namespace Verif
open Spec Matrix

theorem sq_dot {n : ℕ} (v : Fin n → ℝ) : ∑ i, v i ^ 2 = v ⬝ᵥ v := by
  unfold dotProduct
  exact Finset.sum_congr rfl fun i _ => by ring

theorem orth_dot {n : ℕ} {Q : Matrix (Fin n) (Fin n) ℝ} (h : Qᵀ * Q = 1) (v w : Fin n → ℝ) :
    (Q *ᵥ v) ⬝ᵥ (Q *ᵥ w) = v ⬝ᵥ w := by
  rw [dotProduct_mulVec, ← mulVec_transpose, mulVec_mulVec, h, one_mulVec]

theorem orth_sq {n : ℕ} {Q : Matrix (Fin n) (Fin n) ℝ} (h : Qᵀ * Q = 1) (v : Fin n → ℝ) :
    ∑ i, (Q *ᵥ v) i ^ 2 = ∑ i, v i ^ 2 := by
  rw [sq_dot, sq_dot, orth_dot h]

/-- In the coordinates of the decomposition. -/
theorem misfit_qr {n : ℕ} {A : Matrix (Fin n) (Fin n) ℝ} {f : FullPivQr n} (h : QrOk A f) (b y : Fin n → ℝ) :
    misfit A b (f.P *ᵥ y) = ∑ i, (((f.Qᵀ * A * f.P) *ᵥ y) i - (f.Qᵀ *ᵥ b) i) ^ 2 := by
  have hQ : f.Q * f.Qᵀ = 1 := mul_eq_one_comm.1 h.orthQ
  have h1 : A *ᵥ (f.P *ᵥ y) - b = f.Q *ᵥ ((f.Qᵀ * A * f.P) *ᵥ y - f.Qᵀ *ᵥ b) := by
    rw [mulVec_sub, mulVec_mulVec, mulVec_mulVec, mulVec_mulVec, ← Matrix.mul_assoc, ← Matrix.mul_assoc, hQ, Matrix.one_mul,
      one_mulVec]
  have h2 := orth_sq h.orthQ ((f.Qᵀ * A * f.P) *ᵥ y - f.Qᵀ *ᵥ b)
  rw [← h1] at h2
  unfold misfit
  simpa [Pi.sub_apply] using h2

theorem row_zero {n : ℕ} {A : Matrix (Fin n) (Fin n) ℝ} {f : FullPivQr n} (h : QrOk A f) (y : Fin n → ℝ) (i : Fin n)
    (hi : f.rank ≤ i.val) : ((f.Qᵀ * A * f.P) *ᵥ y) i = 0 := by
  show ∑ j, (f.Qᵀ * A * f.P) i j * y j = 0
  exact Finset.sum_eq_zero fun j _ => by rw [h.below i j hi, zero_mul]

theorem misfit_le {n : ℕ} {A : Matrix (Fin n) (Fin n) ℝ} {f : FullPivQr n} (h : QrOk A f) (b y : Fin n → ℝ)
    (hy : ∀ i : Fin n, i.val < f.rank → ((f.Qᵀ * A * f.P) *ᵥ y) i = (f.Qᵀ *ᵥ b) i) : BestFit A b (f.P *ᵥ y) := by
  have hP : f.P * f.Pᵀ = 1 := mul_eq_one_comm.1 h.orthP
  intro z
  have hz : z = f.P *ᵥ (f.Pᵀ *ᵥ z) := by rw [mulVec_mulVec, hP, one_mulVec]
  rw [hz, misfit_qr h, misfit_qr h]
  refine Finset.sum_le_sum fun i _ => ?_
  by_cases hi : i.val < f.rank
  · rw [hy i hi, sub_self, zero_pow two_ne_zero]
    exact sq_nonneg _
  · rw [row_zero h y i (by omega), row_zero h _ i (by omega)]

theorem bestFit_rows {n : ℕ} {A : Matrix (Fin n) (Fin n) ℝ} {f : FullPivQr n} (h : QrOk A f) (b y w : Fin n → ℝ)
    (hy : ∀ i : Fin n, i.val < f.rank → ((f.Qᵀ * A * f.P) *ᵥ y) i = (f.Qᵀ *ᵥ b) i) (hw : BestFit A b (f.P *ᵥ w)) :
    ∀ i : Fin n, ((f.Qᵀ * A * f.P) *ᵥ w) i = ((f.Qᵀ * A * f.P) *ᵥ y) i := by
  have h1 := hw (f.P *ᵥ y)
  rw [misfit_qr h, misfit_qr h] at h1
  intro i
  by_cases hi : i.val < f.rank
  · rw [hy i hi]
    have hle : ∀ j ∈ Finset.univ, (((f.Qᵀ * A * f.P) *ᵥ y) j - (f.Qᵀ *ᵥ b) j) ^ 2 ≤ (((f.Qᵀ * A * f.P) *ᵥ w) j - (f.Qᵀ *ᵥ b) j) ^ 2 := by
      intro j _
      by_cases hj : j.val < f.rank
      · rw [hy j hj, sub_self, zero_pow two_ne_zero]
        exact sq_nonneg _
      · rw [row_zero h y j (by omega), row_zero h _ j (by omega)]
    have he := (Finset.sum_eq_sum_iff_of_le hle).1 (le_antisymm (Finset.sum_le_sum hle) h1) i (Finset.mem_univ i)
    rw [hy i hi, sub_self] at he
    have : (((f.Qᵀ * A * f.P) *ᵥ w) i - (f.Qᵀ *ᵥ b) i) ^ 2 = 0 := by rw [← he]; ring
    have := pow_eq_zero_iff (two_ne_zero) |>.1 this
    linarith
  · rw [row_zero h y i (by omega), row_zero h w i (by omega)]

/-- The first rows of the decomposition. -/
def firstRows {n : ℕ} (A : Matrix (Fin n) (Fin n) ℝ) (f : FullPivQr n) (h : f.rank ≤ n) : Matrix (Fin f.rank) (Fin n) ℝ :=
  fun i j => (f.Qᵀ * A * f.P) (Fin.castLE h i) j

theorem firstRows_eq {n : ℕ} (A : Matrix (Fin n) (Fin n) ℝ) (f : FullPivQr n) (h : f.rank ≤ n) :
    firstQt f h * A * f.P = firstRows A f h := by
  ext i j
  rfl

theorem upper_firstRows {n : ℕ} {A : Matrix (Fin n) (Fin n) ℝ} {f : FullPivQr n} (h : QrOk A f) :
    upperPart (firstRows A f h.rank_le) = firstRows A f h.rank_le := by
  ext i j
  unfold upperPart
  split
  · rename_i hl
    exact (h.upper (Fin.castLE h.rank_le i) j hl).symm
  · rfl

theorem firstRows_inj {n : ℕ} {A : Matrix (Fin n) (Fin n) ℝ} {f : FullPivQr n} (h : QrOk A f) (v : Fin f.rank → ℝ)
    (hv : v ᵥ* firstRows A f h.rank_le = 0) : v = 0 := by
  let T : Matrix (Fin f.rank) (Fin f.rank) ℝ := fun i j => firstRows A f h.rank_le i (Fin.castLE h.rank_le j)
  have hT : T.BlockTriangular id := by
    intro i j hij
    exact h.upper (Fin.castLE h.rank_le i) (Fin.castLE h.rank_le j) hij
  have hd : T.det ≠ 0 := by
    rw [det_of_upperTriangular hT]
    exact Finset.prod_ne_zero_iff.2 fun i _ => h.diag (Fin.castLE h.rank_le i) i.isLt
  refine eq_zero_of_vecMul_eq_zero hd ?_
  funext j
  have := congrFun hv (Fin.castLE h.rank_le j)
  exact this

theorem firstRows_pos {n : ℕ} {A : Matrix (Fin n) (Fin n) ℝ} {f : FullPivQr n} (h : QrOk A f) :
    Positive (firstRows A f h.rank_le * (firstRows A f h.rank_le)ᵀ) := by
  refine ⟨by rw [transpose_mul, transpose_transpose], fun v hv => ?_⟩
  have e : v ⬝ᵥ ((firstRows A f h.rank_le * (firstRows A f h.rank_le)ᵀ) *ᵥ v) =
      ∑ i, (v ᵥ* firstRows A f h.rank_le) i ^ 2 := by
    rw [← mulVec_mulVec, dotProduct_mulVec, mulVec_transpose, sq_dot]
  rw [e]
  refine lt_of_le_of_ne (Finset.sum_nonneg fun i _ => sq_nonneg _) fun h0 => hv (firstRows_inj h v ?_)
  funext i
  have := (Finset.sum_eq_zero_iff_of_nonneg fun i _ => sq_nonneg _).1 h0.symm i (Finset.mem_univ i)
  exact pow_eq_zero_iff (two_ne_zero) |>.1 this

/-- The reduced system gives the shortest of the best fits. -/
theorem reduced_least {n : ℕ} {L : LinLib} (hL : CholeskyOk L) {A : Matrix (Fin n) (Fin n) ℝ} {f : FullPivQr n} (h : QrOk A f)
    (b : Fin n → ℝ) : LeastFit A b (reducedSolve L A f h.rank_le b) := by
  have hP : f.P * f.Pᵀ = 1 := mul_eq_one_comm.1 h.orthP
  obtain ⟨c, hc⟩ : ∃ c : Fin f.rank → ℝ, c = firstQt f h.rank_le *ᵥ b := ⟨_, rfl⟩
  obtain ⟨v, hv⟩ : ∃ v, v = L.llt (firstRows A f h.rank_le * (firstRows A f h.rank_le)ᵀ) c := ⟨_, rfl⟩
  have hx : reducedSolve L A f h.rank_le b = f.P *ᵥ ((firstRows A f h.rank_le)ᵀ *ᵥ v) := by
    unfold reducedSolve
    dsimp only
    rw [firstRows_eq A f h.rank_le, upper_firstRows h, ← hc, ← hv]
  obtain ⟨y, hy⟩ : ∃ y, y = (firstRows A f h.rank_le)ᵀ *ᵥ v := ⟨_, rfl⟩
  have hs : firstRows A f h.rank_le *ᵥ y = c := by
    rw [hy, mulVec_mulVec, hv]
    exact hL _ _ _ (firstRows_pos h)
  have hrow : ∀ i : Fin n, i.val < f.rank → ((f.Qᵀ * A * f.P) *ᵥ y) i = (f.Qᵀ *ᵥ b) i := by
    intro i hi
    have := congrFun hs ⟨i.val, hi⟩
    rw [hc] at this
    exact this
  rw [hx, ← hy]
  refine ⟨misfit_le h b y hrow, fun z hz => ?_⟩
  have hzP : z = f.P *ᵥ (f.Pᵀ *ᵥ z) := by rw [mulVec_mulVec, hP, one_mulVec]
  obtain ⟨w, hw⟩ : ∃ w, w = f.Pᵀ *ᵥ z := ⟨_, rfl⟩
  rw [← hw] at hzP
  rw [hzP] at hz ⊢
  rw [orth_sq h.orthP, orth_sq h.orthP]
  have hd := bestFit_rows h b y w hrow hz
  have hker : firstRows A f h.rank_le *ᵥ (w - y) = 0 := by
    rw [mulVec_sub]
    funext i
    have := hd (Fin.castLE h.rank_le i)
    show (firstRows A f h.rank_le *ᵥ w) i - (firstRows A f h.rank_le *ᵥ y) i = 0
    exact sub_eq_zero.2 this
  have h0 : y ⬝ᵥ (w - y) = 0 := by
    have e : y ⬝ᵥ (w - y) = v ⬝ᵥ (firstRows A f h.rank_le *ᵥ (w - y)) := by
      rw [dotProduct_mulVec, ← mulVec_transpose, ← hy]
    rw [e, hker, dotProduct_zero]
  rw [sq_dot, sq_dot]
  have h1 : w ⬝ᵥ w = y ⬝ᵥ y + 2 * (y ⬝ᵥ (w - y)) + (w - y) ⬝ᵥ (w - y) := by
    simp only [dotProduct_sub, sub_dotProduct]
    rw [dotProduct_comm w y]
    ring
  have h2 : 0 ≤ (w - y) ⬝ᵥ (w - y) := by
    rw [← sq_dot]
    exact Finset.sum_nonneg fun i _ => sq_nonneg _
  rw [h1, h0]
  linarith

/-- Full rank: no vector is sent to zero. -/
theorem fullRank_inj {n : ℕ} {A : Matrix (Fin n) (Fin n) ℝ} {f : FullPivQr n} (h : QrOk A f) (hr : ¬ f.rank < n) (v : Fin n → ℝ)
    (hv : A *ᵥ v = 0) : v = 0 := by
  have hP : f.P * f.Pᵀ = 1 := mul_eq_one_comm.1 h.orthP
  have hT : (f.Qᵀ * A * f.P).BlockTriangular id := fun i j hij => h.upper i j hij
  have hd : (f.Qᵀ * A * f.P).det ≠ 0 := by
    rw [det_of_upperTriangular hT]
    exact Finset.prod_ne_zero_iff.2 fun i _ => h.diag i (by omega)
  have h1 : (f.Qᵀ * A * f.P) *ᵥ (f.Pᵀ *ᵥ v) = 0 := by
    rw [mulVec_mulVec, Matrix.mul_assoc, hP, Matrix.mul_one, ← mulVec_mulVec, hv, mulVec_zero]
  have h2 := eq_zero_of_mulVec_eq_zero hd h1
  calc v = f.P *ᵥ (f.Pᵀ *ᵥ v) := by rw [mulVec_mulVec, hP, one_mulVec]
    _ = 0 := by rw [h2, mulVec_zero]

theorem nonneg_ker {n : ℕ} {A : Matrix (Fin n) (Fin n) ℝ} (h : NonNegative A) (v : Fin n → ℝ) (hv : v ⬝ᵥ (A *ᵥ v) = 0) :
    A *ᵥ v = 0 := by
  have hs : ∀ u w : Fin n → ℝ, u ⬝ᵥ (A *ᵥ w) = w ⬝ᵥ (A *ᵥ u) := by
    intro u w
    rw [dotProduct_mulVec, ← mulVec_transpose, h.1, dotProduct_comm]
  have hq : ∀ t : ℝ, 0 ≤ 2 * t * ((A *ᵥ v) ⬝ᵥ (A *ᵥ v)) + t ^ 2 * ((A *ᵥ v) ⬝ᵥ (A *ᵥ (A *ᵥ v))) := by
    intro t
    have := h.2 (v + t • (A *ᵥ v))
    rw [mulVec_add, mulVec_smul, add_dotProduct, dotProduct_add, dotProduct_add, smul_dotProduct, smul_dotProduct, dotProduct_smul,
      dotProduct_smul, hv, hs v (A *ᵥ v)] at this
    simp only [smul_eq_mul] at this
    linarith
  have hp : 0 ≤ (A *ᵥ v) ⬝ᵥ (A *ᵥ v) := by
    rw [← sq_dot]
    exact Finset.sum_nonneg fun i _ => sq_nonneg _
  have hz : (A *ᵥ v) ⬝ᵥ (A *ᵥ v) = 0 := by
    by_contra hne
    have hpos : 0 < (A *ᵥ v) ⬝ᵥ (A *ᵥ v) := lt_of_le_of_ne hp (Ne.symm hne)
    have hc := h.2 (A *ᵥ v)
    generalize (A *ᵥ v) ⬝ᵥ (A *ᵥ v) = a at *
    generalize (A *ᵥ v) ⬝ᵥ (A *ᵥ (A *ᵥ v)) = c at *
    have h1 := hq (-(a / (c + 1)))
    have hc1 : 0 < c + 1 := by linarith
    have h2 : 2 * -(a / (c + 1)) * a + (-(a / (c + 1))) ^ 2 * c = -(a ^ 2 * (c + 2)) / (c + 1) ^ 2 := by
      field_simp
      ring
    rw [h2] at h1
    have h3 : 0 < a ^ 2 * (c + 2) / (c + 1) ^ 2 := by positivity
    have h4 : -(a ^ 2 * (c + 2)) / (c + 1) ^ 2 = -(a ^ 2 * (c + 2) / (c + 1) ^ 2) := by ring
    linarith
  funext i
  rw [← sq_dot] at hz
  have := (Finset.sum_eq_zero_iff_of_nonneg fun i _ => sq_nonneg _).1 hz i (Finset.mem_univ i)
  exact pow_eq_zero_iff (two_ne_zero) |>.1 this

/-- Shortest means: at right angles to all that makes no difference. -/
theorem leastFit_orth {n : ℕ} {A : Matrix (Fin n) (Fin n) ℝ} {b x : Fin n → ℝ} (h : LeastFit A b x) (v : Fin n → ℝ)
    (hv : A *ᵥ v = 0) : x ⬝ᵥ v = 0 := by
  have hb : ∀ t : ℝ, BestFit A b (x + t • v) := by
    intro t y
    have : misfit A b (x + t • v) = misfit A b x := by
      unfold misfit
      rw [mulVec_add, mulVec_smul, hv, smul_zero, add_zero]
    rw [this]
    exact h.1 y
  have hq : ∀ t : ℝ, 0 ≤ 2 * t * (x ⬝ᵥ v) + t ^ 2 * (v ⬝ᵥ v) := by
    intro t
    have := h.2 _ (hb t)
    rw [sq_dot, sq_dot, add_dotProduct, dotProduct_add, dotProduct_add, smul_dotProduct, smul_dotProduct, dotProduct_smul,
      dotProduct_smul, dotProduct_comm v x] at this
    simp only [smul_eq_mul] at this
    linarith
  have hc : 0 ≤ v ⬝ᵥ v := by
    rw [← sq_dot]
    exact Finset.sum_nonneg fun i _ => sq_nonneg _
  generalize x ⬝ᵥ v = a at *
  generalize v ⬝ᵥ v = c at *
  by_contra hne
  have h1 := hq (-(a / (c + 1)))
  have hc1 : 0 < c + 1 := by linarith
  have h2 : 2 * -(a / (c + 1)) * a + (-(a / (c + 1))) ^ 2 * c = -(a ^ 2 * (c + 2)) / (c + 1) ^ 2 := by
    field_simp
    ring
  rw [h2] at h1
  have h3 : 0 < a ^ 2 * (c + 2) / (c + 1) ^ 2 := by
    have : 0 < a ^ 2 := by positivity
    positivity
  have h4 : -(a ^ 2 * (c + 2)) / (c + 1) ^ 2 = -(a ^ 2 * (c + 2) / (c + 1) ^ 2) := by ring
  linarith

end Verif
