import Verif.Spec.PointToPoint
import Mathlib.Analysis.InnerProductSpace.Spectrum
import Mathlib.Analysis.InnerProductSpace.PiL2
import Mathlib.Analysis.Matrix.Hermitian
import Mathlib.LinearAlgebra.Matrix.NonsingularInverse
/-! Every 3 by 3 matrix has a singular value decomposition, so that the assumption on the library can be met. -/
namespace Verif
open Spec Matrix

theorem euclid_inner {n : ℕ} (x y : EuclideanSpace ℝ (Fin n)) : inner ℝ x y = ∑ k, x k * y k := by
  rw [PiLp.inner_apply]
  refine Finset.sum_congr rfl fun k _ => ?_
  rw [real_inner_eq_re_inner, RCLike.inner_apply]
  simp [mul_comm]

theorem exists_svd (m : Mat3) : ∃ p : Mat3 × Mat3, p.1ᵀ * p.1 = 1 ∧ p.2ᵀ * p.2 = 1 ∧
    ∃ s : Fin 3 → ℝ, m = p.1 * diagonal s * p.2ᵀ ∧ s 1 ≤ s 0 ∧ s 2 ≤ s 1 ∧ 0 ≤ s 2 := by
  have hT : (Matrix.toEuclideanLin (mᵀ * m)).IsSymmetric := by
    rw [← Matrix.isHermitian_iff_isSymmetric]
    show (mᵀ * m)ᴴ = _
    rw [conjTranspose_eq_transpose_of_trivial, transpose_mul, transpose_transpose]
  have hn : Module.finrank ℝ (EuclideanSpace ℝ (Fin 3)) = 3 := by simp
  let v := hT.eigenvectorBasis hn
  let lam := hT.eigenvalues hn
  have hv : ∀ i k, (mᵀ *ᵥ (m *ᵥ (fun j => v i j))) k = lam i * v i k := by
    intro i k
    have := congrArg (fun x : EuclideanSpace ℝ (Fin 3) => x k) (hT.apply_eigenvectorBasis hn i)
    simp only [PiLp.smul_apply] at this
    rw [mulVec_mulVec]
    exact this
  have hvo : ∀ i j, ∑ k, v i k * v j k = if i = j then 1 else 0 := by
    intro i j
    rw [← euclid_inner]
    exact (orthonormal_iff_ite.1 v.orthonormal) i j
  have hMM : ∀ i j, (m *ᵥ (fun k => v i k)) ⬝ᵥ (m *ᵥ (fun k => v j k)) = if i = j then lam j else 0 := by
    intro i j
    rw [← vecMul_transpose, ← dotProduct_mulVec]
    have : (fun k => v i k) ⬝ᵥ (mᵀ *ᵥ (m *ᵥ (fun k => v j k))) = lam j * ∑ k, v i k * v j k := by
      unfold dotProduct
      rw [Finset.mul_sum]
      exact Finset.sum_congr rfl fun k _ => by rw [hv]; ring
    rw [this, hvo]
    split <;> simp
  have hlam : ∀ i, 0 ≤ lam i := by
    intro i
    have := hMM i i
    rw [if_pos rfl] at this
    rw [← this]
    exact Finset.sum_nonneg fun k _ => mul_self_nonneg _
  let s : Fin 3 → ℝ := fun i => Real.sqrt (lam i)
  have hs2 : ∀ i, s i * s i = lam i := fun i => Real.mul_self_sqrt (hlam i)
  let w : Fin 3 → EuclideanSpace ℝ (Fin 3) := fun i => WithLp.toLp 2 fun k => (s i)⁻¹ * (m *ᵥ (fun j => v i j)) k
  have hw : Orthonormal ℝ (Set.restrict {i | s i ≠ 0} w) := by
    rw [orthonormal_iff_ite]
    rintro ⟨i, hi⟩ ⟨j, hj⟩
    show inner ℝ (w i) (w j) = _
    rw [euclid_inner]
    have : ∑ k, w i k * w j k = (s i)⁻¹ * (s j)⁻¹ * ((m *ᵥ (fun k => v i k)) ⬝ᵥ (m *ᵥ (fun k => v j k))) := by
      unfold dotProduct
      rw [Finset.mul_sum]
      refine Finset.sum_congr rfl fun k _ => ?_
      show (s i)⁻¹ * (m *ᵥ (fun j => v i j)) k * ((s j)⁻¹ * (m *ᵥ (fun k => v j k)) k) = _
      ring
    rw [this, hMM]
    by_cases h : i = j
    · subst h
      rw [if_pos rfl, if_pos rfl, ← hs2 i]
      have hi' : s i ≠ 0 := hi
      field_simp
    · rw [if_neg h, if_neg (by simpa using h), mul_zero]
  obtain ⟨b, hb⟩ := hw.exists_orthonormalBasis_extension_of_card_eq (v := w) (by simp)
  let U : Mat3 := fun k i => b i k
  let V : Mat3 := fun k i => v i k
  have hbo : ∀ i j, ∑ k, b i k * b j k = if i = j then 1 else 0 := by
    intro i j
    rw [← euclid_inner]
    exact (orthonormal_iff_ite.1 b.orthonormal) i j
  have hU : Uᵀ * U = 1 := by
    ext i j
    rw [mul_apply, one_apply]
    exact hbo i j
  have hV : Vᵀ * V = 1 := by
    ext i j
    rw [mul_apply, one_apply]
    exact hvo i j
  have hmV : m * V = U * diagonal s := by
    ext k i
    rw [mul_diagonal]
    show (m *ᵥ (fun j => v i j)) k = b i k * s i
    by_cases hi : s i = 0
    · have h0 := hMM i i
      rw [if_pos rfl, ← hs2 i, hi, mul_zero] at h0
      have := (Finset.sum_eq_zero_iff_of_nonneg fun k _ => mul_self_nonneg _).1 h0 k (Finset.mem_univ k)
      rw [hi, mul_zero]
      exact mul_self_eq_zero.1 this
    · rw [hb i hi]
      show _ = (s i)⁻¹ * (m *ᵥ (fun j => v i j)) k * s i
      field_simp
  refine ⟨(U, V), hU, hV, s, ?_, ?_, ?_, Real.sqrt_nonneg _⟩
  · show m = U * diagonal s * Vᵀ
    rw [← hmV, Matrix.mul_assoc, mul_eq_one_comm.1 hV, Matrix.mul_one]
  · exact Real.sqrt_le_sqrt (hT.eigenvalues_antitone hn (by decide))
  · exact Real.sqrt_le_sqrt (hT.eigenvalues_antitone hn (by decide))

/-- A library that does what is asked of it. -/
theorem exists_svdOk : ∃ svd, SvdOk svd :=
  ⟨fun m => (exists_svd m).choose, fun m => (exists_svd m).choose_spec⟩

end Verif
