import Verif.Proofs.LeastNorm
import Mathlib.Analysis.InnerProductSpace.GramSchmidtOrtho
import Mathlib.Analysis.InnerProductSpace.PiL2
import Mathlib.Logic.Equiv.Fintype
/-! Every square matrix has a QR decomposition with pivoting, so that the assumptions on the library can be met. -/
namespace Verif
open Spec Matrix InnerProductSpace

/-- A permutation matrix. -/
def permMat {n : ℕ} (σ : Equiv.Perm (Fin n)) : Matrix (Fin n) (Fin n) ℝ := fun i j => if i = σ j then 1 else 0

theorem perm_orth {n : ℕ} (σ : Equiv.Perm (Fin n)) : (permMat σ)ᵀ * permMat σ = 1 := by
  ext i j
  rw [mul_apply]
  simp only [transpose_apply, one_apply, permMat]
  rw [Finset.sum_eq_single (σ i)]
  · by_cases h : i = j
    · simp [h]
    · simp [h]
  · intro k _ hk
    simp [hk]
  · intro h
    exact absurd (Finset.mem_univ _) h

theorem exists_qr {n : ℕ} (A : Matrix (Fin n) (Fin n) ℝ) : ∃ f : FullPivQr n, QrOk A f := by
  let c : Fin n → EuclideanSpace ℝ (Fin n) := fun j => WithLp.toLp 2 fun i => A i j
  obtain ⟨κ, a, ha, hsp, hli⟩ := exists_linearIndependent' ℝ c
  haveI : Finite κ := Finite.of_injective a ha
  let e : κ ≃ Fin (Nat.card κ) := Finite.equivFin κ
  obtain ⟨r, hr⟩ : ∃ r, r = Nat.card κ := ⟨_, rfl⟩
  rw [← hr] at e
  have hrn : r ≤ n := by
    have := Nat.card_le_card_of_injective a ha
    rw [Nat.card_fin] at this
    omega
  let g : Fin r → Fin n := a ∘ e.symm
  have hg : Function.Injective g := ha.comp e.symm.injective
  let e1 : {x : Fin n // x.val < r} ≃ {x : Fin n // x ∈ Set.range g} :=
    (⟨fun x => ⟨x.1.1, x.2⟩, fun i => ⟨Fin.castLE hrn i, i.isLt⟩, fun x => rfl, fun i => rfl⟩ : {x : Fin n // x.val < r} ≃ Fin r).trans
      (Equiv.ofInjective g hg)
  classical
  let σ : Equiv.Perm (Fin n) := e1.extendSubtype
  have hσ : ∀ i : Fin n, ∀ h : i.val < r, σ i = g ⟨i.val, h⟩ := by
    intro i h
    exact Equiv.extendSubtype_apply_of_mem e1 i h
  let f : Fin n → EuclideanSpace ℝ (Fin n) := fun j => c (σ j)
  have hfin : Module.finrank ℝ (EuclideanSpace ℝ (Fin n)) = Fintype.card (Fin n) := finrank_euclideanSpace
  let B := gramSchmidtOrthonormalBasis hfin f
  let P : Matrix (Fin n) (Fin n) ℝ := permMat σ
  let Q : Matrix (Fin n) (Fin n) ℝ := fun i j => B j i
  have hAP : ∀ i j, (A * P) i j = A i (σ j) := by
    intro i j
    rw [mul_apply, Finset.sum_eq_single (σ j)]
    · simp [P, permMat]
    · intro k _ hk
      simp [P, permMat, hk]
    · intro h
      exact absurd (Finset.mem_univ _) h
  have hR : ∀ i j, (Qᵀ * A * P) i j = inner ℝ (B i) (f j) := by
    intro i j
    rw [Matrix.mul_assoc, mul_apply, PiLp.inner_apply]
    refine Finset.sum_congr rfl fun k _ => ?_
    rw [hAP, transpose_apply]
    show B i k * A k (σ j) = inner ℝ (B i k) (A k (σ j))
    rw [real_inner_eq_re_inner, RCLike.inner_apply]
    simp [mul_comm]
  have hspan : ∀ j, f j ∈ Submodule.span ℝ (f '' {k | k.val < r}) := by
    intro j
    have h1 : f j ∈ Submodule.span ℝ (Set.range c) := Submodule.subset_span ⟨σ j, rfl⟩
    rw [← hsp] at h1
    refine Submodule.span_mono ?_ h1
    rintro _ ⟨k, rfl⟩
    refine ⟨Fin.castLE hrn (e k), (e k).isLt, ?_⟩
    show c (σ (Fin.castLE hrn (e k))) = c (a k)
    rw [hσ _ (e k).isLt]
    show c (a (e.symm (e k))) = _
    rw [Equiv.symm_apply_apply]
  have horth : ∀ (i : Fin n) (s : Set (Fin n)), (∀ k ∈ s, inner ℝ (B i) (f k) = 0) → ∀ v ∈ Submodule.span ℝ (f '' s), inner ℝ (B i) v = 0 := by
    intro i s hs v hv
    induction hv using Submodule.span_induction with
    | mem x hx => obtain ⟨k, hk, rfl⟩ := hx; exact hs k hk
    | zero => exact inner_zero_right _
    | add x y _ _ hx hy => rw [inner_add_right, hx, hy, add_zero]
    | smul t x _ hx => rw [inner_smul_right, hx, mul_zero]
  refine ⟨⟨Q, P, r⟩, ?_, perm_orth σ, hrn, ?_, ?_, ?_⟩
  · ext i j
    rw [mul_apply, one_apply]
    have := (orthonormal_iff_ite.1 B.orthonormal) i j
    rw [← this, PiLp.inner_apply]
    refine Finset.sum_congr rfl fun k _ => ?_
    show B i k * B j k = inner ℝ (B i k) (B j k)
    rw [real_inner_eq_re_inner, RCLike.inner_apply]
    simp [mul_comm]
  · intro i j hij
    show (Qᵀ * A * P) i j = 0
    rw [hR]
    exact gramSchmidtOrthonormalBasis_inv_triangular hfin f hij
  · intro i j hi
    show (Qᵀ * A * P) i j = 0
    rw [hR]
    refine horth i _ (fun k hk => ?_) _ (hspan j)
    exact gramSchmidtOrthonormalBasis_inv_triangular hfin f (Fin.lt_def.2 (lt_of_lt_of_le hk hi))
  · intro i hi h0
    change (Qᵀ * A * P) i i = 0 at h0
    change i.val < r at hi
    rw [hR] at h0
    have hne : gramSchmidt ℝ f i ≠ 0 := by
      refine gramSchmidt_ne_zero_coe i ?_
      let ι : Set.Iic i → κ := fun k => e.symm ⟨k.1.val, lt_of_le_of_lt (Fin.le_def.1 k.2) hi⟩
      have hι : Function.Injective ι := by
        intro x y hxy
        have := e.symm.injective hxy
        simp only [Fin.mk.injEq] at this
        exact Subtype.ext (Fin.ext this)
      have := hli.comp ι hι
      have he : (c ∘ a) ∘ ι = f ∘ ((↑) : Set.Iic i → Fin n) := by
        funext k
        show c (a (ι k)) = c (σ k.1)
        rw [hσ _ (lt_of_le_of_lt (Fin.le_def.1 k.2) hi)]
        rfl
      rw [← he]
      exact this
    have hnn : gramSchmidtNormed ℝ f i ≠ 0 := by
      unfold gramSchmidtNormed
      intro h
      rcases smul_eq_zero.1 h with h | h
      · simp only [RCLike.ofReal_real_eq_id, id_eq, inv_eq_zero, norm_eq_zero] at h
        exact hne h
      · exact hne h
    have h1 : inner ℝ (B i) (gramSchmidt ℝ f i) = 0 := by
      refine horth i (Set.Iic i) (fun k hk => ?_) _ (gramSchmidt_mem_span ℝ f le_rfl)
      rcases lt_or_eq_of_le (show k ≤ i from hk) with hlt | rfl
      · exact gramSchmidtOrthonormalBasis_inv_triangular hfin f hlt
      · exact h0
    have h2 : B i = gramSchmidtNormed ℝ f i := gramSchmidtOrthonormalBasis_apply hfin hnn
    rw [h2] at h1
    unfold gramSchmidtNormed at h1
    rw [inner_smul_left] at h1
    rcases mul_eq_zero.1 h1 with h | h
    · simp only [RCLike.ofReal_real_eq_id, id_eq, conj_trivial, inv_eq_zero, norm_eq_zero] at h
      exact hne h
    · exact hne (inner_self_eq_zero.1 h)

/-- A library that does what is asked of it. -/
theorem exists_lib : ∃ L : LinLib, LibOk L := by
  classical
  let L0 : LinLib := ⟨fun {n} A => (exists_qr A).choose, fun {n} A b => A⁻¹ *ᵥ b, fun {n} A b => b⟩
  have h0 : CholeskyOk L0 := by
    intro n A b hA
    have hu : IsUnit A.det := by
      rw [isUnit_iff_ne_zero]
      intro hd
      obtain ⟨v, hv, hz⟩ := exists_mulVec_eq_zero_iff.2 hd
      have := hA.2 v hv
      rw [hz, dotProduct_zero] at this
      exact lt_irrefl _ this
    show A *ᵥ (A⁻¹ *ᵥ b) = b
    rw [mulVec_mulVec, mul_nonsing_inv A hu, one_mulVec]
  refine ⟨⟨L0.qr, L0.llt, fun {n} A b => reducedSolve L0 A (L0.qr A) (exists_qr A).choose_spec.rank_le b⟩, h0,
    fun n A => (exists_qr A).choose_spec, fun n A b => ?_⟩
  exact reduced_least h0 (exists_qr A).choose_spec b

end Verif
