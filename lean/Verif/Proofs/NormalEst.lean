import Verif.Spec.NormalEst
import Mathlib.Tactic.Linarith
import Mathlib.Tactic.Ring
import Mathlib.Tactic.FieldSimp
import Mathlib.Tactic.FinCases
import Mathlib.LinearAlgebra.Matrix.ToLin
import Mathlib.LinearAlgebra.FiniteDimensional.Lemmas
import Mathlib.Algebra.Order.BigOperators.Group.List
/-! Lemmas about the arithmetic of normals. -/
namespace Verif
open Spec Matrix

theorem dotThree (a b : Fin 3 → ℝ) : a ⬝ᵥ b = a 0 * b 0 + a 1 * b 1 + a 2 * b 2 := by
  simp [dotProduct, Fin.sum_univ_three]

theorem sum_map_add {α : Type} (f g : α → ℝ) : ∀ l : List α, (l.map fun a => f a + g a).sum = (l.map f).sum + (l.map g).sum := by
  intro l
  induction l with
  | nil => simp
  | cons a l ih => simp only [List.map_cons, List.sum_cons, ih]; ring

theorem sum_map_mul {α : Type} (c : ℝ) (f : α → ℝ) : ∀ l : List α, (l.map fun a => c * f a).sum = c * (l.map f).sum := by
  intro l
  induction l with
  | nil => simp
  | cons a l ih => simp only [List.map_cons, List.sum_cons, ih]; ring

theorem waveM_cons (p : Fin 3 → ℝ) (l : List (Fin 3 → ℝ)) (i j : Fin 3) : waveM (p :: l) i j = p i * p j + waveM l i j := by
  simp [waveM]

theorem waveB_cons (p : Fin 3 → ℝ) (l : List (Fin 3 → ℝ)) (i : Fin 3) : waveB (p :: l) i = p i + waveB l i := by
  simp [waveB]

/-- `M v` is the sum of the points, each as often as it reaches along `v`. -/
theorem waveM_mul (v : Fin 3 → ℝ) (i : Fin 3) : ∀ l : List (Fin 3 → ℝ), (waveM l *ᵥ v) i = (l.map fun p => (v ⬝ᵥ p) * p i).sum := by
  intro l
  induction l with
  | nil => simp [waveM, mulVec, dotProduct]
  | cons p l ih =>
    rw [List.map_cons, List.sum_cons, ← ih]
    simp only [mulVec, dotProduct, Fin.sum_univ_three, waveM_cons]
    ring

theorem waveM_quad (v : Fin 3 → ℝ) : ∀ l : List (Fin 3 → ℝ), v ⬝ᵥ (waveM l *ᵥ v) = (l.map fun p => (v ⬝ᵥ p) ^ 2).sum := by
  intro l
  induction l with
  | nil => simp [waveM, mulVec, dotProduct]
  | cons p l ih =>
    rw [List.map_cons, List.sum_cons, ← ih]
    simp only [mulVec, dotProduct, Fin.sum_univ_three, waveM_cons]
    ring

theorem waveB_dot (v : Fin 3 → ℝ) : ∀ l : List (Fin 3 → ℝ), v ⬝ᵥ waveB l = (l.map fun p => v ⬝ᵥ p).sum := by
  intro l
  induction l with
  | nil => simp [waveB, dotProduct]
  | cons p l ih =>
    rw [List.map_cons, List.sum_cons, ← ih]
    simp only [dotProduct, Fin.sum_univ_three, waveB_cons]
    ring

theorem sq_sum_zero {α : Type} (f : α → ℝ) : ∀ l : List α, (l.map fun a => f a ^ 2).sum = 0 → ∀ a ∈ l, f a = 0 := by
  intro l
  induction l with
  | nil => intro _ a ha; cases ha
  | cons b l ih =>
    intro h a ha
    have h1 : 0 ≤ (l.map fun a => f a ^ 2).sum := by
      apply List.sum_nonneg
      intro x hx
      obtain ⟨y, -, rfl⟩ := List.mem_map.1 hx
      positivity
    rw [List.map_cons, List.sum_cons] at h
    have h2 : 0 ≤ f b ^ 2 := by positivity
    rcases List.mem_cons.1 ha with rfl | ha
    · exact pow_eq_zero_iff (two_ne_zero) |>.1 (by linarith)
    · exact ih (by linarith) a ha

/-- The matrix is singular only if all points lie in a plane through the origin. -/
theorem waveM_singular (l : List (Fin 3 → ℝ)) (h : (waveM l).det = 0) : ∃ v : Fin 3 → ℝ, v ≠ 0 ∧ ∀ p ∈ l, v ⬝ᵥ p = 0 := by
  obtain ⟨v, hv, hm⟩ := Matrix.exists_mulVec_eq_zero_iff.2 h
  refine ⟨v, hv, sq_sum_zero _ l ?_⟩
  rw [← waveM_quad, hm, dotProduct_zero]

theorem waveM_singular' (l : List (Fin 3 → ℝ)) (v : Fin 3 → ℝ) (hv : v ≠ 0) (h : ∀ p ∈ l, v ⬝ᵥ p = 0) : (waveM l).det = 0 := by
  refine Matrix.exists_mulVec_eq_zero_iff.1 ⟨v, hv, ?_⟩
  funext i
  rw [waveM_mul]
  have : l.map (fun p => (v ⬝ᵥ p) * p i) = l.map fun _ => (0 : ℝ) := List.map_congr_left fun p hp => by rw [h p hp, zero_mul]
  rw [this]
  simp

theorem groupMean_dot (n : Fin 3 → ℝ) (c : ℝ) (l : List (Fin 3 → ℝ)) (hne : l ≠ []) (h : ∀ p ∈ l, n ⬝ᵥ p = c) :
    n ⬝ᵥ groupMean l = c := by
  have hl : (l.length : ℝ) ≠ 0 := by
    have := List.length_pos_iff.2 hne
    positivity
  have h1 : n ⬝ᵥ groupMean l = (n ⬝ᵥ waveB l) / l.length := by
    simp only [dotProduct, Fin.sum_univ_three, groupMean]
    ring
  have h2 : l.map (fun p => n ⬝ᵥ p) = l.map fun _ => c := List.map_congr_left h
  rw [h1, waveB_dot, h2]
  simp
  field_simp

theorem groupCov_mul (v : Fin 3 → ℝ) (c : ℝ) (l : List (Fin 3 → ℝ)) (hne : l ≠ []) (h : ∀ p ∈ l, v ⬝ᵥ p = c) :
    groupCov l *ᵥ v = 0 := by
  have hm := groupMean_dot v c l hne h
  funext i
  have key : ∀ (m : Fin 3 → ℝ) (k : List (Fin 3 → ℝ)), (∀ p ∈ k, v ⬝ᵥ p = v ⬝ᵥ m) →
      ∑ j, (k.map fun p => (p i - m i) * (p j - m j)).sum * v j = 0 := by
    intro m k
    induction k with
    | nil => intro _; simp
    | cons p k ih =>
      intro hk
      have h1 := ih fun q hq => hk q (by simp [hq])
      have h2 := hk p (by simp)
      simp only [Fin.sum_univ_three, List.map_cons, List.sum_cons] at h1 ⊢
      rw [dotThree, dotThree] at h2
      have h3 : (p i - m i) * ((v 0 * p 0 + v 1 * p 1 + v 2 * p 2) - (v 0 * m 0 + v 1 * m 1 + v 2 * m 2)) = 0 := by
        rw [h2]; ring
      linarith
  exact key (groupMean l) l fun p hp => by rw [h p hp, hm]

/-- Two independent directions without extent leave at most rank one. -/
theorem cov_rank (A : Matrix (Fin 3) (Fin 3) ℝ) (v w : Fin 3 → ℝ) (hv : A *ᵥ v = 0) (hw : A *ᵥ w = 0)
    (hi : LinearIndependent ℝ ![v, w]) : A.rank ≤ 1 := by
  have h1 := LinearMap.finrank_range_add_finrank_ker A.mulVecLin
  have h2 : Module.finrank ℝ (Submodule.span ℝ (Set.range ![v, w])) = 2 := by
    rw [finrank_span_eq_card hi]; rfl
  have h3 : Submodule.span ℝ (Set.range ![v, w]) ≤ LinearMap.ker A.mulVecLin := by
    rw [Submodule.span_le]
    rintro x ⟨i, rfl⟩
    fin_cases i
    · exact hv
    · exact hw
  have h4 := Submodule.finrank_mono h3
  rw [h2] at h4
  unfold Matrix.rank
  simp at h1
  omega

/-- A flat patch that is not on a line, seen from outside its plane, has an invertible matrix. -/
theorem flat_regular (n : Fin 3 → ℝ) (c : ℝ) (hc : c ≠ 0) (l : List (Fin 3 → ℝ)) (hne : l ≠ []) (hf : ∀ p ∈ l, n ⬝ᵥ p = c)
    (hr : ¬ (groupCov l).rank + 1 < 3) : (waveM l).det ≠ 0 := by
  intro hd
  obtain ⟨v, hv, hp⟩ := waveM_singular l hd
  apply hr
  have : (groupCov l).rank ≤ 1 := by
    refine cov_rank _ v n (groupCov_mul v 0 l hne hp) (groupCov_mul n c l hne hf) ?_
    rw [LinearIndependent.pair_iff]
    intro s t h
    obtain ⟨p, hpl⟩ := List.exists_mem_of_ne_nil l hne
    have h1 : s * (v ⬝ᵥ p) + t * (n ⬝ᵥ p) = 0 := by
      have : (s • v + t • n) ⬝ᵥ p = 0 := by rw [h, zero_dotProduct]
      rwa [add_dotProduct, smul_dotProduct, smul_dotProduct, smul_eq_mul, smul_eq_mul] at this
    rw [hp p hpl, hf p hpl, mul_zero, zero_add] at h1
    have ht : t = 0 := by
      rcases mul_eq_zero.1 h1 with h | h
      · exact h
      · exact absurd h hc
    subst ht
    rw [zero_smul, add_zero] at h
    rcases smul_eq_zero.1 h with h | h
    · exact ⟨h, rfl⟩
    · exact absurd h hv
  omega

theorem unitNormal_scale (n : Fin 3 → ℝ) (hn : n ⬝ᵥ n = 1) (a : ℝ) (ha : 0 < a) : unitNormal (fun i => a * n i) = n := by
  have h : ∑ i, (a * n i) ^ 2 = a ^ 2 := by
    rw [dotThree] at hn
    rw [Fin.sum_univ_three]
    have : (a * n 0) ^ 2 + (a * n 1) ^ 2 + (a * n 2) ^ 2 = a ^ 2 * (n 0 * n 0 + n 1 * n 1 + n 2 * n 2) := by ring
    rw [this, hn, mul_one]
  unfold unitNormal
  dsimp only
  rw [h, if_pos (by positivity), Real.sqrt_sq ha.le]
  funext i
  field_simp

/-- The solution of the normal equations is what the code computes. -/
theorem normal_of_solution (l : List (Fin 3 → ℝ)) (hd : (waveM l).det ≠ 0) (x : Fin 3 → ℝ) (hx : waveM l *ᵥ x = waveB l) :
    groupNormal l = some (unitNormal x) := by
  unfold groupNormal
  rw [if_neg hd, ← hx, Matrix.mulVec_mulVec, Matrix.nonsing_inv_mul _ (isUnit_iff_ne_zero.2 hd), Matrix.one_mulVec]

theorem solution_of_normal (l : List (Fin 3 → ℝ)) (hd : (waveM l).det ≠ 0) :
    ∃ x, waveM l *ᵥ x = waveB l ∧ groupNormal l = some (unitNormal x) := by
  refine ⟨(waveM l)⁻¹ *ᵥ waveB l, ?_, ?_⟩
  · rw [Matrix.mulVec_mulVec, Matrix.mul_nonsing_inv _ (isUnit_iff_ne_zero.2 hd), Matrix.one_mulVec]
  · unfold groupNormal
    rw [if_neg hd]

theorem groupCov_quad (v : Fin 3 → ℝ) (l : List (Fin 3 → ℝ)) :
    v ⬝ᵥ (groupCov l *ᵥ v) = (l.map fun p => (v ⬝ᵥ p - v ⬝ᵥ groupMean l) ^ 2).sum := by
  have key : ∀ (m : Fin 3 → ℝ) (k : List (Fin 3 → ℝ)),
      (v ⬝ᵥ ((fun i j => (k.map fun p => (p i - m i) * (p j - m j)).sum : Matrix (Fin 3) (Fin 3) ℝ) *ᵥ v)) =
        (k.map fun p => (v ⬝ᵥ p - v ⬝ᵥ m) ^ 2).sum := by
    intro m k
    induction k with
    | nil => simp [mulVec, dotProduct]
    | cons p k ih =>
      rw [List.map_cons, List.sum_cons, ← ih]
      simp only [mulVec, dotProduct, Fin.sum_univ_three, List.map_cons, List.sum_cons]
      ring
  exact key (groupMean l) l

/-- Points that are not on one line pass the test of the rank. -/
theorem rank_of_notOnALine (l : List (Fin 3 → ℝ)) (h : NotOnALine l) : ¬ (groupCov l).rank + 1 < 3 := by
  intro hr
  obtain ⟨p, hp, q, hq, r, hr', hn⟩ := h
  have hi : LinearIndependent ℝ ![fun i => q i - p i, fun i => r i - p i] := by
    rw [LinearIndependent.pair_iff]
    intro s t h
    by_contra hc
    apply hn
    refine ⟨s, t, ?_, fun i => congrFun h i⟩
    by_contra h2
    push Not at h2
    exact hc h2
  have hB : (Matrix.of ![fun i => q i - p i, fun i => r i - p i] : Matrix (Fin 2) (Fin 3) ℝ).rank = 2 := by
    have := LinearIndependent.rank_matrix (M := Matrix.of ![fun i => q i - p i, fun i => r i - p i]) hi
    simpa using this
  have h1 := LinearMap.finrank_range_add_finrank_ker (groupCov l).mulVecLin
  have h2 := LinearMap.finrank_range_add_finrank_ker
    (Matrix.of ![fun i => q i - p i, fun i => r i - p i] : Matrix (Fin 2) (Fin 3) ℝ).mulVecLin
  have h3 : LinearMap.ker (groupCov l).mulVecLin ≤ LinearMap.ker
      (Matrix.of ![fun i => q i - p i, fun i => r i - p i] : Matrix (Fin 2) (Fin 3) ℝ).mulVecLin := by
    intro v hv
    rw [LinearMap.mem_ker] at hv
    have hv' : groupCov l *ᵥ v = 0 := hv
    have hq0 := groupCov_quad v l
    rw [hv', dotProduct_zero] at hq0
    have hz := sq_sum_zero (fun p => v ⬝ᵥ p - v ⬝ᵥ groupMean l) l hq0.symm
    have a1 := hz p hp
    have a2 := hz q hq
    have a3 := hz r hr'
    simp only [dotThree] at a1 a2 a3
    rw [LinearMap.mem_ker]
    show Matrix.of ![fun i => q i - p i, fun i => r i - p i] *ᵥ v = 0
    funext i
    fin_cases i
    · simp [mulVec, dotProduct, Fin.sum_univ_three]
      linarith
    · simp [mulVec, dotProduct, Fin.sum_univ_three]
      linarith
  have h4 := Submodule.finrank_mono h3
  unfold Matrix.rank at hr hB
  simp at h1 h2
  omega

end Verif
