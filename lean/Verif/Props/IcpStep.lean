import Verif.Spec.IcpStep
import Mathlib.Analysis.InnerProductSpace.PiL2
import Mathlib.Analysis.Matrix.Hermitian
import Mathlib.Analysis.InnerProductSpace.Symmetric
import Mathlib.LinearAlgebra.Matrix.NonsingularInverse
import Mathlib.Analysis.SpecialFunctions.Trigonometric.Bounds
import Mathlib.Tactic.LinearCombination
import Mathlib.Tactic.Linarith
import Mathlib.Tactic.FinCases
/-! Property theorems C68: one point-to-plane step. -/
namespace Verif
open Spec

/-- The residual of a pair is linear in the six numbers. -/
theorem residual_eq (comp : Bool) (e : IcpPair) (x : Fin 6 → ℝ) :
    dotProduct e.n (fun i => e.p i + (if comp then e.f else 1) * smallMotion (turnOf x) (shiftOf x) e.p i - e.q i) =
    icpDot e + ∑ j, icpF comp e j * x j := by
  cases comp <;>
  simp [icpF, icpDot, icpCross, smallMotion, turnOf, shiftOf, cross_apply, dotProduct, Fin.sum_univ_three, Fin.sum_univ_six] <;>
  ring

theorem wf_eq (comp : Bool) (e : IcpPair) (i : Fin 6) : icpWF comp e i = e.w * icpF comp e i := by
  cases comp <;> fin_cases i <;> simp [icpWF, icpF] <;> ring

theorem cost_eq (comp : Bool) (l : List IcpPair) (x : Fin 6 → ℝ) :
    planeCost comp l (turnOf x) (shiftOf x) = (l.map fun e => e.w * (icpDot e + ∑ j, icpF comp e j * x j) ^ 2).sum := by
  unfold planeCost
  congr 1
  apply List.map_congr_left
  intro e _
  rw [residual_eq]

/-- The gradient of half the cost. -/
theorem gradient_eq (comp : Bool) (l : List IcpPair) (x : Fin 6 → ℝ) (i : Fin 6) :
    ∑ j, icpA comp l i j * x j - icpB comp l i =
    (l.map fun e => e.w * icpF comp e i * (icpDot e + ∑ j, icpF comp e j * x j)).sum := by
  unfold icpA icpB
  induction l with
  | nil => simp
  | cons e l ih =>
    simp only [List.map_cons, List.sum_cons] at ih ⊢
    rw [← ih]
    simp only [add_mul, Finset.sum_add_distrib, wf_eq]
    rw [mul_add, Finset.mul_sum]
    have : ∀ j, e.w * icpF comp e i * icpF comp e j * x j = e.w * icpF comp e i * (icpF comp e j * x j) := fun j => by ring
    simp only [this]
    ring

/-- The cost of another motion. -/
theorem cost_expand (comp : Bool) (l : List IcpPair) (x v : Fin 6 → ℝ) :
    planeCost comp l (turnOf (x + v)) (shiftOf (x + v)) = planeCost comp l (turnOf x) (shiftOf x) +
      2 * ∑ i, v i * (∑ j, icpA comp l i j * x j - icpB comp l i) +
      (l.map fun e => e.w * (∑ j, icpF comp e j * v j) ^ 2).sum := by
  rw [cost_eq, cost_eq]
  simp only [gradient_eq]
  induction l with
  | nil => simp
  | cons e l ih =>
    simp only [List.map_cons, List.sum_cons]
    rw [ih]
    simp only [mul_add, Finset.sum_add_distrib]
    have h1 : ∑ j, icpF comp e j * (x + v) j = ∑ j, icpF comp e j * x j + ∑ j, icpF comp e j * v j := by
      rw [← Finset.sum_add_distrib]
      apply Finset.sum_congr rfl
      intro j _
      rw [Pi.add_apply, mul_add]
    rw [h1]
    have h2 : ∑ i, v i * (e.w * icpF comp e i * icpDot e) = (∑ j, icpF comp e j * v j) * (e.w * icpDot e) := by
      rw [Finset.sum_mul]
      exact Finset.sum_congr rfl (fun i _ => by ring)
    have h3 : ∑ i, v i * (e.w * icpF comp e i * ∑ j, icpF comp e j * x j) =
        (∑ j, icpF comp e j * v j) * (e.w * ∑ j, icpF comp e j * x j) := by
      rw [Finset.sum_mul]
      exact Finset.sum_congr rfl (fun i _ => by ring)
    rw [h2, h3]
    ring

theorem square_nonneg (l : List IcpPair) (hw : ∀ e ∈ l, 0 ≤ e.w) (g : IcpPair → ℝ) : 0 ≤ (l.map fun e => e.w * g e ^ 2).sum := by
  apply List.sum_nonneg
  intro a ha
  obtain ⟨e, he, rfl⟩ := List.mem_map.1 ha
  exact mul_nonneg (hw e he) (sq_nonneg _)

/-- C68, least squares: six numbers solve the linear system of the code exactly if no other small motion
brings the points closer to their target planes. -/
theorem C68_minimises (comp : Bool) (l : List IcpPair) (hw : ∀ e ∈ l, 0 ≤ e.w) (x : Fin 6 → ℝ) :
    Solves (icpA comp l) (icpB comp l) x ↔
    ∀ r t, planeCost comp l (turnOf x) (shiftOf x) ≤ planeCost comp l r t := by
  constructor
  · intro h r t
    let y : Fin 6 → ℝ := ![r 0, r 1, r 2, t 0, t 1, t 2]
    have hr : turnOf y = r := by funext i; fin_cases i <;> rfl
    have ht : shiftOf y = t := by funext i; fin_cases i <;> rfl
    have he := cost_expand comp l x (y - x)
    rw [add_sub_cancel, hr, ht] at he
    have h0 : ∑ i, (y - x) i * (∑ j, icpA comp l i j * x j - icpB comp l i) = 0 := by
      apply Finset.sum_eq_zero
      intro i _
      rw [h i, sub_self, mul_zero]
    rw [he, h0]
    have := square_nonneg l hw (fun e => ∑ j, icpF comp e j * (y - x) j)
    linarith
  · intro h
    by_contra hc
    have hg : ∃ i, ∑ j, icpA comp l i j * x j - icpB comp l i ≠ 0 := by
      by_contra hn
      push Not at hn
      exact hc (fun i => sub_eq_zero.1 (hn i))
    let g : Fin 6 → ℝ := fun i => ∑ j, icpA comp l i j * x j - icpB comp l i
    have hG : 0 < ∑ i, g i * g i := by
      obtain ⟨i, hi⟩ := hg
      exact Finset.sum_pos' (fun i _ => mul_self_nonneg _) ⟨i, Finset.mem_univ _, mul_self_pos.2 hi⟩
    obtain ⟨G, hGe⟩ : ∃ G, G = ∑ i, g i * g i := ⟨_, rfl⟩
    obtain ⟨Q, hQe⟩ : ∃ Q, Q = (l.map fun e => e.w * (∑ j, icpF comp e j * g j) ^ 2).sum := ⟨_, rfl⟩
    have hQ : 0 ≤ Q := by rw [hQe]; exact square_nonneg l hw _
    rw [← hGe] at hG
    let s : ℝ := G / (Q + 1)
    have he := cost_expand comp l x (fun i => -s * g i)
    have h1 : ∑ i, (-s * g i) * (∑ j, icpA comp l i j * x j - icpB comp l i) = -s * G := by
      rw [hGe, Finset.mul_sum]
      exact Finset.sum_congr rfl (fun i _ => by show -s * g i * g i = -s * (g i * g i); ring)
    have h2 : (l.map fun e => e.w * (∑ j, icpF comp e j * (-s * g j)) ^ 2).sum = s ^ 2 * Q := by
      rw [hQe, ← List.sum_map_mul_left]
      congr 1
      apply List.map_congr_left
      intro e _
      have : ∑ j, icpF comp e j * (-s * g j) = -s * ∑ j, icpF comp e j * g j := by
        rw [Finset.mul_sum]
        exact Finset.sum_congr rfl (fun j _ => by ring)
      rw [this]
      ring
    rw [h1, h2] at he
    have hle := h (turnOf (x + fun i => -s * g i)) (shiftOf (x + fun i => -s * g i))
    rw [he] at hle
    have hs : s * (Q + 1) = G := div_mul_cancel₀ _ (by linarith)
    have hspos : 0 < s := div_pos hG (by linarith)
    nlinarith [mul_pos hspos hspos, mul_nonneg (le_of_lt (mul_pos hspos hspos)) hQ]

theorem quad_form (comp : Bool) (l : List IcpPair) (v : Fin 6 → ℝ) :
    ∑ i, v i * ∑ j, icpA comp l i j * v j = (l.map fun e => e.w * (∑ j, icpF comp e j * v j) ^ 2).sum := by
  unfold icpA
  induction l with
  | nil => simp
  | cons e l ih =>
    simp only [List.map_cons, List.sum_cons, add_mul, Finset.sum_add_distrib, mul_add]
    rw [ih]
    congr 1
    have : ∀ i, v i * ∑ j, icpWF comp e i * icpF comp e j * v j = icpF comp e i * v i * (e.w * ∑ j, icpF comp e j * v j) := by
      intro i
      rw [wf_eq, Finset.mul_sum, Finset.mul_sum, Finset.mul_sum]
      exact Finset.sum_congr rfl (fun j _ => by ring)
    simp only [this]
    rw [← Finset.sum_mul]
    ring

theorem rhs_form (comp : Bool) (l : List IcpPair) (v : Fin 6 → ℝ) :
    ∑ i, v i * icpB comp l i = -(l.map fun e => e.w * (∑ j, icpF comp e j * v j) * icpDot e).sum := by
  unfold icpB
  induction l with
  | nil => simp
  | cons e l ih =>
    simp only [List.map_cons, List.sum_cons, neg_add, mul_add, Finset.sum_add_distrib]
    rw [ih]
    congr 1
    rw [Finset.mul_sum, Finset.sum_mul, ← Finset.sum_neg_distrib]
    apply Finset.sum_congr rfl
    intro i _
    rw [wf_eq]
    ring

theorem rhs_kernel (comp : Bool) (l : List IcpPair) (hw : ∀ e ∈ l, 0 ≤ e.w) (v : Fin 6 → ℝ)
    (hv : ∀ i, ∑ j, icpA comp l i j * v j = 0) : ∑ i, v i * icpB comp l i = 0 := by
  have hq : (l.map fun e => e.w * (∑ j, icpF comp e j * v j) ^ 2).sum = 0 := by
    rw [← quad_form]
    simp [hv]
  have hz : ∀ e ∈ l, e.w * (∑ j, icpF comp e j * v j) = 0 := by
    intro e he
    have hall := (List.all_zero_of_le_zero_le_of_sum_eq_zero (l := l.map fun e => e.w * (∑ j, icpF comp e j * v j) ^ 2) (by
      intro a ha
      obtain ⟨e, he, rfl⟩ := List.mem_map.1 ha
      exact mul_nonneg (hw e he) (sq_nonneg _)) hq) (List.mem_map.2 ⟨e, he, rfl⟩)
    rcases mul_eq_zero.1 hall with h | h
    · rw [h, zero_mul]
    · rw [pow_eq_zero_iff (by norm_num)] at h
      rw [h, mul_zero]
  rw [rhs_form, neg_eq_zero]
  apply List.sum_eq_zero
  intro a ha
  obtain ⟨e, he, rfl⟩ := List.mem_map.1 ha
  rw [hz e he, zero_mul]

/-- C68, the system always has a solution. -/
theorem C68_solvable (comp : Bool) (l : List IcpPair) (hw : ∀ e ∈ l, 0 ≤ e.w) :
    ∃ x, Solves (icpA comp l) (icpB comp l) x := by
  let M : Matrix (Fin 6) (Fin 6) ℝ := Matrix.of (icpA comp l)
  have hsym : M.IsHermitian := by
    ext i j
    show (starRingEnd ℝ) (icpA comp l j i) = icpA comp l i j
    rw [conj_trivial]
    unfold icpA
    congr 1
    apply List.map_congr_left
    intro e _
    rw [wf_eq, wf_eq]
    ring
  have hS := Matrix.isSymmetric_toEuclideanLin_iff.2 hsym
  have hb : (WithLp.toLp 2 (icpB comp l) : EuclideanSpace ℝ (Fin 6)) ∈ LinearMap.range M.toEuclideanLin := by
    rw [← Submodule.orthogonal_orthogonal (LinearMap.range M.toEuclideanLin), hS.orthogonal_range, Submodule.mem_orthogonal]
    intro v hv
    rw [LinearMap.mem_ker] at hv
    have hv' : ∀ i, ∑ j, icpA comp l i j * v j = 0 := by
      intro i
      have := congrArg (fun z => z i) hv
      simpa [Matrix.toEuclideanLin, Matrix.mulVec, dotProduct, M] using this
    have := rhs_kernel comp l hw v hv'
    rw [EuclideanSpace.inner_eq_star_dotProduct]
    simp only [dotProduct, star_trivial]
    rw [← this]
    exact Finset.sum_congr rfl (fun i _ => by show icpB comp l i * v i = _; ring)
  obtain ⟨x, hx⟩ := hb
  refine ⟨x, fun i => ?_⟩
  have := congrArg (fun z => z i) hx
  simpa [Matrix.toEuclideanLin, Matrix.mulVec, dotProduct, M] using this

/-! ### the motion -/

theorem unit_sq (r : Fin 3 → ℝ) (h : norm3 r ≠ 0) :
    (r 0 / norm3 r) ^ 2 + (r 1 / norm3 r) ^ 2 + (r 2 / norm3 r) ^ 2 = 1 := by
  have hs : norm3 r ^ 2 = r 0 ^ 2 + r 1 ^ 2 + r 2 ^ 2 := Real.sq_sqrt (by positivity)
  field_simp
  linarith

theorem angleAxis_rotation (a : ℝ) (u : Fin 3 → ℝ) (hu : u 0 ^ 2 + u 1 ^ 2 + u 2 ^ 2 = 1) : IsRot3 (angleAxis a u) := by
  have hcs := Real.sin_sq_add_cos_sq a
  obtain ⟨c, hc⟩ : ∃ c, c = Real.cos a := ⟨_, rfl⟩
  obtain ⟨s, hs⟩ : ∃ s, s = Real.sin a := ⟨_, rfl⟩
  rw [← hc, ← hs] at hcs
  refine ⟨?_, ?_⟩
  · ext i j
    rw [Matrix.mul_apply, Fin.sum_univ_three]
    fin_cases i <;> fin_cases j <;> simp [angleAxis, ← hc, ← hs]
    · linear_combination (1 - u 0 * u 0) * hcs + (s ^ 2 + u 0 * u 0 * (1 - c) ^ 2) * hu
    · linear_combination (- u 0 * u 1) * hcs + (u 0 * u 1 * (1 - c) ^ 2) * hu
    · linear_combination (- u 0 * u 2) * hcs + (u 0 * u 2 * (1 - c) ^ 2) * hu
    · linear_combination (- u 0 * u 1) * hcs + (u 0 * u 1 * (1 - c) ^ 2) * hu
    · linear_combination (1 - u 1 * u 1) * hcs + (s ^ 2 + u 1 * u 1 * (1 - c) ^ 2) * hu
    · linear_combination (- u 1 * u 2) * hcs + (u 1 * u 2 * (1 - c) ^ 2) * hu
    · linear_combination (- u 0 * u 2) * hcs + (u 0 * u 2 * (1 - c) ^ 2) * hu
    · linear_combination (- u 1 * u 2) * hcs + (u 1 * u 2 * (1 - c) ^ 2) * hu
    · linear_combination (1 - u 2 * u 2) * hcs + (s ^ 2 + u 2 * u 2 * (1 - c) ^ 2) * hu
  · rw [Matrix.det_fin_three]
    simp [angleAxis, ← hc, ← hs]
    linear_combination hcs + ((1 - c) * (c ^ 2 + s ^ 2 * (u 0 ^ 2 + u 1 ^ 2 + u 2 ^ 2)) + s ^ 2) * hu

/-- How far a turned point is from the small motion: an exact expression. -/
theorem angleAxis_small (a : ℝ) (u p : Fin 3 → ℝ) (hu : u 0 ^ 2 + u 1 ^ 2 + u 2 ^ 2 = 1) :
    (∑ i, ((angleAxis a u).mulVec p i - p i - crossProduct (fun i => a * u i) p i) ^ 2) =
    ((1 - Real.cos a) ^ 2 + (Real.sin a - a) ^ 2) *
      ((p 0 ^ 2 + p 1 ^ 2 + p 2 ^ 2) - (u 0 * p 0 + u 1 * p 1 + u 2 * p 2) ^ 2) := by
  obtain ⟨c, hc⟩ : ∃ c, c = Real.cos a := ⟨_, rfl⟩
  obtain ⟨s, hs⟩ : ∃ s, s = Real.sin a := ⟨_, rfl⟩
  simp [angleAxis, Matrix.mulVec, dotProduct, Fin.sum_univ_three, cross_apply, ← hc, ← hs]
  linear_combination ((1 - c) ^ 2 * (u 0 * p 0 + u 1 * p 1 + u 2 * p 2) ^ 2 + (s - a) ^ 2 * (p 0 ^ 2 + p 1 ^ 2 + p 2 ^ 2)) * hu

theorem sin_near (a : ℝ) (ha : 0 ≤ a) : (1 - Real.cos a) ^ 2 + (Real.sin a - a) ^ 2 ≤ (a ^ 2) ^ 2 := by
  have h1 : 1 - Real.cos a ≤ a ^ 2 / 2 := by linarith [Real.one_sub_sq_div_two_le_cos (x := a)]
  have h2 : 0 ≤ 1 - Real.cos a := by linarith [Real.cos_le_one a]
  have h3 : Real.sin a ≤ a := Real.sin_le ha
  have h4 : a - Real.sin a ≤ a ^ 2 / 2 := by
    by_cases h' : a ≤ 3
    · have := Real.sin_ge_sub_cube ha
      nlinarith [mul_nonneg (sq_nonneg a) (sub_nonneg.2 h')]
    · have := Real.neg_one_le_sin a
      nlinarith
  have h5 : (1 - Real.cos a) ^ 2 ≤ (a ^ 2 / 2) ^ 2 := pow_le_pow_left₀ h2 h1 2
  have h6 : (a - Real.sin a) ^ 2 ≤ (a ^ 2 / 2) ^ 2 := pow_le_pow_left₀ (by linarith) h4 2
  nlinarith [sq_nonneg (a ^ 2)]

/-- C68, the step: with any solver that solves the system, the step is a rigid motion. Its translation and
its turn are the small motion that brings the points closest to their target planes, and it moves every point
as that small motion does, up to the square of the turn. -/
theorem C68_step (solve : (Fin 6 → Fin 6 → ℝ) → (Fin 6 → ℝ) → Fin 6 → ℝ) (comp : Bool) (l : List IcpPair)
    (hw : ∀ e ∈ l, 0 ≤ e.w) (hs : Solves (icpA comp l) (icpB comp l) (solve (icpA comp l) (icpB comp l))) :
    ∃ r t : Fin 3 → ℝ, (∀ r' t', planeCost comp l r t ≤ planeCost comp l r' t') ∧
      (pointToPlane solve comp l).2 = t ∧ IsRot3 (pointToPlane solve comp l).1 ∧
      ∀ p : Fin 3 → ℝ, ∑ i, (icpMove (pointToPlane solve comp l) p i - (p i + smallMotion r t p i)) ^ 2 ≤
        (∑ i, r i ^ 2) ^ 2 * ∑ i, p i ^ 2 := by
  obtain ⟨x, hx⟩ : ∃ x, x = solve (icpA comp l) (icpB comp l) := ⟨_, rfl⟩
  rw [← hx] at hs
  have hT : pointToPlane solve comp l = icpMotion x := by unfold pointToPlane; rw [hx]
  rw [hT]
  refine ⟨turnOf x, shiftOf x, (C68_minimises comp l hw x).1 hs, rfl, ?_, ?_⟩
  · unfold icpMotion
    dsimp only
    by_cases h0 : norm3 ![x 0, x 1, x 2] = 0
    · rw [if_pos h0]
      exact ⟨by simp, Matrix.det_one⟩
    · rw [if_neg h0]
      exact angleAxis_rotation _ _ (unit_sq _ h0)
  · intro p
    have hr2 : norm3 (turnOf x) ^ 2 = ∑ i, turnOf x i ^ 2 := by
      rw [Fin.sum_univ_three]
      exact Real.sq_sqrt (by positivity)
    have hd : ∀ i, icpMove (icpMotion x) p i - (p i + smallMotion (turnOf x) (shiftOf x) p i) =
        (icpMotion x).1.mulVec p i - p i - crossProduct (turnOf x) p i := by
      intro i
      show (icpMotion x).1.mulVec p i + shiftOf x i - (p i + (crossProduct (turnOf x) p i + shiftOf x i)) = _
      ring
    simp only [hd]
    by_cases h0 : norm3 (turnOf x) = 0
    · have hz : turnOf x = 0 := by
        have h1 : (turnOf x) 0 ^ 2 + (turnOf x) 1 ^ 2 + (turnOf x) 2 ^ 2 = 0 := by
          rw [← Fin.sum_univ_three (fun i => turnOf x i ^ 2), ← hr2, h0]; norm_num
        funext i
        fin_cases i
        · show turnOf x 0 = 0
          nlinarith [sq_nonneg (turnOf x 0), sq_nonneg (turnOf x 1), sq_nonneg (turnOf x 2)]
        · show turnOf x 1 = 0
          nlinarith [sq_nonneg (turnOf x 0), sq_nonneg (turnOf x 1), sq_nonneg (turnOf x 2)]
        · show turnOf x 2 = 0
          nlinarith [sq_nonneg (turnOf x 0), sq_nonneg (turnOf x 1), sq_nonneg (turnOf x 2)]
      have hR : (icpMotion x).1 = 1 := if_pos h0
      rw [hR, hz]
      simp
    · have hR : (icpMotion x).1 = angleAxis (norm3 (turnOf x)) (fun i => turnOf x i / norm3 (turnOf x)) := if_neg h0
      have hu := unit_sq (turnOf x) h0
      have hau : (fun i => norm3 (turnOf x) * (turnOf x i / norm3 (turnOf x))) = turnOf x := by
        funext i
        rw [mul_div_cancel₀ _ h0]
      have he := angleAxis_small (norm3 (turnOf x)) (fun i => turnOf x i / norm3 (turnOf x)) p hu
      rw [hau] at he
      rw [hR, he, ← hr2]
      have hn := sin_near (norm3 (turnOf x)) (Real.sqrt_nonneg _)
      rw [Fin.sum_univ_three]
      refine mul_le_mul hn ?_ ?_ (by positivity)
      · nlinarith [sq_nonneg (turnOf x 0 / norm3 (turnOf x) * p 0 + turnOf x 1 / norm3 (turnOf x) * p 1 + turnOf x 2 / norm3 (turnOf x) * p 2)]
      · -- Cauchy-Schwarz
        generalize turnOf x 0 / norm3 (turnOf x) = u0 at *
        generalize turnOf x 1 / norm3 (turnOf x) = u1 at *
        generalize turnOf x 2 / norm3 (turnOf x) = u2 at *
        have : p 0 ^ 2 + p 1 ^ 2 + p 2 ^ 2 - (u0 * p 0 + u1 * p 1 + u2 * p 2) ^ 2 =
            (u0 * p 1 - u1 * p 0) ^ 2 + (u1 * p 2 - u2 * p 1) ^ 2 + (u2 * p 0 - u0 * p 2) ^ 2 := by
          linear_combination -(p 0 ^ 2 + p 1 ^ 2 + p 2 ^ 2) * hu
        show 0 ≤ p 0 ^ 2 + p 1 ^ 2 + p 2 ^ 2 - (u0 * p 0 + u1 * p 1 + u2 * p 2) ^ 2
        rw [this]
        positivity

/-- C68, a shift is found at once: if every point is its target's place up to one and the same shift, and the
system has one solution only, then the step is that shift without a turn. -/
theorem C68_shift (solve : (Fin 6 → Fin 6 → ℝ) → (Fin 6 → ℝ) → Fin 6 → ℝ) (l : List IcpPair) (t : Fin 3 → ℝ)
    (hq : ∀ e ∈ l, ∀ i, e.q i = e.p i + t i)
    (hs : Solves (icpA false l) (icpB false l) (solve (icpA false l) (icpB false l)))
    (hu : ∀ x y, Solves (icpA false l) (icpB false l) x → Solves (icpA false l) (icpB false l) y → x = y) :
    pointToPlane solve false l = (1, t) ∧ ∀ e ∈ l, icpMove (pointToPlane solve false l) e.p = e.q := by
  have h1 : Solves (icpA false l) (icpB false l) ![0, 0, 0, t 0, t 1, t 2] := by
    intro i
    rw [← sub_eq_zero, gradient_eq]
    apply List.sum_eq_zero
    intro a ha
    obtain ⟨e, he, rfl⟩ := List.mem_map.1 ha
    have : icpDot e + ∑ j, icpF false e j * (![0, 0, 0, t 0, t 1, t 2] : Fin 6 → ℝ) j = 0 := by
      unfold icpDot icpF
      rw [hq e he, hq e he, hq e he]
      simp [Fin.sum_univ_six]
      ring
    rw [this, mul_zero]
  have hx := hu _ _ hs h1
  have hT : pointToPlane solve false l = (1, t) := by
    unfold pointToPlane
    rw [hx]
    unfold icpMotion
    have h0 : norm3 ![(![0, 0, 0, t 0, t 1, t 2] : Fin 6 → ℝ) 0, (![0, 0, 0, t 0, t 1, t 2] : Fin 6 → ℝ) 1,
        (![0, 0, 0, t 0, t 1, t 2] : Fin 6 → ℝ) 2] = 0 := by
      unfold norm3
      simp
    dsimp only
    rw [if_pos h0]
    congr 1
    funext i
    fin_cases i <;> rfl
  refine ⟨hT, fun e he => ?_⟩
  rw [hT]
  funext i
  unfold icpMove
  rw [Matrix.one_mulVec, hq e he i]

/-- Six points on three walls. -/
def walls (t : Fin 3 → ℝ) : List IcpPair :=
  [⟨![0, 0, 0], t, ![1, 0, 0], 1, 1⟩, ⟨![0, 1, 0], ![t 0, 1 + t 1, t 2], ![1, 0, 0], 1, 1⟩,
   ⟨![0, 0, 0], t, ![0, 1, 0], 1, 1⟩, ⟨![0, 0, 1], ![t 0, t 1, 1 + t 2], ![0, 1, 0], 1, 1⟩,
   ⟨![0, 0, 0], t, ![0, 0, 1], 1, 1⟩, ⟨![1, 0, 0], ![1 + t 0, t 1, t 2], ![0, 0, 1], 1, 1⟩]

/-- Non-vacuity: three walls fix the motion, so a shift is found. -/
example (t : Fin 3 → ℝ) : (∀ e ∈ walls t, 0 ≤ e.w) ∧ (∀ e ∈ walls t, ∀ i, e.q i = e.p i + t i) ∧
    ∀ x y, Solves (icpA false (walls t)) (icpB false (walls t)) x → Solves (icpA false (walls t)) (icpB false (walls t)) y → x = y := by
  refine ⟨?_, ?_, ?_⟩
  · intro e he
    simp only [walls, List.mem_cons, List.not_mem_nil, or_false] at he
    rcases he with rfl | rfl | rfl | rfl | rfl | rfl <;> norm_num
  · intro e he i
    simp only [walls, List.mem_cons, List.not_mem_nil, or_false] at he
    rcases he with rfl | rfl | rfl | rfl | rfl | rfl <;> fin_cases i <;> simp
  · intro x y hx hy
    have hz : ∀ i, ∑ j, icpA false (walls t) i j * (x - y) j = 0 := by
      intro i
      have := congrArg₂ (· - ·) (hx i) (hy i)
      simp only [sub_self] at this
      rw [← this, ← Finset.sum_sub_distrib]
      exact Finset.sum_congr rfl (fun j _ => by rw [Pi.sub_apply, mul_sub])
    have hq := quad_form false (walls t) (x - y)
    simp only [hz, mul_zero, Finset.sum_const_zero] at hq
    simp [walls, icpF, icpCross, Fin.sum_univ_six] at hq
    have z1 := sq_nonneg (x 3 - y 3)
    have z2 := sq_nonneg (y 2 - x 2 + (x 3 - y 3))
    have z3 := sq_nonneg (x 4 - y 4)
    have z4 := sq_nonneg (y 0 - x 0 + (x 4 - y 4))
    have z5 := sq_nonneg (x 5 - y 5)
    have z6 := sq_nonneg (y 1 - x 1 + (x 5 - y 5))
    have e3 : x 3 - y 3 = 0 := pow_eq_zero_iff (two_ne_zero) |>.1 (by linarith)
    have e2 : y 2 - x 2 + (x 3 - y 3) = 0 := pow_eq_zero_iff (two_ne_zero) |>.1 (by linarith)
    have e4 : x 4 - y 4 = 0 := pow_eq_zero_iff (two_ne_zero) |>.1 (by linarith)
    have e0 : y 0 - x 0 + (x 4 - y 4) = 0 := pow_eq_zero_iff (two_ne_zero) |>.1 (by linarith)
    have e5 : x 5 - y 5 = 0 := pow_eq_zero_iff (two_ne_zero) |>.1 (by linarith)
    have e1 : y 1 - x 1 + (x 5 - y 5) = 0 := pow_eq_zero_iff (two_ne_zero) |>.1 (by linarith)
    funext i
    fin_cases i
    · show x 0 = y 0; linarith
    · show x 1 = y 1; linarith
    · show x 2 = y 2; linarith
    · show x 3 = y 3; linarith
    · show x 4 = y 4; linarith
    · show x 5 = y 5; linarith

end Verif
