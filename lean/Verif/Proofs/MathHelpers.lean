import Mathlib.Algebra.Order.Archimedean.Basic
import Mathlib.Tactic.LinearCombination
import Mathlib.Tactic.Linarith
import Mathlib.Tactic.FieldSimp
import Mathlib.Tactic.Module
import Verif.Spec.MathHelpers
/-! Lemmas for `Verif.Props.MathHelpers`. -/
namespace Verif
open Spec

section
variable {R : Type} [Field R] [LinearOrder R] [IsStrictOrderedRing R]

theorem angleDown_ends (pi : R) (hpi : 0 < pi) (n : Nat) (x : R) (hx : x ≤ pi + n * (2 * pi)) :
    ∃ (k : Nat) (y : R), (∀ fuel, n < fuel → angleDown pi (fun x => x - 2 * pi) fuel x = some y) ∧
      y ≤ pi ∧ (x ≤ pi → y = x) ∧ (pi < x → -pi < y) ∧ y = x - k * (2 * pi) := by
  induction n generalizing x with
  | zero =>
    simp only [Nat.cast_zero, zero_mul, add_zero] at hx
    refine ⟨0, x, ?_, hx, fun _ => rfl, fun h => absurd hx (not_le.mpr h), by simp⟩
    intro fuel hf
    cases fuel with
    | zero => omega
    | succ f => simp only [angleDown]; rw [if_neg (not_lt.mpr hx)]
  | succ n ih =>
    by_cases h : pi < x
    · obtain ⟨k, y, h1, h2, h3, h4, h5⟩ := ih (x - 2 * pi) (by push_cast at hx; linarith)
      refine ⟨k + 1, y, ?_, h2, fun h' => absurd h (not_lt.mpr h'), ?_, ?_⟩
      · intro fuel hf
        cases fuel with
        | zero => omega
        | succ f => simp only [angleDown]; rw [if_pos h]; exact h1 f (by omega)
      · intro _
        by_cases h' : pi < x - 2 * pi
        · exact h4 h'
        · rw [h3 (not_lt.mp h')]; linarith
      · rw [h5]; push_cast; ring
    · have h' := not_lt.mp h
      refine ⟨0, x, ?_, h', fun _ => rfl, fun h'' => absurd h'' h, by simp⟩
      intro fuel hf
      cases fuel with
      | zero => omega
      | succ f => simp only [angleDown]; rw [if_neg h]

theorem angleUp_ends (pi : R) (hpi : 0 < pi) (n : Nat) (x : R) (hx : -pi - n * (2 * pi) ≤ x)
    (hle : x ≤ pi) :
    ∃ (k : Nat) (y : R), (∀ fuel, n < fuel → angleUp pi (fun x => x + 2 * pi) fuel x = some y) ∧
      -pi ≤ y ∧ y ≤ pi ∧ y = x + k * (2 * pi) := by
  induction n generalizing x with
  | zero =>
    simp only [Nat.cast_zero, zero_mul, sub_zero] at hx
    refine ⟨0, x, ?_, hx, hle, by simp⟩
    intro fuel hf
    cases fuel with
    | zero => omega
    | succ f => simp only [angleUp]; rw [if_neg (not_lt.mpr hx)]
  | succ n ih =>
    by_cases h : x < -pi
    · obtain ⟨k, y, h1, h2, h3, h4⟩ := ih (x + 2 * pi) (by push_cast at hx; linarith) (by linarith)
      refine ⟨k + 1, y, ?_, h2, h3, ?_⟩
      · intro fuel hf
        cases fuel with
        | zero => omega
        | succ f => simp only [angleUp]; rw [if_pos h]; exact h1 f (by omega)
      · rw [h4]; push_cast; ring
    · refine ⟨0, x, ?_, not_lt.mp h, hle, by simp⟩
      intro fuel hf
      cases fuel with
      | zero => omega
      | succ f => simp only [angleUp]; rw [if_neg h]

end

section
variable {n : Nat}

/-- The squared distance computed, with s the product and m the length of the direction. -/
theorem distanceToLine_sq (p o d : EuclideanSpace ℝ (Fin n)) (hd : 0 < ‖d‖) :
    distanceToLine p o d ^ 2 =
      (inner ℝ (p - o) d : ℝ) ^ 2 - 2 * (inner ℝ (p - o) d : ℝ) ^ 2 * ‖d‖⁻¹ + ‖p - o‖ ^ 2 := by
  simp only [distanceToLine, unitOf]
  rw [if_pos hd, norm_sub_sq_real, norm_smul, norm_smul, norm_inv, norm_norm, inv_mul_cancel₀ hd.ne']
  rw [real_inner_smul_left, real_inner_smul_left, real_inner_comm, Real.norm_eq_abs, mul_one, sq_abs]
  ring

theorem infDist_line_sq (p o d : EuclideanSpace ℝ (Fin n)) (hd : 0 < ‖d‖) :
    Metric.infDist p (lineAlong o d) ^ 2 =
      ‖p - o‖ ^ 2 - (inner ℝ (p - o) d : ℝ) ^ 2 * (‖d‖⁻¹) ^ 2 := by
  set s : ℝ := inner ℝ (p - o) d with hs
  have hn : (lineAlong o d).Nonempty := ⟨_, ⟨0, rfl⟩⟩
  have key : ∀ t : ℝ, dist p (o + t • d) ^ 2 =
      ‖p - o‖ ^ 2 - s ^ 2 * (‖d‖⁻¹) ^ 2 + (t * ‖d‖ - s * ‖d‖⁻¹) ^ 2 := by
    intro t
    rw [dist_eq_norm, show p - (o + t • d) = (p - o) - t • d by module, norm_sub_sq_real,
      real_inner_smul_right, ← hs, norm_smul, Real.norm_eq_abs, mul_pow, sq_abs]
    have := mul_inv_cancel₀ hd.ne'
    linear_combination (2 * t * s) * this
  have hmem : o + (s * ‖d‖⁻¹ * ‖d‖⁻¹) • d ∈ lineAlong o d := ⟨_, rfl⟩
  have h0 : dist p (o + (s * ‖d‖⁻¹ * ‖d‖⁻¹) • d) ^ 2 = ‖p - o‖ ^ 2 - s ^ 2 * (‖d‖⁻¹) ^ 2 := by
    rw [key]
    have := mul_inv_cancel₀ hd.ne'
    have e : s * ‖d‖⁻¹ * ‖d‖⁻¹ * ‖d‖ - s * ‖d‖⁻¹ = 0 := by linear_combination (s * ‖d‖⁻¹) * this
    rw [e]; ring
  have : Metric.infDist p (lineAlong o d) = dist p (o + (s * ‖d‖⁻¹ * ‖d‖⁻¹) • d) := by
    apply le_antisymm
    · exact Metric.infDist_le_dist_of_mem hmem
    · rw [Metric.le_infDist hn]
      rintro y ⟨t, rfl⟩
      apply le_of_sq_le_sq _ dist_nonneg
      rw [h0, key]
      nlinarith [sq_nonneg (t * ‖d‖ - s * ‖d‖⁻¹)]
  rw [this, h0]

theorem distanceToLine_zero (p o : EuclideanSpace ℝ (Fin n)) :
    distanceToLine p o 0 = Metric.infDist p (lineAlong o 0) := by
  have : lineAlong o (0 : EuclideanSpace ℝ (Fin n)) = {o} := by
    ext y
    simp [lineAlong, eq_comm]
  rw [this, Metric.infDist_singleton]
  simp [distanceToLine, dist_eq_norm, norm_sub_rev]

end

theorem planeError_shift (n c m : Fin 3 → ℝ) (ps : List (Fin 3 → ℝ)) :
    planeError c n ps = planeError m n ps +
      2 * dotProduct n (m - c) * (ps.map fun p => dotProduct n (p - m)).sum +
      ps.length * dotProduct n (m - c) ^ 2 := by
  induction ps with
  | nil => simp [planeError]
  | cons p ps ih =>
    simp only [planeError, List.map_cons, List.sum_cons, List.length_cons, Nat.cast_succ] at *
    rw [ih]
    simp only [dotProduct, Fin.sum_univ_three, Pi.sub_apply]
    ring

theorem sum_dot_centroid (n m : Fin 3 → ℝ) (ps : List (Fin 3 → ℝ)) :
    (ps.map fun p => dotProduct n (p - m)).sum =
      n 0 * ((ps.map (· 0)).sum - ps.length * m 0) + n 1 * ((ps.map (· 1)).sum - ps.length * m 1) +
        n 2 * ((ps.map (· 2)).sum - ps.length * m 2) := by
  induction ps with
  | nil => simp
  | cons p ps ih =>
    simp only [List.map_cons, List.sum_cons, List.length_cons, Nat.cast_succ]
    rw [ih]
    simp only [dotProduct, Fin.sum_univ_three, Pi.sub_apply]
    ring

theorem sum_dot_zero (n : Fin 3 → ℝ) (ps : List (Fin 3 → ℝ)) (h : ps ≠ []) :
    (ps.map fun p => dotProduct n (p - fitCentroid ps)).sum = 0 := by
  rw [sum_dot_centroid]
  have hl : (ps.length : ℝ) ≠ 0 := by
    intro h0
    exact h (List.length_eq_zero_iff.mp (by exact_mod_cast h0))
  have e : ∀ i, (ps.length : ℝ) * fitCentroid ps i = (ps.map (· i)).sum := by
    intro i
    simp only [fitCentroid]
    field_simp
  rw [e, e, e]
  ring

theorem planeError_quadratic (n m : Fin 3 → ℝ) (ps : List (Fin 3 → ℝ)) :
    planeError m n ps = dotProduct n ((Matrix.of fun i j =>
      ((ps.map fun p => p - m).map fun p => p i * p j).sum).mulVec n) := by
  induction ps with
  | nil => simp [planeError, Matrix.mulVec, dotProduct]
  | cons p ps ih =>
    simp only [planeError, List.map_cons, List.sum_cons, Matrix.mulVec, dotProduct,
      Fin.sum_univ_three, Matrix.of_apply, Pi.sub_apply] at *
    rw [ih]
    ring

theorem quadratic_diag (u : Matrix (Fin 3) (Fin 3) ℝ) (l n : Fin 3 → ℝ) :
    dotProduct n ((u * Matrix.diagonal l * u.transpose).mulVec n) =
      l 0 * (u.transpose.mulVec n 0) ^ 2 + l 1 * (u.transpose.mulVec n 1) ^ 2 +
        l 2 * (u.transpose.mulVec n 2) ^ 2 := by
  simp only [Matrix.mulVec, dotProduct, Fin.sum_univ_three, Matrix.mul_apply, Matrix.diagonal,
    Matrix.transpose_apply, Matrix.of_apply]
  simp
  ring

theorem norm_transpose (u : Matrix (Fin 3) (Fin 3) ℝ) (h : u.transpose * u = 1) (n : Fin 3 → ℝ) :
    (u.transpose.mulVec n 0) ^ 2 + (u.transpose.mulVec n 1) ^ 2 + (u.transpose.mulVec n 2) ^ 2 =
      dotProduct n n := by
  have h' : u * u.transpose = 1 := mul_eq_one_comm.mp h
  have e : dotProduct (u.transpose.mulVec n) (u.transpose.mulVec n) = dotProduct n n := by
    rw [Matrix.dotProduct_mulVec, Matrix.vecMul_mulVec, Matrix.transpose_transpose]
    rw [h', Matrix.vecMul_one]
  rw [← e]
  simp only [dotProduct, Fin.sum_univ_three]
  ring

end Verif
