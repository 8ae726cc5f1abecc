import Verif.Proofs.MathHelpers
import Mathlib.Analysis.SpecialFunctions.Trigonometric.Basic
/-!
C83: the geometric helper functions compute what they are named for.
-/
namespace Verif
open Spec

/-- Clamping to a range that is not empty gives the nearest value of the range. -/
theorem C83_clamp {R : Type} [LinearOrder R] (v lo hi : R) (h : lo ≤ hi) :
    lo ≤ clampTo v lo hi ∧ clampTo v lo hi ≤ hi ∧ (lo ≤ v → v ≤ hi → clampTo v lo hi = v) ∧
      (v < lo → clampTo v lo hi = lo) ∧ (hi < v → clampTo v lo hi = hi) := by
  unfold clampTo
  split
  · next h1 =>
    exact ⟨h, le_refl _, fun _ h2 => absurd h1 (not_lt.mpr h2),
      fun h2 => absurd (lt_trans h1 h2) (not_lt.mpr h), fun _ => rfl⟩
  · next h1 =>
    split
    · next h2 =>
      exact ⟨le_refl _, h, fun h3 => absurd h2 (not_lt.mpr h3), fun _ => rfl, fun h3 => absurd h3 h1⟩
    · next h2 =>
      exact ⟨not_lt.mp h2, not_lt.mp h1, fun _ _ => rfl, fun h3 => absurd h3 h2,
        fun h3 => absurd h3 h1⟩

example : (1 : Rat) ≤ 3 ∧ clampTo (5 : Rat) 1 3 = 3 := by decide +kernel

/-- `Power` is the power for exponents that are not negative. -/
theorem C83_power_partial {R : Type} [Monoid R] (b : R) (n : Nat) : powerOf b (n : Int) = .ok (b ^ n) := by
  have h : ∀ k, powerRec b k = b ^ k := by
    intro k
    induction k with
    | zero => simp [powerRec]
    | succ k ih => rw [powerRec, ih, pow_succ']
  unfold powerOf
  rw [if_neg (by omega)]
  simp [h]

example : powerOf (3 : Int) 4 = .ok 81 := by decide

/-- A negative exponent is undefined. -/
theorem C83_power_fails : powerOf (2 : Rat) (-1) = .ub := by decide +kernel

/-- With exact numbers the normalised angle is found after finitely many rounds, lies in [-π, π] and
differs from the argument by whole turns. -/
theorem C83_angle_partial (x : ℝ) :
    ∃ (rounds : Nat) (k : Int) (y : ℝ),
      (∀ fuel, rounds < fuel → normalizeAngle Real.pi (fun a => a - 2 * Real.pi)
        (fun a => a + 2 * Real.pi) fuel x = some y) ∧
      -Real.pi ≤ y ∧ y ≤ Real.pi ∧ y = x + k * (2 * Real.pi) := by
  have hpi := Real.pi_pos
  obtain ⟨n, hn⟩ := exists_nat_ge ((x - Real.pi) / (2 * Real.pi))
  obtain ⟨m, hm⟩ := exists_nat_ge ((-Real.pi - x) / (2 * Real.pi))
  rw [div_le_iff₀ (by linarith)] at hn hm
  obtain ⟨k, y, h1, h2, h3, h4, h5⟩ := angleDown_ends Real.pi hpi n x (by linarith)
  obtain ⟨j, z, g1, g2, g3, g4⟩ := angleUp_ends Real.pi hpi m y (by
    by_cases hc : x ≤ Real.pi
    · rw [h3 hc]; linarith
    · have := h4 (not_le.mp hc)
      have hm0 : (0 : ℝ) ≤ m * (2 * Real.pi) := by positivity
      linarith) h2
  refine ⟨max n m, (j : Int) - k, z, ?_, g2, g3, ?_⟩
  · intro fuel hf
    have hf1 : n < fuel := lt_of_le_of_lt (le_max_left _ _) hf
    have hf2 : m < fuel := lt_of_le_of_lt (le_max_right _ _) hf
    simp [normalizeAngle, h1 fuel hf1, g1 fuel hf2]
  · rw [g4, h5]; push_cast; ring

/-- The number `M_PI` and the number `float(2. * M_PI)` (two times the single precision π). -/
def mPi : Rat := 884279719003555 / 281474976710656
def floatTwoPi : Rat := 13176795 / 2097152

/-- In single precision the result can be greater than π: the loops turn the single precision π into
its negative and back. All numbers that occur are single precision numbers, so nothing is rounded. -/
theorem C83_angle_float_fails :
    normalizeAngle mPi (fun a => a - floatTwoPi) (fun a => a + floatTwoPi) 3 (floatTwoPi / 2) =
      some (floatTwoPi / 2) ∧ mPi < floatTwoPi / 2 := by
  constructor
  · decide +kernel
  · decide +kernel

/-- Rounding to the nearest multiple of 16, as double precision does between 2^56 and 2^57. -/
def grid16 (x : Rat) : Rat := 16 * ((⌊x / 16 + 1 / 2⌋ : Int) : Rat)

/-- In double precision the loop does not end for a large angle: subtracting a turn changes nothing. -/
theorem C83_angle_loop_fails (fuel : Nat) :
    normalizeAngle mPi (fun a => grid16 (a - 2 * mPi)) (fun a => grid16 (a + 2 * mPi)) fuel
      (2 ^ 56 + 2 ^ 5) = none := by
  have h : angleDown mPi (fun a => grid16 (a - 2 * mPi)) fuel (2 ^ 56 + 2 ^ 5) = none := by
    induction fuel with
    | zero => rfl
    | succ n ih =>
      simp only [angleDown]
      rw [if_pos (by decide +kernel)]
      have : grid16 (2 ^ 56 + 2 ^ 5 - 2 * mPi) = 2 ^ 56 + 2 ^ 5 := by decide +kernel
      rw [this]
      exact ih
  simp [normalizeAngle, h]

variable {n : Nat}

/-- The distance to a line is right exactly for a direction of length one or zero, or for a point
straight beside the origin; otherwise it is too large. -/
theorem C83_line_iff (p o d : EuclideanSpace ℝ (Fin n)) :
    Metric.infDist p (lineAlong o d) ≤ distanceToLine p o d ∧
      (distanceToLine p o d = Metric.infDist p (lineAlong o d) ↔
        ‖d‖ = 1 ∨ (inner ℝ (p - o) d : ℝ) = 0) := by
  by_cases hd : d = 0
  · subst hd
    refine ⟨le_of_eq (distanceToLine_zero p o).symm, fun _ => Or.inr (inner_zero_right _),
      fun _ => distanceToLine_zero p o⟩
  · have hd' : 0 < ‖d‖ := norm_pos_iff.mpr hd
    have h1 := distanceToLine_sq p o d hd'
    have h2 := infDist_line_sq p o d hd'
    have hn1 : 0 ≤ distanceToLine p o d := norm_nonneg _
    have hn2 : 0 ≤ Metric.infDist p (lineAlong o d) := Metric.infDist_nonneg
    have hdiff : distanceToLine p o d ^ 2 - Metric.infDist p (lineAlong o d) ^ 2 =
        ((inner ℝ (p - o) d : ℝ) * (1 - ‖d‖⁻¹)) ^ 2 := by
      rw [h1, h2]; ring
    constructor
    · apply le_of_sq_le_sq _ hn1
      nlinarith [sq_nonneg ((inner ℝ (p - o) d : ℝ) * (1 - ‖d‖⁻¹))]
    · constructor
      · intro h
        rw [h, sub_self] at hdiff
        have h0 := pow_eq_zero_iff (two_ne_zero) |>.mp hdiff.symm
        rcases mul_eq_zero.mp h0 with h3 | h3
        · exact Or.inr h3
        · left
          have : ‖d‖⁻¹ = 1 := by linarith
          exact inv_eq_one.mp this
      · intro h
        have h0 : ((inner ℝ (p - o) d : ℝ) * (1 - ‖d‖⁻¹)) ^ 2 = 0 := by
          rcases h with h | h <;> rw [h] <;> simp
        rw [h0] at hdiff
        exact (sq_eq_sq₀ hn1 hn2).mp (by linarith)

/-- A direction of length two: the origin itself is far from its line, says the function, for a point
on the line. -/
theorem C83_line_fails : ∃ p o d : EuclideanSpace ℝ (Fin 2),
    p ∈ lineAlong o d ∧ distanceToLine p o d = 2 := by
  refine ⟨EuclideanSpace.single 0 2, 0, EuclideanSpace.single 0 2, ⟨1, by simp⟩, ?_⟩
  have hn : ‖(EuclideanSpace.single 0 2 : EuclideanSpace ℝ (Fin 2))‖ = 2 := by simp
  have h := distanceToLine_sq (EuclideanSpace.single 0 2) 0
    (EuclideanSpace.single 0 2 : EuclideanSpace ℝ (Fin 2)) (by rw [hn]; norm_num)
  rw [sub_zero, real_inner_self_eq_norm_sq, hn] at h
  have h0 : 0 ≤ distanceToLine (EuclideanSpace.single 0 2) 0
    (EuclideanSpace.single 0 2 : EuclideanSpace ℝ (Fin 2)) := norm_nonneg _
  nlinarith

/-- Instance: a unit direction. -/
example : ‖(EuclideanSpace.single 0 1 : EuclideanSpace ℝ (Fin 2))‖ = 1 := by simp

/-- The fitted plane is a best one: its normal has length one, and no plane has a smaller sum of
squared distances from the points. -/
theorem C83_plane (svdU : List (Fin 3 → ℝ) → Matrix (Fin 3) (Fin 3) ℝ)
    (ps : List (Fin 3 → ℝ)) (h2 : 2 ≤ ps.length)
    (hsvd : IsLeftSingular (ps.map fun p => p - fitCentroid ps)
      (svdU (ps.map fun p => p - fitCentroid ps))) :
    ∃ c m, planeFitting svdU ps = some (c, m) ∧ dotProduct m m = 1 ∧
      ∀ c' m' : Fin 3 → ℝ, dotProduct m' m' = 1 → planeError c m ps ≤ planeError c' m' ps := by
  have hne : ps ≠ [] := by rintro rfl; simp at h2
  obtain ⟨ho, l, hl1, hl2, hS⟩ := hsvd
  set u := svdU (ps.map fun p => p - fitCentroid ps) with hu
  have hc : ∀ i j, (u.transpose * u) i j = (1 : Matrix (Fin 3) (Fin 3) ℝ) i j := by
    intro i j; rw [ho]
  have hm : u.transpose.mulVec (fun i => u i 2) = fun j => if j = 2 then 1 else 0 := by
    funext j
    have := hc j 2
    rw [Matrix.mul_apply] at this
    simp only [Matrix.mulVec, dotProduct]
    rw [this, Matrix.one_apply]
  have hm1 : dotProduct (fun i => u i 2) (fun i => u i 2) = 1 := by
    have := hc 2 2
    rw [Matrix.mul_apply, Matrix.one_apply_eq] at this
    simpa [dotProduct] using this
  refine ⟨fitCentroid ps, fun i => u i 2, ?_, hm1, ?_⟩
  · unfold planeFitting
    rw [if_neg (by omega)]
  · intro c' m' hm'
    have e1 : planeError (fitCentroid ps) (fun i => u i 2) ps = l 2 := by
      rw [planeError_quadratic, hS, quadratic_diag, hm]
      simp
    have e2 : l 2 ≤ planeError (fitCentroid ps) m' ps := by
      rw [planeError_quadratic, hS, quadratic_diag]
      have hn := norm_transpose u ho m'
      rw [hm'] at hn
      have s0 := sq_nonneg (u.transpose.mulVec m' 0)
      have s1 := sq_nonneg (u.transpose.mulVec m' 1)
      have s2 := sq_nonneg (u.transpose.mulVec m' 2)
      have e : l 2 = l 2 * ((u.transpose.mulVec m' 0) ^ 2 + (u.transpose.mulVec m' 1) ^ 2 +
        (u.transpose.mulVec m' 2) ^ 2) := by rw [hn, mul_one]
      have t1 := mul_nonneg (sub_nonneg.mpr hl2) s1
      have t0 := mul_nonneg (sub_nonneg.mpr (hl2.trans hl1)) s0
      linarith [mul_comm (l 2) ((u.transpose.mulVec m' 0) ^ 2)]
    have e3 := planeError_shift m' c' (fitCentroid ps) ps
    rw [sum_dot_zero m' ps hne, mul_zero, add_zero] at e3
    rw [e1, e3]
    have : 0 ≤ (ps.length : ℝ) * dotProduct m' (fitCentroid ps - c') ^ 2 := by positivity
    linarith

/-- Fewer than two points give no plane. -/
theorem C83_plane_few (svdU : List (Fin 3 → ℝ) → Matrix (Fin 3) (Fin 3) ℝ)
    (ps : List (Fin 3 → ℝ)) : planeFitting svdU ps = none ↔ ps.length < 2 := by
  unfold planeFitting
  split <;> simp_all

/-- Instance of the hypothesis: points on the first axis. -/
example : IsLeftSingular ([![2, 0, 0], ![0, 0, 0]].map fun p =>
    p - fitCentroid [![2, 0, 0], ![0, 0, 0]]) 1 := by
  have h : ([![2, 0, 0], ![0, 0, 0]].map fun p => p - fitCentroid [![2, 0, 0], ![0, 0, 0]]) =
      [![1, 0, 0], ![-1, 0, 0]] := by
    simp only [List.map_cons, List.map_nil, List.cons.injEq, and_true]
    constructor <;> funext i <;> fin_cases i <;> simp [fitCentroid] <;> norm_num
  rw [h]
  refine ⟨by simp, ![2, 0, 0], by simp, by simp, ?_⟩
  ext i j
  fin_cases i <;> fin_cases j <;> simp <;> norm_num

end Verif
