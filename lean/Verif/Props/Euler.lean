import Verif.Spec.Euler
import Mathlib.LinearAlgebra.Matrix.Adjugate
import Mathlib.Tactic.LinearCombination
import Mathlib.Tactic.Linarith
import Mathlib.Tactic.FinCases
import Mathlib.Tactic.FieldSimp
import Mathlib.Tactic.NormNum
import Mathlib.Analysis.Real.Pi.Bounds
/-! Property theorems C63 (Euler angles) and C64 (average of transforms). -/
namespace Verif
open Spec

/-- The rotation of three angles, written out. -/
theorem rot_product (x y z : ℝ) : rotZ z * rotY y * rotX x =
    !![Real.cos z * Real.cos y,
       Real.cos z * Real.sin y * Real.sin x - Real.sin z * Real.cos x,
       Real.cos z * Real.sin y * Real.cos x + Real.sin z * Real.sin x;
       Real.sin z * Real.cos y,
       Real.sin z * Real.sin y * Real.sin x + Real.cos z * Real.cos x,
       Real.sin z * Real.sin y * Real.cos x - Real.cos z * Real.sin x;
       -Real.sin y, Real.cos y * Real.sin x, Real.cos y * Real.cos x] := by
  unfold rotZ rotY rotX
  ext i j
  fin_cases i <;> fin_cases j <;> simp [Matrix.mul_apply, Fin.sum_univ_succ] <;> ring

theorem mat3_ext {A B : Mat3} (h00 : A 0 0 = B 0 0) (h01 : A 0 1 = B 0 1) (h02 : A 0 2 = B 0 2)
    (h10 : A 1 0 = B 1 0) (h11 : A 1 1 = B 1 1) (h12 : A 1 2 = B 1 2)
    (h20 : A 2 0 = B 2 0) (h21 : A 2 1 = B 2 1) (h22 : A 2 2 = B 2 2) : A = B := by
  ext i j
  fin_cases i <;> fin_cases j <;> assumption

theorem quat_poly (a b c d f g : ℝ) (ha : b ^ 2 + a ^ 2 = 1) (hc : d ^ 2 + c ^ 2 = 1) (hf : g ^ 2 + f ^ 2 = 1) :
    (Quat.mul (Quat.mul ⟨f, 0, 0, g⟩ ⟨c, 0, d, 0⟩) ⟨a, b, 0, 0⟩).toMat =
    !![(f ^ 2 - g ^ 2) * (c ^ 2 - d ^ 2),
       (f ^ 2 - g ^ 2) * (2 * d * c) * (2 * b * a) - (2 * g * f) * (a ^ 2 - b ^ 2),
       (f ^ 2 - g ^ 2) * (2 * d * c) * (a ^ 2 - b ^ 2) + (2 * g * f) * (2 * b * a);
       (2 * g * f) * (c ^ 2 - d ^ 2),
       (2 * g * f) * (2 * d * c) * (2 * b * a) + (f ^ 2 - g ^ 2) * (a ^ 2 - b ^ 2),
       (2 * g * f) * (2 * d * c) * (a ^ 2 - b ^ 2) - (f ^ 2 - g ^ 2) * (2 * b * a);
       -(2 * d * c), (c ^ 2 - d ^ 2) * (2 * b * a), (c ^ 2 - d ^ 2) * (a ^ 2 - b ^ 2)] := by
  have ha' : a ^ 2 = 1 - b ^ 2 := by linarith
  have hc' : c ^ 2 = 1 - d ^ 2 := by linarith
  have hf' : f ^ 2 = 1 - g ^ 2 := by linarith
  unfold Quat.toMat Quat.mul
  apply mat3_ext <;> simp only [Matrix.of_apply, Matrix.cons_val', Matrix.cons_val, Matrix.cons_val_zero,
    Matrix.cons_val_one] <;> ring_nf <;> simp only [ha', hc', hf'] <;> ring_nf

theorem half_cos (a : ℝ) : Real.cos a = Real.cos (a / 2) ^ 2 - Real.sin (a / 2) ^ 2 := by
  have := Real.cos_two_mul' (a / 2)
  rwa [mul_div_cancel₀ _ (two_ne_zero)] at this

theorem half_sin (a : ℝ) : Real.sin a = 2 * Real.sin (a / 2) * Real.cos (a / 2) := by
  have := Real.sin_two_mul (a / 2)
  rwa [mul_div_cancel₀ _ (two_ne_zero)] at this

/-- C63, the meaning of the angles: roll about x, then pitch about y, then yaw about z. -/
theorem C63_meaning (e : Euler) : fromEuler e = rotZ e.z * rotY e.y * rotX e.x := by
  rw [rot_product, half_cos e.x, half_cos e.y, half_cos e.z, half_sin e.x, half_sin e.y, half_sin e.z]
  exact quat_poly _ _ _ _ _ _ (Real.sin_sq_add_cos_sq _) (Real.sin_sq_add_cos_sq _) (Real.sin_sq_add_cos_sq _)

/-- What is known of the entries of a rotation. -/
structure RotEq (R : Mat3) : Prop where
  c0 : R 0 0 ^ 2 + R 1 0 ^ 2 + R 2 0 ^ 2 = 1
  c1 : R 0 1 ^ 2 + R 1 1 ^ 2 + R 2 1 ^ 2 = 1
  c2 : R 0 2 ^ 2 + R 1 2 ^ 2 + R 2 2 ^ 2 = 1
  r1 : R 1 0 ^ 2 + R 1 1 ^ 2 + R 1 2 ^ 2 = 1
  r2 : R 2 0 ^ 2 + R 2 1 ^ 2 + R 2 2 ^ 2 = 1
  c01 : R 0 0 * R 0 1 + R 1 0 * R 1 1 + R 2 0 * R 2 1 = 0
  c02 : R 0 0 * R 0 2 + R 1 0 * R 1 2 + R 2 0 * R 2 2 = 0
  k01 : R 0 1 = R 1 2 * R 2 0 - R 1 0 * R 2 2
  k02 : R 0 2 = R 1 0 * R 2 1 - R 1 1 * R 2 0
  k11 : R 1 1 = R 0 0 * R 2 2 - R 0 2 * R 2 0
  k12 : R 1 2 = R 0 1 * R 2 0 - R 0 0 * R 2 1
  k21 : R 2 1 = R 0 2 * R 1 0 - R 0 0 * R 1 2
  k22 : R 2 2 = R 0 0 * R 1 1 - R 0 1 * R 1 0

theorem rotEq {R : Mat3} (h : IsRot3 R) : RotEq R := by
  obtain ⟨h1, h2⟩ := h
  have h3 : R * R.transpose = 1 := mul_eq_one_comm.1 h1
  have hadj : R.transpose = R.adjugate := by
    have : R.adjugate * R = 1 := by rw [Matrix.adjugate_mul, h2, one_smul]
    calc R.transpose = (R.adjugate * R) * R.transpose := by rw [this, one_mul]
      _ = R.adjugate * (R * R.transpose) := by rw [Matrix.mul_assoc]
      _ = R.adjugate := by rw [h3, Matrix.mul_one]
  rw [Matrix.adjugate_fin_three] at hadj
  have e : ∀ i j, (R.transpose * R) i j = (1 : Mat3) i j := fun i j => by rw [h1]
  have f : ∀ i j, (R * R.transpose) i j = (1 : Mat3) i j := fun i j => by rw [h3]
  have g : ∀ i j, R.transpose i j = _ := fun i j => congrFun (congrFun hadj i) j
  simp only [Matrix.mul_apply, Fin.sum_univ_three, Matrix.transpose_apply] at e f
  have e00 := e 0 0
  have e11 := e 1 1
  have e22 := e 2 2
  have e01 := e 0 1
  have e02 := e 0 2
  have f11 := f 1 1
  have f22 := f 2 2
  have g01 := g 1 0
  have g02 := g 2 0
  have g11 := g 1 1
  have g12 := g 2 1
  have g21 := g 1 2
  have g22 := g 2 2
  simp [Matrix.transpose_apply] at g01 g02 g11 g12 g21 g22
  simp at e00 e11 e22 e01 e02 f11 f22
  constructor <;> linarith

theorem sq_sqrt_level {R : Mat3} : level R ^ 2 = R 0 0 ^ 2 + R 1 0 ^ 2 := by
  unfold level
  rw [Real.sq_sqrt (by positivity)]

theorem level_eq (R : Mat3) : Real.sqrt (R 0 0 * R 0 0 + R 1 0 * R 1 0) = level R := by
  unfold level
  congr 1
  ring

theorem cos_atan2 {y x n : ℝ} (hn : 0 < n) (h : x ^ 2 + y ^ 2 = n ^ 2) : Real.cos (atan2 y x) = x / n := by
  unfold atan2
  have hnorm : ‖(⟨x, y⟩ : ℂ)‖ = n := by
    rw [Complex.norm_def, Complex.normSq_mk, ← pow_two, ← pow_two, h, Real.sqrt_sq (le_of_lt hn)]
  rw [Complex.cos_arg, hnorm]
  intro h0
  rw [h0, norm_zero] at hnorm
  linarith

theorem sin_atan2 {y x n : ℝ} (hn : 0 < n) (h : x ^ 2 + y ^ 2 = n ^ 2) : Real.sin (atan2 y x) = y / n := by
  unfold atan2
  have hnorm : ‖(⟨x, y⟩ : ℂ)‖ = n := by
    rw [Complex.norm_def, Complex.normSq_mk, ← pow_two, ← pow_two, h, Real.sqrt_sq (le_of_lt hn)]
  rw [Complex.sin_arg, hnorm]

/-- C63, exactly: a rotation whose first axis is not within a millionth of pointing straight up or down
is got back from its Euler angles. -/
theorem C63_exact (R : Mat3) (h : IsRot3 R) (hl : 1 / 1000000 ≤ level R) :
    fromEuler (toEuler R) = R := by
  have q := rotEq h
  have hsq := sq_sqrt_level (R := R)
  have hpos : 0 < level R := lt_of_lt_of_le (by norm_num) hl
  have hne := ne_of_gt hpos
  unfold toEuler
  dsimp only
  rw [level_eq, if_neg (not_lt.2 hl), C63_meaning, rot_product]
  dsimp only
  rw [cos_atan2 (x := R 2 2) (y := R 2 1) hpos (by rw [hsq]; linarith [q.c0, q.r2]),
    sin_atan2 (x := R 2 2) (y := R 2 1) hpos (by rw [hsq]; linarith [q.c0, q.r2]),
    cos_atan2 (x := level R) (y := -R 2 0) one_pos (by rw [hsq]; linarith [q.c0]),
    sin_atan2 (x := level R) (y := -R 2 0) one_pos (by rw [hsq]; linarith [q.c0]),
    cos_atan2 (x := R 0 0) (y := R 1 0) hpos hsq.symm,
    sin_atan2 (x := R 0 0) (y := R 1 0) hpos hsq.symm]
  apply mat3_ext <;> simp only [Matrix.of_apply, Matrix.cons_val', Matrix.cons_val, Matrix.cons_val_zero,
    Matrix.cons_val_one] <;> field_simp
  · rw [hsq]; linear_combination (-R 1 0) * q.k22 - (R 0 0) * q.c01
  · rw [hsq]; linear_combination (R 1 0) * q.k21 - (R 0 0) * q.c02
  · rw [hsq]; linear_combination (R 0 0) * q.k22 - (R 1 0) * q.c01
  · rw [hsq]; linear_combination (-R 0 0) * q.k21 - (R 1 0) * q.c02

theorem mat3_forall {P : Fin 3 → Fin 3 → Prop} (h00 : P 0 0) (h01 : P 0 1) (h02 : P 0 2)
    (h10 : P 1 0) (h11 : P 1 1) (h12 : P 1 2) (h20 : P 2 0) (h21 : P 2 1) (h22 : P 2 2) : ∀ i j, P i j := by
  intro i j
  fin_cases i <;> fin_cases j <;> assumption

theorem close_bounds {a20 a10 a22 u v n L : ℝ} (h20 : |a20| ≤ 1) (h10 : |a10| ≤ L) (h22 : |a22| ≤ L)
    (hv : |v| ≤ 1) (hn : |1 - n| ≤ L ^ 2) (hL : 0 ≤ L) (hl : L < 1 / 1000000) :
    |a20 * (v * (1 - n)) + a10 * a22| ≤ 2 / 1000000 ∧ |v * (1 - n)| ≤ 2 / 1000000 ∧ |L * v| ≤ L := by
  have hLe : L ^ 2 ≤ 1 / 1000000 := by nlinarith
  have p1 : |v * (1 - n)| ≤ L ^ 2 := by
    rw [abs_mul]
    calc |v| * |1 - n| ≤ 1 * L ^ 2 := mul_le_mul hv hn (abs_nonneg _) zero_le_one
      _ = L ^ 2 := one_mul _
  have p2 : |a20 * (v * (1 - n))| ≤ L ^ 2 := by
    rw [abs_mul]
    calc |a20| * |v * (1 - n)| ≤ 1 * L ^ 2 := mul_le_mul h20 p1 (abs_nonneg _) zero_le_one
      _ = L ^ 2 := one_mul _
  have p3 : |a10 * a22| ≤ L ^ 2 := by
    rw [abs_mul]
    calc |a10| * |a22| ≤ L * L := mul_le_mul h10 h22 (abs_nonneg _) hL
      _ = L ^ 2 := by ring
  refine ⟨(abs_add_le _ _).trans (by linarith), by linarith, ?_⟩
  rw [abs_mul, abs_of_nonneg hL]
  calc L * |v| ≤ L * 1 := mul_le_mul_of_nonneg_left hv hL
    _ = L := mul_one L

theorem close_n {r10 n L : ℝ} (hn0 : 0 ≤ n) (hn1 : n ^ 2 = 1 - r10 ^ 2) (h10 : r10 ^ 2 ≤ L ^ 2) (hL : 0 ≤ L)
    (hl : L < 1 / 1000000) : 0 < n ∧ |1 - n| ≤ L ^ 2 := by
  have hnpos : 0 < n := by
    rcases lt_or_eq_of_le hn0 with h | h
    · exact h
    · exfalso
      rw [← h] at hn1
      nlinarith
  have hnle : n ≤ 1 := by nlinarith [sq_nonneg r10]
  refine ⟨hnpos, ?_⟩
  rw [abs_of_nonneg (by linarith)]
  nlinarith

theorem close_unit {n a b : ℝ} (hn : 0 < n) (h : n ^ 2 = a ^ 2 + b ^ 2) : |a / n| ≤ 1 ∧ |b / n| ≤ 1 := by
  constructor <;> rw [abs_div, abs_of_pos hn, div_le_one hn] <;>
    exact abs_le_of_sq_le_sq (by nlinarith [sq_nonneg a, sq_nonneg b]) (le_of_lt hn)

/-- The rotation got back when the first axis is nearly straight up or down. -/
theorem close_form (R : Mat3) (h : IsRot3 R) (hl : level R < 1 / 1000000) {n : ℝ} (hnpos : 0 < n)
    (hn : n ^ 2 = R 1 1 ^ 2 + R 1 2 ^ 2) : fromEuler (toEuler R) =
      !![level R, R 2 0 * (R 1 2 / n), -R 2 0 * (R 1 1 / n); 0, R 1 1 / n, R 1 2 / n;
         R 2 0, -level R * (R 1 2 / n), level R * (R 1 1 / n)] := by
  have q := rotEq h
  have hsq := sq_sqrt_level (R := R)
  unfold toEuler
  dsimp only
  rw [level_eq, if_pos hl, C63_meaning, rot_product]
  dsimp only
  rw [cos_atan2 (x := R 1 1) (y := -R 1 2) hnpos (by rw [hn]; ring),
    sin_atan2 (x := R 1 1) (y := -R 1 2) hnpos (by rw [hn]; ring),
    cos_atan2 (x := level R) (y := -R 2 0) one_pos (by rw [hsq]; linarith [q.c0]),
    sin_atan2 (x := level R) (y := -R 2 0) one_pos (by rw [hsq]; linarith [q.c0])]
  apply mat3_ext <;> simp only [Matrix.of_apply, Matrix.cons_val', Matrix.cons_val, Matrix.cons_val_zero,
    Matrix.cons_val_one, Real.cos_zero, Real.sin_zero] <;> ring

/-- C63: every rotation is got back from its Euler angles up to two millionths in each entry. -/
theorem C63_close (R : Mat3) (h : IsRot3 R) (i j : Fin 3) :
    |fromEuler (toEuler R) i j - R i j| ≤ 2 / 1000000 := by
  by_cases hl : 1 / 1000000 ≤ level R
  · rw [C63_exact R h hl, sub_self, abs_zero]
    norm_num
  push Not at hl
  have q := rotEq h
  have hsq := sq_sqrt_level (R := R)
  have hL : 0 ≤ level R := Real.sqrt_nonneg _
  obtain ⟨n, hn0, hn⟩ : ∃ n : ℝ, 0 ≤ n ∧ n ^ 2 = R 1 1 ^ 2 + R 1 2 ^ 2 :=
    ⟨Real.sqrt (R 1 1 ^ 2 + R 1 2 ^ 2), Real.sqrt_nonneg _, Real.sq_sqrt (by positivity)⟩
  have h10 : R 1 0 ^ 2 ≤ level R ^ 2 := by rw [hsq]; linarith [sq_nonneg (R 0 0)]
  obtain ⟨hnpos, a1n⟩ := close_n hn0 (by linarith [q.r1]) h10 hL hl
  have hnne := ne_of_gt hnpos
  obtain ⟨au, av⟩ := close_unit hnpos hn
  rw [close_form R h hl hnpos hn]
  obtain ⟨u, hu⟩ : ∃ u, u = R 1 1 / n := ⟨_, rfl⟩
  obtain ⟨v, hv⟩ : ∃ v, v = R 1 2 / n := ⟨_, rfl⟩
  have hu' : R 1 1 = n * u := by rw [hu]; field_simp
  have hv' : R 1 2 = n * v := by rw [hv]; field_simp
  rw [← hu] at au ⊢
  rw [← hv] at av ⊢
  have a00 : |R 0 0| ≤ level R := abs_le_of_sq_le_sq (by rw [hsq]; linarith [sq_nonneg (R 1 0)]) hL
  have a10 : |R 1 0| ≤ level R := abs_le_of_sq_le_sq h10 hL
  have hr2 : R 2 1 ^ 2 + R 2 2 ^ 2 = level R ^ 2 := by rw [hsq]; linarith [q.r2, q.c0]
  have a21 : |R 2 1| ≤ level R := abs_le_of_sq_le_sq (by linarith [sq_nonneg (R 2 2)]) hL
  have a22 : |R 2 2| ≤ level R := abs_le_of_sq_le_sq (by linarith [sq_nonneg (R 2 1)]) hL
  have a20 : |R 2 0| ≤ 1 :=
    abs_le_of_sq_le_sq (by linarith [q.c0, sq_nonneg (R 0 0), sq_nonneg (R 1 0)]) zero_le_one
  obtain ⟨b01, b12, b21⟩ := close_bounds (u := u) a20 a10 a22 av a1n hL hl
  obtain ⟨b02, b11, b22⟩ := close_bounds (u := u) a20 a10 a21 au a1n hL hl
  have k01 := q.k01
  have k02 := q.k02
  generalize level R = L at *
  clear q h hn hsq
  revert i j
  apply mat3_forall <;> simp only [Matrix.of_apply, Matrix.cons_val', Matrix.cons_val, Matrix.cons_val_zero,
      Matrix.cons_val_one]
  · rw [abs_le] at a00 ⊢; constructor <;> linarith [a00.1, a00.2]
  · rwa [show R 2 0 * v - R 0 1 = R 2 0 * (v * (1 - n)) + R 1 0 * R 2 2 by rw [k01, hv']; ring]
  · rwa [show -R 2 0 * u - R 0 2 = -(R 2 0 * (u * (1 - n)) + R 1 0 * R 2 1) by rw [k02, hu']; ring, abs_neg]
  · rw [zero_sub, abs_neg]; linarith
  · rwa [show u - R 1 1 = u * (1 - n) by rw [hu']; ring]
  · rwa [show v - R 1 2 = v * (1 - n) by rw [hv']; ring]
  · rw [sub_self, abs_zero]; norm_num
  · rw [show -L * v - R 2 1 = -(L * v + R 2 1) by ring, abs_neg]
    exact (abs_add_le _ _).trans (by linarith)
  · exact (abs_sub _ _).trans (by linarith)

theorem atan2_mul {r a : ℝ} (hr : 0 < r) (h1 : -Real.pi < a) (h2 : a ≤ Real.pi) :
    atan2 (r * Real.sin a) (r * Real.cos a) = a := by
  unfold atan2
  have : (⟨r * Real.cos a, r * Real.sin a⟩ : ℂ) = (r : ℂ) * (Complex.cos a + Complex.sin a * Complex.I) := by
    apply Complex.ext
    · simp [← Complex.ofReal_cos, ← Complex.ofReal_sin]
    · simp [← Complex.ofReal_cos, ← Complex.ofReal_sin]
  rw [this]
  exact Complex.arg_mul_cos_add_sin_mul_I hr ⟨h1, h2⟩

/-- C63, the other way round: angles in the usual ranges are got back from their rotation, unless the
first axis is within a millionth of pointing straight up or down. -/
theorem C63_angles (e : Euler) (hx : -Real.pi < e.x ∧ e.x ≤ Real.pi) (hz : -Real.pi < e.z ∧ e.z ≤ Real.pi)
    (hy : -(Real.pi / 2) ≤ e.y ∧ e.y ≤ Real.pi / 2) (hc : 1 / 1000000 ≤ Real.cos e.y) :
    toEuler (fromEuler e) = e := by
  have hpos : 0 < Real.cos e.y := lt_of_lt_of_le (by norm_num) hc
  rw [C63_meaning, rot_product]
  unfold toEuler
  dsimp only
  simp only [Matrix.of_apply, Matrix.cons_val', Matrix.cons_val, Matrix.cons_val_zero, Matrix.cons_val_one]
  have hs : Real.sqrt (Real.cos e.z * Real.cos e.y * (Real.cos e.z * Real.cos e.y) +
      Real.sin e.z * Real.cos e.y * (Real.sin e.z * Real.cos e.y)) = Real.cos e.y := by
    have : Real.cos e.z * Real.cos e.y * (Real.cos e.z * Real.cos e.y) +
        Real.sin e.z * Real.cos e.y * (Real.sin e.z * Real.cos e.y) = Real.cos e.y ^ 2 := by
      linear_combination Real.cos e.y ^ 2 * Real.sin_sq_add_cos_sq e.z
    rw [this, Real.sqrt_sq (le_of_lt hpos)]
  rw [hs, if_neg (not_lt.2 hc), neg_neg, atan2_mul hpos hx.1 hx.2]
  have hpi := Real.pi_pos
  have e1 := atan2_mul (r := 1) one_pos (a := e.y) (by linarith) (by linarith)
  rw [one_mul, one_mul] at e1
  rw [e1, mul_comm (Real.sin e.z), mul_comm (Real.cos e.z), atan2_mul hpos hz.1 hz.2]

/-- C63, poses: translation and rotation are got back from the six numbers of a pose. -/
theorem C63_pose (t : RTransform) (h : IsRot3 t.rot) :
    (fromPose6 (toPose6 t)).trans = t.trans ∧
    (∀ i j, |(fromPose6 (toPose6 t)).rot i j - t.rot i j| ≤ 2 / 1000000) ∧
    (1 / 1000000 ≤ level t.rot → fromPose6 (toPose6 t) = t) := by
  refine ⟨rfl, C63_close t.rot h, ?_⟩
  intro hl
  unfold fromPose6 toPose6
  rw [C63_exact t.rot h hl]

/-- Turning about z. -/
theorem rotZ_rotation (a : ℝ) : IsRot3 (rotZ a) := by
  constructor
  · unfold rotZ
    have := Real.sin_sq_add_cos_sq a
    apply mat3_ext <;> simp [Matrix.mul_apply, Fin.sum_univ_three] <;> nlinarith
  · unfold rotZ
    rw [Matrix.det_fin_three]
    simp
    nlinarith [Real.sin_sq_add_cos_sq a]

theorem rotZ_euler (a : ℝ) : fromEuler ⟨0, 0, a⟩ = rotZ a := by
  rw [C63_meaning]
  unfold rotX rotY
  simp [Real.cos_zero, Real.sin_zero]
  have : (!![1, 0, 0; 0, 1, 0; 0, 0, 1] : Mat3) = 1 := by
    ext i j; fin_cases i <;> fin_cases j <;> rfl
  rw [this, Matrix.mul_one, Matrix.mul_one]

theorem toEuler_rotZ (a : ℝ) (h1 : -Real.pi < a) (h2 : a ≤ Real.pi) : toEuler (rotZ a) = ⟨0, 0, a⟩ := by
  rw [← rotZ_euler]
  have hpi := Real.pi_pos
  exact C63_angles ⟨0, 0, a⟩ ⟨by show -Real.pi < 0; linarith, le_of_lt hpi⟩ ⟨h1, h2⟩
    ⟨by show -(Real.pi / 2) ≤ 0; linarith, by show 0 ≤ Real.pi / 2; linarith⟩
    (by show 1 / 1000000 ≤ Real.cos 0; rw [Real.cos_zero]; norm_num)

-- a quarter turn is a rotation whose first axis is level
example : IsRot3 (rotZ (Real.pi / 2)) ∧ 1 / 1000000 ≤ level (rotZ (Real.pi / 2)) := by
  refine ⟨rotZ_rotation _, ?_⟩
  unfold level rotZ
  simp
  norm_num

/-! ### averages -/

/-- C64, what is proved: the average of any number of copies of a transform is this transform, and the
translation of an average is the mean of the translations. Missing: the mean rotation of rotations that
differ (`C64_opposite_fails`). -/
theorem C64_same_partial (t : RTransform) (h : IsRot3 t.rot) (hl : 1 / 1000000 ≤ level t.rot) (n : Nat)
    (hn : 1 ≤ n) : averageTransforms (List.replicate n t) = .ok t := by
  unfold averageTransforms
  rw [Outcome.check_pos (by intro h0; have := congrArg List.length h0; simp at this; omega), Outcome.bind_ok]
  have hn' : (n : ℝ) ≠ 0 := by
    have : (0 : ℝ) < n := by exact_mod_cast hn
    exact ne_of_gt this
  simp only [List.map_replicate, List.sum_replicate, List.length_replicate, nsmul_eq_mul]
  have hd : ∀ a : ℝ, n * a / n = a := fun a => mul_div_cancel_left₀ a hn'
  simp only [hd]
  show Outcome.ok _ = _
  have := C63_exact t.rot h hl
  have he : (⟨(toEuler t.rot).x, (toEuler t.rot).y, (toEuler t.rot).z⟩ : Euler) = toEuler t.rot := rfl
  rw [he, this]

/-- The translation of an average lies between the smallest and the largest. -/
theorem C64_translation_partial (ts : List RTransform) (r : RTransform) (h : averageTransforms ts = .ok r)
    (i : Fin 3) (lo hi : ℝ) (hlo : ∀ t ∈ ts, lo ≤ t.trans i) (hhi : ∀ t ∈ ts, t.trans i ≤ hi) :
    lo ≤ r.trans i ∧ r.trans i ≤ hi := by
  unfold averageTransforms at h
  rw [Outcome.check_bind_eq_ok] at h
  obtain ⟨hne, h⟩ := h
  have hr : (fun i => (ts.map (fun t => t.trans i)).sum / (ts.length : ℝ)) = r.trans := by
    have : Outcome.ok _ = Outcome.ok r := h
    injection this with this
    rw [← this]
  rw [← hr]
  have hpos : (0 : ℝ) < ts.length := by exact_mod_cast List.length_pos_iff.2 hne
  dsimp only
  rw [le_div_iff₀ hpos, div_le_iff₀ hpos]
  clear h hr hne hpos
  induction ts with
  | nil => simp
  | cons a as ih =>
    obtain ⟨h1, h2⟩ := ih (fun t ht => hlo t (by simp [ht])) (fun t ht => hhi t (by simp [ht]))
    have e1 := hlo a (by simp)
    have e2 := hhi a (by simp)
    rw [List.map_cons, List.sum_cons, List.length_cons]
    push_cast
    constructor <;> linarith

/-- Turning about the vertical: the average of two turns is the turn by the mean angle, as long as the
angles are written between `-π` and `π`. -/
theorem C64_yaw_partial (a b : ℝ) (ha : -Real.pi < a ∧ a ≤ Real.pi) (hb : -Real.pi < b ∧ b ≤ Real.pi)
    (t u : Fin 3 → ℝ) :
    ∃ v, averageTransforms [⟨rotZ a, t⟩, ⟨rotZ b, u⟩] = .ok ⟨rotZ ((a + b) / 2), v⟩ := by
  unfold averageTransforms
  rw [Outcome.check_pos (by simp), Outcome.bind_ok]
  simp only [List.map_cons, List.map_nil, List.sum_cons, List.sum_nil, toEuler_rotZ a ha.1 ha.2,
    toEuler_rotZ b hb.1 hb.2, List.length_cons, List.length_nil]
  refine ⟨fun i => (t i + (u i + 0)) / ((0 + 1 + 1 : ℕ) : ℝ), ?_⟩
  · show Outcome.ok _ = _
    have e : (⟨(0 + (0 + 0)) / ((0 + 1 + 1 : ℕ) : ℝ), (0 + (0 + 0)) / ((0 + 1 + 1 : ℕ) : ℝ),
        (a + (b + 0)) / ((0 + 1 + 1 : ℕ) : ℝ)⟩ : Euler) = ⟨0, 0, (a + b) / 2⟩ := by
      congr 1 <;> norm_num
    rw [e, rotZ_euler]

/-- C64 is false across the cut: two turns that are as close to each other as you like, one just short
of a half turn to the left and one just short of a half turn to the right, are averaged to no turn at
all, the opposite direction. -/
theorem C64_opposite_fails (δ : ℝ) (h0 : 0 < δ) (h1 : δ < Real.pi) (t u : Fin 3 → ℝ) :
    (∀ i j, |rotZ (Real.pi - δ) i j - rotZ (-(Real.pi - δ)) i j| ≤ 2 * |Real.sin δ|) ∧
    ∃ v, averageTransforms [⟨rotZ (Real.pi - δ), t⟩, ⟨rotZ (-(Real.pi - δ)), u⟩] = .ok ⟨rotZ 0, v⟩ := by
  constructor
  · have hs : 0 ≤ 2 * |Real.sin δ| := by positivity
    unfold rotZ
    apply mat3_forall <;> simp [hs]
    · rw [show -Real.sin δ - Real.sin δ = -(2 * Real.sin δ) by ring, abs_neg, abs_mul]; simp
    · rw [show Real.sin δ + Real.sin δ = (2 * Real.sin δ) by ring, abs_mul]; simp
  · have hpi := Real.pi_pos
    have := C64_yaw_partial (Real.pi - δ) (-(Real.pi - δ)) ⟨by linarith, by linarith⟩ ⟨by linarith, by linarith⟩ t u
    rwa [show (Real.pi - δ + -(Real.pi - δ)) / 2 = 0 by ring] at this

/-- Averaging nothing stops the program. -/
theorem C64_empty_partial : averageTransforms [] = .abort := rfl

-- angles that meet the hypotheses of `C63_angles`
example : toEuler (fromEuler ⟨1, 1 / 2, -2⟩) = ⟨1, 1 / 2, -2⟩ := by
  have h3 := Real.pi_gt_three
  refine C63_angles ⟨1, 1 / 2, -2⟩ ⟨by dsimp only; linarith, by dsimp only; linarith⟩
    ⟨by dsimp only; linarith, by dsimp only; linarith⟩ ⟨by dsimp only; linarith, by dsimp only; linarith⟩ ?_
  have := Real.one_sub_sq_div_two_le_cos (x := 1 / 2)
  dsimp only
  norm_num at this ⊢
  linarith

-- two different turns
example : ∃ v, averageTransforms [⟨rotZ 1, fun _ => 0⟩, ⟨rotZ 2, fun _ => 1⟩] = .ok ⟨rotZ ((1 + 2) / 2), v⟩ := by
  have h3 := Real.pi_gt_three
  exact C64_yaw_partial 1 2 ⟨by linarith, by linarith⟩ ⟨by linarith, by linarith⟩ _ _

end Verif
