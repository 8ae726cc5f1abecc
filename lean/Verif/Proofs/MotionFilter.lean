import Verif.Spec.MotionFilter
import Verif.Props.Euler
import Verif.Props.LoopCheckReal
import Mathlib.Analysis.SpecialFunctions.Trigonometric.Bounds
namespace Verif
open Spec

theorem isRot3_comp {A B : Mat3} (ha : IsRot3 A) (hb : IsRot3 B) : IsRot3 (A * B) := by
  constructor
  · rw [Matrix.transpose_mul, Matrix.mul_assoc, ← Matrix.mul_assoc A.transpose, ha.1, Matrix.one_mul, hb.1]
  · rw [Matrix.det_mul, ha.2, hb.2, one_mul]

theorem isRot3_one : IsRot3 1 := by constructor <;> simp

theorem trace3 (R : Mat3) : R.trace = R 0 0 + R 1 1 + R 2 2 := by
  rw [Matrix.trace, Fin.sum_univ_three]; rfl

/-- The entries on the diagonal are at least the cosine of the angle. -/
theorem diag_ge {R : Mat3} (h : IsRot3 R) :
    (R.trace - 1) / 2 ≤ R 0 0 ∧ (R.trace - 1) / 2 ≤ R 2 2 ∧ -1 ≤ (R.trace - 1) / 2 ∧ (R.trace - 1) / 2 ≤ 1 := by
  have q := rotEq h
  have b00 : R 0 0 ^ 2 ≤ 1 := by nlinarith [q.c0, sq_nonneg (R 1 0), sq_nonneg (R 2 0)]
  have b22 : R 2 2 ^ 2 ≤ 1 := by nlinarith [q.c2, sq_nonneg (R 0 2), sq_nonneg (R 1 2)]
  have b11 : R 1 1 ^ 2 ≤ 1 := by nlinarith [q.c1, sq_nonneg (R 0 1), sq_nonneg (R 2 1)]
  obtain ⟨l00, u00⟩ := abs_le.1 (abs_le_one_iff_mul_self_le_one.2 (by nlinarith) : |R 0 0| ≤ 1)
  obtain ⟨l11, u11⟩ := abs_le.1 (abs_le_one_iff_mul_self_le_one.2 (by nlinarith) : |R 1 1| ≤ 1)
  obtain ⟨l22, u22⟩ := abs_le.1 (abs_le_one_iff_mul_self_le_one.2 (by nlinarith) : |R 2 2| ≤ 1)
  have f := rotEq (R := R.transpose) ⟨by rw [Matrix.transpose_transpose]; exact mul_eq_one_comm.1 h.1,
    by rw [Matrix.det_transpose]; exact h.2⟩
  have fc0 := f.c0; have fc1 := f.c1; have fc2 := f.c2
  simp only [Matrix.transpose_apply] at fc0 fc1 fc2
  have hm := h.2
  rw [Matrix.det_fin_three] at hm
  have adj : R 0 0 = R 1 1 * R 2 2 - R 1 2 * R 2 1 := by
    have h3 : R * R.transpose = 1 := mul_eq_one_comm.1 h.1
    have hadj : R.transpose = R.adjugate := by
      have : R.adjugate * R = 1 := by rw [Matrix.adjugate_mul, h.2, one_smul]
      calc R.transpose = (R.adjugate * R) * R.transpose := by rw [this, one_mul]
        _ = R.adjugate * (R * R.transpose) := by rw [Matrix.mul_assoc]
        _ = R.adjugate := by rw [h3, Matrix.mul_one]
    have := congrFun (congrFun hadj 0) 0
    rw [Matrix.adjugate_fin_three] at this
    simpa using this
  have k0 : (R 1 1 + R 2 2) ^ 2 ≤ (1 + R 0 0) ^ 2 := by
    nlinarith [sq_nonneg (R 1 2 - R 2 1), q.c0, q.c1, q.c2, fc0, fc1, fc2]
  have k2 : (R 0 0 + R 1 1) ^ 2 ≤ (1 + R 2 2) ^ 2 := by
    nlinarith [sq_nonneg (R 0 1 - R 1 0), q.c0, q.c1, q.c2, fc0, fc1, fc2, q.k22]
  have m0 := abs_le.1 (abs_le_of_sq_le_sq k0 (by linarith))
  have m2 := abs_le.1 (abs_le_of_sq_le_sq k2 (by linarith))
  rw [trace3]
  refine ⟨by linarith [m0.2], by linarith [m2.2], by linarith [m0.1], by linarith [m0.2]⟩

theorem cos_turn {R : Mat3} (h : IsRot3 R) : Real.cos (turn R) = (R.trace - 1) / 2 := by
  obtain ⟨_, _, a, b⟩ := diag_ge h
  exact Real.cos_arccos a b

/-- The three angles together are at most three times the angle of the rotation, if that is below sixty
degrees. -/
theorem euler_le_turn {R : Mat3} (h : IsRot3 R) (ht : turn R < Real.pi / 3) :
    |(toEuler R).x| + |(toEuler R).y| + |(toEuler R).z| ≤ 3 * turn R := by
  have q := rotEq h
  obtain ⟨d0, d2, _, _⟩ := diag_ge h
  have c := cos_turn h
  have t0 : 0 ≤ turn R := Real.arccos_nonneg _
  have tp : turn R ≤ Real.pi := Real.arccos_le_pi _
  have half : 1 / 2 < Real.cos (turn R) := by
    rw [← Real.cos_pi_div_three]
    exact Real.cos_lt_cos_of_nonneg_of_le_pi t0 (by linarith [Real.pi_pos]) ht
  rw [← c] at d0 d2
  have hsq := sq_sqrt_level (R := R)
  have l0 : 0 ≤ level R := Real.sqrt_nonneg _
  have lge : R 0 0 ≤ level R := by nlinarith [sq_nonneg (R 1 0)]
  have lle : level R ≤ 1 := by nlinarith [q.c0, sq_nonneg (R 2 0)]
  have lpos : 0 < level R := by linarith
  have key : ∀ a : ℝ, |a| ≤ Real.pi → Real.cos (turn R) ≤ Real.cos a → |a| ≤ turn R := by
    intro a ha hc
    by_contra hn
    push Not at hn
    have := Real.cos_lt_cos_of_nonneg_of_le_pi t0 ha hn
    rw [Real.cos_abs] at this
    linarith
  have bd : ∀ y x : ℝ, |atan2 y x| ≤ Real.pi := fun y x => Complex.abs_arg_le_pi _
  have dv : ∀ a : ℝ, Real.cos (turn R) ≤ a → Real.cos (turn R) ≤ a / level R := by
    intro a ha
    rw [le_div_iff₀ lpos]
    nlinarith
  unfold toEuler
  dsimp only
  rw [level_eq, if_neg (by linarith)]
  dsimp only
  have hx := key (atan2 (R 2 1) (R 2 2)) (bd _ _) (by
    rw [cos_atan2 (x := R 2 2) (y := R 2 1) lpos (by rw [hsq]; linarith [q.c0, q.r2])]
    exact dv _ d2)
  have hy := key (atan2 (-R 2 0) (level R)) (bd _ _) (by
    rw [cos_atan2 (x := level R) (y := -R 2 0) (n := 1) one_pos (by rw [neg_sq, hsq]; linarith [q.c0])]
    linarith)
  have hz := key (atan2 (R 1 0) (R 0 0)) (bd _ _) (by
    rw [cos_atan2 (x := R 0 0) (y := R 1 0) lpos (by rw [hsq])]
    exact dv _ d0)
  linarith

/-- Half angles: the real part of a product of three turns. -/
theorem half_triangle {a b c : ℝ} (ha : 0 ≤ a) (hb : 0 ≤ b) (hc : 0 ≤ c) (h : a + b + c ≤ Real.pi / 2) :
    Real.cos (a + b + c) ≤ Real.cos a * Real.cos b * Real.cos c - Real.sin a * Real.sin b * Real.sin c := by
  have hp := Real.pi_pos
  have sa : 0 ≤ Real.sin a := Real.sin_nonneg_of_nonneg_of_le_pi ha (by linarith)
  have sb : 0 ≤ Real.sin b := Real.sin_nonneg_of_nonneg_of_le_pi hb (by linarith)
  have sc : 0 ≤ Real.sin c := Real.sin_nonneg_of_nonneg_of_le_pi hc (by linarith)
  have cc : 0 ≤ Real.cos c := Real.cos_nonneg_of_neg_pi_div_two_le_of_le (by linarith) (by linarith)
  have ab : Real.sin b ≤ Real.cos a := by
    rw [← Real.cos_pi_div_two_sub]
    exact Real.cos_le_cos_of_nonneg_of_le_pi ha (by linarith) (by linarith)
  have ba : Real.sin a ≤ Real.cos b := by
    rw [← Real.cos_pi_div_two_sub]
    exact Real.cos_le_cos_of_nonneg_of_le_pi hb (by linarith) (by linarith)
  rw [Real.cos_add, Real.cos_add, Real.sin_add]
  have h1 : Real.sin b * Real.sin b * Real.sin c ≤ Real.cos a * Real.sin b * Real.sin c :=
    mul_le_mul_of_nonneg_right (mul_le_mul_of_nonneg_right ab sb) sc
  have h2 : Real.sin a * Real.sin a * Real.sin c ≤ Real.sin a * Real.cos b * Real.sin c :=
    mul_le_mul_of_nonneg_right (mul_le_mul_of_nonneg_left ba sa) sc
  have h3 : 0 ≤ (Real.sin a - Real.sin b) ^ 2 * Real.sin c := mul_nonneg (sq_nonneg _) sc
  have h4 : 0 ≤ Real.sin a * Real.sin b * Real.cos c := mul_nonneg (mul_nonneg sa sb) cc
  have h5 : 0 ≤ Real.sin a * Real.sin b * Real.sin c := mul_nonneg (mul_nonneg sa sb) sc
  nlinarith

/-- The angle of a product of turns about three axes is at most the sum of the angles. -/
theorem turn_le_euler (e : Euler) : turn (fromEuler e) ≤ |e.x| + |e.y| + |e.z| := by
  by_cases hbig : Real.pi ≤ |e.x| + |e.y| + |e.z|
  · exact le_trans (Real.arccos_le_pi _) hbig
  push Not at hbig
  obtain ⟨w, hw⟩ : ∃ w, w = (eulerQuat e).w := ⟨_, rfl⟩
  have hw' : w = Real.cos (e.z / 2) * Real.cos (e.y / 2) * Real.cos (e.x / 2) +
      Real.sin (e.z / 2) * Real.sin (e.y / 2) * Real.sin (e.x / 2) := by
    rw [hw]; simp [eulerQuat, Quat.mul]
  have tr : ((fromEuler e).trace - 1) / 2 = 2 * w ^ 2 - 1 := by
    have n : (eulerQuat e).w ^ 2 + (eulerQuat e).x ^ 2 + (eulerQuat e).y ^ 2 + (eulerQuat e).z ^ 2 = 1 := by
      have hx := Real.sin_sq_add_cos_sq (e.x / 2)
      have hy := Real.sin_sq_add_cos_sq (e.y / 2)
      have hz := Real.sin_sq_add_cos_sq (e.z / 2)
      simp only [eulerQuat, Quat.mul]
      have e1 : ∀ a b c d f g : ℝ, (f * c - 0 * 0 - 0 * d - g * 0) = f * c := by intros; ring
      ring_nf
      ring_nf at hx hy hz
      have hx' := eq_sub_of_add_eq hx
      have hy' := eq_sub_of_add_eq hy
      have hz' := eq_sub_of_add_eq hz
      simp only [hx', hy', hz']
      ring
    rw [hw, trace3]
    simp [fromEuler, Quat.toMat]
    linarith
  have px : Real.sin (e.x / 2) ^ 2 = Real.sin (|e.x| / 2) ^ 2 ∧ Real.cos (e.x / 2) = Real.cos (|e.x| / 2) := by
    rcases abs_cases e.x with ⟨h, _⟩ | ⟨h, _⟩ <;> rw [h] <;> simp [neg_div, Real.sin_neg]
  have absw : Real.cos ((|e.x| + |e.y| + |e.z|) / 2) ≤ w := by
    have ax := abs_nonneg e.x
    have ay := abs_nonneg e.y
    have az := abs_nonneg e.z
    have key := half_triangle (a := |e.x| / 2) (b := |e.y| / 2) (c := |e.z| / 2) (by linarith) (by linarith)
      (by linarith) (by linarith)
    have cx : ∀ t : ℝ, Real.cos (t / 2) = Real.cos (|t| / 2) := by
      intro t; rw [← Real.cos_abs (t / 2), abs_div, abs_two]
    have sx : ∀ t : ℝ, |t| ≤ Real.pi → |Real.sin (t / 2)| = Real.sin (|t| / 2) := by
      intro t ht
      have h0 : 0 ≤ Real.sin (|t| / 2) :=
        Real.sin_nonneg_of_nonneg_of_le_pi (by positivity) (by linarith [Real.pi_pos])
      rcases abs_cases t with ⟨h, _⟩ | ⟨h, _⟩
      · rw [h] at h0 ⊢; exact abs_of_nonneg h0
      · rw [h] at h0 ⊢
        have : Real.sin (t / 2) = -Real.sin (-t / 2) := by rw [neg_div, Real.sin_neg, neg_neg]
        rw [this, abs_neg]; exact abs_of_nonneg h0
    have low : -(Real.sin (|e.x| / 2) * Real.sin (|e.y| / 2) * Real.sin (|e.z| / 2)) ≤
        Real.sin (e.z / 2) * Real.sin (e.y / 2) * Real.sin (e.x / 2) := by
      rw [← sx e.x (by linarith), ← sx e.y (by linarith), ← sx e.z (by linarith), ← abs_mul, ← abs_mul]
      have : Real.sin (e.z / 2) * Real.sin (e.y / 2) * Real.sin (e.x / 2) =
          Real.sin (e.x / 2) * Real.sin (e.y / 2) * Real.sin (e.z / 2) := by ring
      rw [this]
      exact neg_abs_le _
    have e2 : (|e.x| + |e.y| + |e.z|) / 2 = |e.x| / 2 + |e.y| / 2 + |e.z| / 2 := by ring
    rw [e2, hw', cx e.x, cx e.y, cx e.z]
    linarith
  have s0 : 0 ≤ |e.x| + |e.y| + |e.z| := by positivity
  have c0 : 0 ≤ Real.cos ((|e.x| + |e.y| + |e.z|) / 2) :=
    Real.cos_nonneg_of_neg_pi_div_two_le_of_le (by linarith [Real.pi_pos]) (by linarith)
  unfold turn
  rw [tr]
  have cs : Real.cos (|e.x| + |e.y| + |e.z|) ≤ 2 * w ^ 2 - 1 := by
    have := Real.cos_two_mul ((|e.x| + |e.y| + |e.z|) / 2)
    rw [mul_div_cancel₀ _ (two_ne_zero)] at this
    rw [this]
    nlinarith
  calc Real.arccos (2 * w ^ 2 - 1) ≤ Real.arccos (Real.cos (|e.x| + |e.y| + |e.z|)) := Real.arccos_le_arccos cs
    _ = |e.x| + |e.y| + |e.z| := Real.arccos_cos s0 hbig.le

/-- The angle is found, or the sum of the three is beyond 89 degrees anyway. -/
theorem turn_found {R : Mat3} (h : IsRot3 R) :
    turn R ≤ |(toEuler R).x| + |(toEuler R).y| + |(toEuler R).z| ∨
    89 * (Real.pi / 180) ≤ |(toEuler R).x| + |(toEuler R).y| + |(toEuler R).z| := by
  by_cases hl : 1 / 1000000 ≤ level R
  · left
    have := turn_le_euler (toEuler R)
    rwa [C63_exact R h hl] at this
  · right
    push Not at hl
    have q := rotEq h
    have hsq := sq_sqrt_level (R := R)
    have hy : Real.cos (toEuler R).y = level R := by
      have e : (toEuler R).y = atan2 (-R 2 0) (level R) := by
        unfold toEuler; dsimp only; rw [level_eq, if_pos hl]
      rw [e, cos_atan2 (x := level R) (y := -R 2 0) (n := 1) one_pos (by rw [neg_sq, hsq]; linarith [q.c0])]
      simp
    have ax := abs_nonneg (toEuler R).x
    have az := abs_nonneg (toEuler R).z
    by_contra hn
    push Not at hn
    have hp := Real.pi_pos
    have yl : |(toEuler R).y| ≤ 89 * (Real.pi / 180) := by linarith
    have c1 := Real.cos_le_cos_of_nonneg_of_le_pi (abs_nonneg (toEuler R).y) (by linarith) yl
    rw [Real.cos_abs, hy] at c1
    have e : 89 * (Real.pi / 180) = Real.pi / 2 - Real.pi / 180 := by ring
    rw [e, Real.cos_pi_div_two_sub] at c1
    have c2 := Real.mul_le_sin (x := Real.pi / 180) (by positivity) (by linarith)
    have e2 : 2 / Real.pi * (Real.pi / 180) = 1 / 90 := by field_simp; norm_num
    rw [e2] at c2
    linarith

/-! ### between two poses -/

theorem norm3d_rot {R : Mat3} (h : IsRot3 R) (t : Fin 3 → ℝ) : norm3d (R.mulVec t) = norm3d t := by
  have q := rotEq h
  unfold norm3d
  congr 1
  have c12 : R 0 1 * R 0 2 + R 1 1 * R 1 2 + R 2 1 * R 2 2 = 0 := by
    have := congrFun (congrFun h.1 1) 2
    rw [Matrix.mul_apply, Fin.sum_univ_three] at this
    simpa using this
  have c01 := q.c01
  have c02 := q.c02
  simp only [Matrix.mulVec, dotProduct, Fin.sum_univ_three]
  linear_combination (t 0) ^ 2 * q.c0 + (t 1) ^ 2 * q.c1 + (t 2) ^ 2 * q.c2 + 2 * t 0 * t 1 * c01 +
    2 * t 0 * t 2 * c02 + 2 * t 1 * t 2 * c12

theorem apart_mul {K A : RTransform} (h : IsRot3 K.rot) : apart K (K.mul A) = norm3d A.trans := by
  rw [← norm3d_rot h]
  unfold apart norm3d
  rw [Fin.sum_univ_three]
  simp [RTransform.mul]

theorem turned_mul {K A : RTransform} (h : IsRot3 K.rot) :
    turned K (K.mul A) = turn A.rot * (180 / Real.pi) := by
  unfold turned RTransform.mul
  dsimp only
  rw [← Matrix.mul_assoc, h.1, Matrix.one_mul]

end Verif
