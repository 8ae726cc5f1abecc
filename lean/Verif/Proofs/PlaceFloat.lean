import Verif.Model.PlaceFloat
import Verif.Spec.PlaceFloat
import Verif.Proofs.Floats
import Verif.Proofs.CloudGeom
/-! The rounding error of placing a point. -/
namespace Verif
open Spec

/-- Half the distance between one and the next `float`. -/
def u32 : ℚ := 1 / 2 ^ 24

theorem toF32_err (x : ℚ) : |toF32 x - x| ≤ u32 * |x| := by
  have := flRound_err 24 x
  unfold toF32 u32
  linarith

theorem abs_toF32_le (x : ℚ) : |toF32 x| ≤ (1 + u32) * |x| := by
  have h := toF32_err x
  have := abs_sub_abs_le_abs_sub (toF32 x) x
  linarith

theorem u32_nonneg : 0 ≤ u32 := by unfold u32; norm_num

/-- A product with a converted factor, not yet rounded. -/
theorem prod_err (a b : ℚ) : |toF32 a * b - a * b| ≤ u32 * |a * b| := by
  rw [← sub_mul, abs_mul, abs_mul, ← mul_assoc]
  exact mul_le_mul_of_nonneg_right (toF32_err a) (abs_nonneg b)

theorem prod_err2 (a b : ℚ) : |toF32 (toF32 a * b) - a * b| ≤ ((1 + u32) ^ 2 - 1) * |a * b| := by
  have h1 := prod_err a b
  have h2 := toF32_err (toF32 a * b)
  have h3 : |toF32 a * b| ≤ (1 + u32) * |a * b| := by
    have := abs_sub_abs_le_abs_sub (toF32 a * b) (a * b)
    linarith
  have h4 := abs_sub_le (toF32 (toF32 a * b)) (toF32 a * b) (a * b)
  have h5 := mul_le_mul_of_nonneg_left h3 u32_nonneg
  nlinarith

theorem maddF_err (fma : Bool) {c' c C a b K : ℚ} (hK : (1 + u32) ^ 2 ≤ K) (hC : |c| ≤ C)
    (hc : |c' - c| ≤ (K - 1) * C) :
    |maddF fma c' (toF32 a) b - (c + a * b)| ≤ (K * (1 + u32) - 1) * (C + |a * b|) := by
  have hu := u32_nonneg
  obtain ⟨p, hp, e⟩ : ∃ p, |p - a * b| ≤ (K - 1) * |a * b| ∧
      maddF fma c' (toF32 a) b = toF32 (c' + p) := by
    have hab := abs_nonneg (a * b)
    cases fma
    · refine ⟨toF32 (toF32 a * b), le_trans (prod_err2 a b) ?_, by simp [maddF]⟩
      exact mul_le_mul_of_nonneg_right (by linarith) hab
    · refine ⟨toF32 a * b, le_trans (prod_err a b) ?_, by simp [maddF]⟩
      exact mul_le_mul_of_nonneg_right (by nlinarith) hab
  rw [e]
  have h1 : |(c' + p) - (c + a * b)| ≤ (K - 1) * (C + |a * b|) := by
    have : (c' + p) - (c + a * b) = (c' - c) + (p - a * b) := by ring
    rw [this]
    have := abs_add_le (c' - c) (p - a * b)
    linarith
  have h2 : |c + a * b| ≤ C + |a * b| := le_trans (abs_add_le _ _) (by linarith)
  have h3 : |c' + p| ≤ K * (C + |a * b|) := by
    have := abs_sub_abs_le_abs_sub (c' + p) (c + a * b)
    linarith
  have h4 := toF32_err (c' + p)
  have h5 := abs_sub_le (toF32 (c' + p)) (c' + p) (c + a * b)
  have h6 := mul_le_mul_of_nonneg_left h3 hu
  linarith

/-- The error of one coordinate. -/
theorem rowF_err (fma : Bool) (r0 r1 r2 r3 x y z : ℚ) :
    |rowF fma r0 r1 r2 r3 x y z - (r0 * x + r1 * y + r2 * z + r3)| ≤
      3 / 10 ^ 7 * (|r0 * x| + |r1 * y| + |r2 * z| + |r3|) := by
  have hu := u32_nonneg
  have h1 := prod_err2 r0 x
  have h2 := maddF_err fma (a := r1) (b := y) le_rfl (le_refl |r0 * x|) h1
  have h3 := maddF_err fma (a := r2) (b := z) (K := (1 + u32) ^ 2 * (1 + u32))
    (by nlinarith [sq_nonneg (1 + u32)]) (abs_add_le (r0 * x) (r1 * y)) h2
  have hb : |r0 * x + r1 * y + r2 * z| ≤ |r0 * x| + |r1 * y| + |r2 * z| :=
    le_trans (abs_add_le _ _) (by linarith [abs_add_le (r0 * x) (r1 * y)])
  have h4 := maddF_err fma (a := r3) (b := 1) (K := (1 + u32) ^ 2 * (1 + u32) * (1 + u32))
    (by nlinarith [sq_nonneg (1 + u32), sq_nonneg u32, mul_nonneg hu hu]) hb h3
  rw [mul_one] at h4
  refine le_trans h4 ?_
  apply mul_le_mul_of_nonneg_right
  · unfold u32; norm_num
  · positivity

theorem cauchy3 {a b c x y z l d : ℚ} (hl : 0 ≤ l) (hd : 0 ≤ d)
    (h1 : a ^ 2 + b ^ 2 + c ^ 2 ≤ l ^ 2) (h2 : x ^ 2 + y ^ 2 + z ^ 2 ≤ d ^ 2) :
    |a * x| + |b * y| + |c * z| ≤ l * d := by
  rw [abs_mul, abs_mul, abs_mul]
  rw [← sq_abs a, ← sq_abs b, ← sq_abs c] at h1
  rw [← sq_abs x, ← sq_abs y, ← sq_abs z] at h2
  generalize |a| = a at *
  generalize |b| = b at *
  generalize |c| = c at *
  generalize |x| = x at *
  generalize |y| = y at *
  generalize |z| = z at *
  refine le_trans (le_abs_self _) (abs_le_of_sq_le_sq ?_ (by positivity))
  calc (a * x + b * y + c * z) ^ 2 ≤ (a ^ 2 + b ^ 2 + c ^ 2) * (x ^ 2 + y ^ 2 + z ^ 2) := by
        nlinarith [sq_nonneg (a * y - b * x), sq_nonneg (a * z - c * x), sq_nonneg (b * z - c * y)]
    _ ≤ l ^ 2 * d ^ 2 := by gcongr
    _ = (l * d) ^ 2 := by ring

theorem pos_transformPointF (fma : Bool) (T : Mat4 ℚ) (p : InnerPoint ℚ) :
    pos (transformPointF fma T p) =
      ⟨rowF fma (T 0 0) (T 0 1) (T 0 2) (T 0 3) p.x p.y p.z,
       rowF fma (T 1 0) (T 1 1) (T 1 2) (T 1 3) p.x p.y p.z,
       rowF fma (T 2 0) (T 2 1) (T 2 2) (T 2 3) p.x p.y p.z⟩ := rfl

end Verif
