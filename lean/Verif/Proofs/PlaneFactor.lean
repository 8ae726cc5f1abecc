import Verif.Model.PlaneFactor
import Verif.Spec.PlaneFactor
import Verif.Proofs.Slerp
/-! Lemmas for C125. -/
namespace Verif
open Spec
noncomputable section

theorem dotProd3 (a b : Fin 3 → ℝ) : a ⬝ᵥ b = a 0 * b 0 + a 1 * b 1 + a 2 * b 2 := by
  simp [dotProduct, Fin.sum_univ_three]

theorem cross0 (a b : Fin 3 → ℝ) : crossProduct a b 0 = a 1 * b 2 - a 2 * b 1 := by rw [cross_apply]; rfl
theorem cross1 (a b : Fin 3 → ℝ) : crossProduct a b 1 = a 2 * b 0 - a 0 * b 2 := by rw [cross_apply]; rfl
theorem cross2 (a b : Fin 3 → ℝ) : crossProduct a b 2 = a 0 * b 1 - a 1 * b 0 := by rw [cross_apply]; rfl

theorem onVec_apply (q : Quat) (v : Fin 3 → ℝ) :
    q.onVec v 0 = v 0 + 2 * q.w * (q.y * v 2 - q.z * v 1) + 2 * (q.y * (q.x * v 1 - q.y * v 0) - q.z * (q.z * v 0 - q.x * v 2)) ∧
    q.onVec v 1 = v 1 + 2 * q.w * (q.z * v 0 - q.x * v 2) + 2 * (q.z * (q.y * v 2 - q.z * v 1) - q.x * (q.x * v 1 - q.y * v 0)) ∧
    q.onVec v 2 = v 2 + 2 * q.w * (q.x * v 1 - q.y * v 0) + 2 * (q.x * (q.z * v 0 - q.x * v 2) - q.y * (q.y * v 2 - q.z * v 1)) := by
  have e0 : ![q.x, q.y, q.z] 0 = q.x := rfl
  have e1 : ![q.x, q.y, q.z] 1 = q.y := rfl
  have e2 : ![q.x, q.y, q.z] 2 = q.z := rfl
  refine ⟨?_, ?_, ?_⟩
  · simp only [Quat.onVec, Pi.add_apply, Pi.smul_apply, smul_eq_mul, cross0, cross1, cross2, e0, e1, e2]; ring
  · simp only [Quat.onVec, Pi.add_apply, Pi.smul_apply, smul_eq_mul, cross0, cross1, cross2, e0, e1, e2]; ring
  · simp only [Quat.onVec, Pi.add_apply, Pi.smul_apply, smul_eq_mul, cross0, cross1, cross2, e0, e1, e2]; ring

theorem fin3_ext {a b : Fin 3 → ℝ} (h0 : a 0 = b 0) (h1 : a 1 = b 1) (h2 : a 2 = b 2) : a = b := by
  ext i
  fin_cases i
  · exact h0
  · exact h1
  · exact h2

theorem onVec_toMat (q : Quat) (v : Fin 3 → ℝ) : q.onVec v = q.toMat.mulVec v := by
  obtain ⟨h0, h1, h2⟩ := onVec_apply q v
  refine fin3_ext ?_ ?_ ?_
  · rw [h0]; simp [Quat.toMat, Matrix.mulVec, dotProduct, Fin.sum_univ_three]; ring
  · rw [h1]; simp [Quat.toMat, Matrix.mulVec, dotProduct, Fin.sum_univ_three]; ring
  · rw [h2]; simp [Quat.toMat, Matrix.mulVec, dotProduct, Fin.sum_univ_three]; ring

theorem onVec_axis {n : Fin 3 → ℝ} (hn : lenSq n = 1) (φ : ℝ) (v : Fin 3 → ℝ) :
    (⟨Real.cos φ, Real.sin φ * n 0, Real.sin φ * n 1, Real.sin φ * n 2⟩ : Quat).onVec v = rodrigues n (2 * φ) v := by
  unfold lenSq at hn
  have hs := Real.sin_sq_add_cos_sq φ
  obtain ⟨h0, h1, h2⟩ := onVec_apply ⟨Real.cos φ, Real.sin φ * n 0, Real.sin φ * n 1, Real.sin φ * n 2⟩ v
  refine fin3_ext ?_ ?_ ?_
  · rw [h0]
    simp only [rodrigues, Pi.add_apply, Pi.smul_apply, smul_eq_mul, cross0, cross1, cross2, dotProd3, Real.cos_two_mul, Real.sin_two_mul]
    linear_combination (2 * n 0 * (n 0 * v 0 + n 1 * v 1 + n 2 * v 2) - 2 * v 0) * hs - 2 * Real.sin φ ^ 2 * v 0 * hn
  · rw [h1]
    simp only [rodrigues, Pi.add_apply, Pi.smul_apply, smul_eq_mul, cross0, cross1, cross2, dotProd3, Real.cos_two_mul, Real.sin_two_mul]
    linear_combination (2 * n 1 * (n 0 * v 0 + n 1 * v 1 + n 2 * v 2) - 2 * v 1) * hs - 2 * Real.sin φ ^ 2 * v 1 * hn
  · rw [h2]
    simp only [rodrigues, Pi.add_apply, Pi.smul_apply, smul_eq_mul, cross0, cross1, cross2, dotProd3, Real.cos_two_mul, Real.sin_two_mul]
    linear_combination (2 * n 2 * (n 0 * v 0 + n 1 * v 1 + n 2 * v 2) - 2 * v 2) * hs - 2 * Real.sin φ ^ 2 * v 2 * hn

theorem slerp_axis {eps φ : ℝ} (he : 0 ≤ eps) (h0 : 0 ≤ φ) (h1 : φ < Real.pi / 2) (hφ : Real.cos φ < 1 - eps) (n : Fin 3 → ℝ)
    (t : ℝ) : eigenSlerp eps ⟨1, 0, 0, 0⟩ ⟨Real.cos φ, Real.sin φ * n 0, Real.sin φ * n 1, Real.sin φ * n 2⟩ t =
      ⟨Real.cos (t * φ), Real.sin (t * φ) * n 0, Real.sin (t * φ) * n 1, Real.sin (t * φ) * n 2⟩ := by
  have hc : 0 < Real.cos φ := Real.cos_pos_of_mem_Ioo ⟨by linarith [Real.pi_pos], h1⟩
  have hp : φ ≠ 0 := by
    rintro rfl
    rw [Real.cos_zero] at hφ
    linarith
  have hs : 0 < Real.sin φ := Real.sin_pos_of_pos_of_lt_pi (lt_of_le_of_ne h0 (Ne.symm hp)) (by linarith [Real.pi_pos])
  have ha : Real.arccos (Real.cos φ) = φ := Real.arccos_cos h0 (by linarith [Real.pi_pos])
  have hd : Quat.dot ⟨1, 0, 0, 0⟩ ⟨Real.cos φ, Real.sin φ * n 0, Real.sin φ * n 1, Real.sin φ * n 2⟩ = Real.cos φ := by
    simp [Quat.dot]
  unfold eigenSlerp
  dsimp only
  rw [hd, abs_of_pos hc, if_neg (not_lt.2 hc.le)]
  unfold slerpScale0 slerpScale1
  rw [if_neg (not_le.2 hφ), if_neg (not_le.2 hφ), ha, show (1 - t) * φ = φ - t * φ by ring, Real.sin_sub]
  congr 1
  · field_simp
    ring
  · field_simp
    ring
  · field_simp
    ring
  · field_simp
    ring

theorem slerp_neg (eps : ℝ) (a b : Quat) (t : ℝ) (h : a.dot b ≠ 0) : eigenSlerp eps a b.neg t = eigenSlerp eps a b t := by
  have e : a.dot b.neg = - a.dot b := by unfold Quat.dot Quat.neg; ring
  unfold eigenSlerp
  dsimp only
  rw [e, abs_neg]
  rcases lt_or_gt_of_ne h with hn | hp
  · rw [if_neg (by linarith), if_pos hn]
    simp [Quat.neg]
  · rw [if_pos (by linarith), if_neg (by linarith)]
    simp [Quat.neg]

theorem four_squares {a b c d : ℝ} (h : a ^ 2 + b ^ 2 + c ^ 2 + d ^ 2 = 0) : a = 0 ∧ b = 0 ∧ c = 0 ∧ d = 0 := by
  have h1 := sq_nonneg a
  have h2 := sq_nonneg b
  have h3 := sq_nonneg c
  have h4 := sq_nonneg d
  exact ⟨pow_eq_zero_iff (two_ne_zero) |>.1 (by linarith), pow_eq_zero_iff (two_ne_zero) |>.1 (by linarith),
    pow_eq_zero_iff (two_ne_zero) |>.1 (by linarith), pow_eq_zero_iff (two_ne_zero) |>.1 (by linarith)⟩

theorem quat_same {a b : Quat} (ha : a.IsUnit) (hb : b.IsUnit) (h : a.toMat = b.toMat) : b = a ∨ b = a.neg := by
  have ht := toMat_trace ha hb
  have ht' := toMat_trace ha ha
  rw [← h] at ht
  have hd : a.dot a = 1 := by unfold Quat.IsUnit at ha; unfold Quat.dot; linarith
  have : (a.dot b) ^ 2 = 1 := by rw [hd] at ht'; linarith
  unfold Quat.IsUnit at ha hb
  rcases (show a.dot b = 1 ∨ a.dot b = -1 from by
    have : (a.dot b - 1) * (a.dot b + 1) = 0 := by linear_combination this
    rcases mul_eq_zero.1 this with h | h
    · exact Or.inl (by linarith)
    · exact Or.inr (by linarith)) with h1 | h1
  · left
    unfold Quat.dot at h1
    have hz : (a.w - b.w) ^ 2 + (a.x - b.x) ^ 2 + (a.y - b.y) ^ 2 + (a.z - b.z) ^ 2 = 0 := by linear_combination ha + hb - 2 * h1
    obtain ⟨e1, e2, e3, e4⟩ := four_squares hz
    cases a; cases b
    simp only [Quat.mk.injEq] at *
    exact ⟨by linarith, by linarith, by linarith, by linarith⟩
  · right
    unfold Quat.dot at h1
    have hz : (a.w + b.w) ^ 2 + (a.x + b.x) ^ 2 + (a.y + b.y) ^ 2 + (a.z + b.z) ^ 2 = 0 := by linear_combination ha + hb + 2 * h1
    obtain ⟨e1, e2, e3, e4⟩ := four_squares hz
    unfold Quat.neg
    cases a; cases b
    simp only [Quat.mk.injEq] at *
    exact ⟨by linarith, by linarith, by linarith, by linarith⟩

theorem quatOfMat_one : quatOfMat 1 = ⟨1, 0, 0, 0⟩ := by
  unfold quatOfMat
  dsimp only
  rw [if_pos (by norm_num)]
  have : Real.sqrt ((1 : Mat3) 0 0 + (1 : Mat3) 1 1 + (1 : Mat3) 2 2 + 1) = 2 := by
    rw [show (1 : Mat3) 0 0 + (1 : Mat3) 1 1 + (1 : Mat3) 2 2 + 1 = (2 : ℝ) ^ 2 by norm_num]
    exact Real.sqrt_sq (by norm_num)
  rw [this]
  simp

theorem plane_distance {n : Fin 3 → ℝ} (hn : lenSq n = 1) (a x : Fin 3 → ℝ) : PlaneDistance a n x |(x - a) ⬝ᵥ n| := by
  unfold lenSq at hn
  refine ⟨abs_nonneg _, ⟨x - ((x - a) ⬝ᵥ n) • n, ?_, ?_⟩, fun y hy => ?_⟩
  · unfold OnPlane
    rw [dotProd3]
    simp
    linear_combination (-((x 0 - a 0) * n 0 + (x 1 - a 1) * n 1 + (x 2 - a 2) * n 2)) * hn
  · rw [sq_abs]
    unfold lenSq
    simp only [Pi.sub_apply, Pi.smul_apply, smul_eq_mul, sub_sub_cancel]
    linear_combination ((x - a) ⬝ᵥ n) ^ 2 * hn
  · rw [sq_abs, dotProd3]
    unfold OnPlane at hy
    unfold lenSq
    simp
    have e : (x 0 - a 0) * n 0 + (x 1 - a 1) * n 1 + (x 2 - a 2) * n 2 =
        (x 0 - y 0) * n 0 + (x 1 - y 1) * n 1 + (x 2 - y 2) * n 2 := by linear_combination hy
    rw [e]
    have k : (((x 0 - y 0) * n 0 + (x 1 - y 1) * n 1 + (x 2 - y 2) * n 2)) ^ 2 ≤
        ((x 0 - y 0) ^ 2 + (x 1 - y 1) ^ 2 + (x 2 - y 2) ^ 2) * (n 0 ^ 2 + n 1 ^ 2 + n 2 ^ 2) := by
      nlinarith [sq_nonneg ((x 0 - y 0) * n 1 - (x 1 - y 1) * n 0), sq_nonneg ((x 0 - y 0) * n 2 - (x 2 - y 2) * n 0),
        sq_nonneg ((x 1 - y 1) * n 2 - (x 2 - y 2) * n 1)]
    rw [hn, mul_one] at k
    exact k

end
end Verif
