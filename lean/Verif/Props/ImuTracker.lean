import Mathlib.LinearAlgebra.Matrix.ToLinearEquiv
import Verif.Spec.ImuTracker
import Verif.Props.Euler
import Mathlib.LinearAlgebra.Matrix.NonsingularInverse
import Mathlib.LinearAlgebra.FiniteDimensional.Basic
/-! Property theorems C69: the IMU tracker. -/
namespace Verif
open Spec

/-! ### quaternions -/

/-- Length one. -/
def Quat.IsUnit (q : Quat) : Prop := q.w ^ 2 + q.x ^ 2 + q.y ^ 2 + q.z ^ 2 = 1

theorem Quat.unit_mul {a b : Quat} (ha : a.IsUnit) (hb : b.IsUnit) : (a.mul b).IsUnit := by
  unfold Quat.IsUnit at *
  have : (a.mul b).w ^ 2 + (a.mul b).x ^ 2 + (a.mul b).y ^ 2 + (a.mul b).z ^ 2 =
      (a.w ^ 2 + a.x ^ 2 + a.y ^ 2 + a.z ^ 2) * (b.w ^ 2 + b.x ^ 2 + b.y ^ 2 + b.z ^ 2) := by
    unfold Quat.mul
    ring
  rw [this, ha, hb, one_mul]

theorem Quat.unit_conj {a : Quat} (ha : a.IsUnit) : a.conj.IsUnit := by
  unfold Quat.IsUnit Quat.conj at *
  simp only [neg_sq]
  exact ha

theorem Quat.normalize_unit {a : Quat} (ha : a.IsUnit) : a.normalize = a := by
  have h : a.norm = 1 := by
    unfold Quat.norm
    rw [ha, Real.sqrt_one]
  unfold Quat.normalize
  rw [h, if_pos one_pos]
  simp

theorem Quat.toMat_hom {q : Quat} (h : q.IsUnit) : q.toMat =
    !![q.w ^ 2 + q.x ^ 2 - q.y ^ 2 - q.z ^ 2, 2 * q.y * q.x - 2 * q.z * q.w, 2 * q.z * q.x + 2 * q.y * q.w;
       2 * q.y * q.x + 2 * q.z * q.w, q.w ^ 2 - q.x ^ 2 + q.y ^ 2 - q.z ^ 2, 2 * q.z * q.y - 2 * q.x * q.w;
       2 * q.z * q.x - 2 * q.y * q.w, 2 * q.z * q.y + 2 * q.x * q.w, q.w ^ 2 - q.x ^ 2 - q.y ^ 2 + q.z ^ 2] := by
  unfold Quat.IsUnit at h
  unfold Quat.toMat
  apply mat3_ext <;> simp
  · linear_combination -h
  · linear_combination -h
  · linear_combination -h

theorem Quat.toMat_mul {a b : Quat} (ha : a.IsUnit) (hb : b.IsUnit) : (a.mul b).toMat = a.toMat * b.toMat := by
  rw [Quat.toMat_hom ha, Quat.toMat_hom hb, Quat.toMat_hom (Quat.unit_mul ha hb)]
  apply mat3_ext <;> simp [Matrix.mul_apply, Fin.sum_univ_three, Quat.mul] <;> ring

theorem Quat.toMat_conj (a : Quat) : a.conj.toMat = a.toMat.transpose := by
  apply mat3_ext <;> simp [Quat.toMat, Quat.conj] <;> ring

theorem Quat.toMat_rot {a : Quat} (ha : a.IsUnit) : IsRot3 a.toMat := by
  have h := ha
  unfold Quat.IsUnit at h
  rw [Quat.toMat_hom ha]
  refine ⟨?_, ?_⟩
  · apply mat3_ext <;> simp [Matrix.mul_apply, Fin.sum_univ_three]
    · linear_combination (a.w ^ 2 + a.x ^ 2 + a.y ^ 2 + a.z ^ 2 + 1) * h
    · ring
    · ring
    · ring
    · linear_combination (a.w ^ 2 + a.x ^ 2 + a.y ^ 2 + a.z ^ 2 + 1) * h
    · ring
    · ring
    · ring
    · linear_combination (a.w ^ 2 + a.x ^ 2 + a.y ^ 2 + a.z ^ 2 + 1) * h
  · rw [Matrix.det_fin_three]
    simp
    linear_combination ((a.w ^ 2 + a.x ^ 2 + a.y ^ 2 + a.z ^ 2) ^ 2 + (a.w ^ 2 + a.x ^ 2 + a.y ^ 2 + a.z ^ 2) + 1) * h

theorem eulerQuat_unit (e : Euler) : (eulerQuat e).IsUnit := by
  have h1 := Real.sin_sq_add_cos_sq (e.x / 2)
  have h2 := Real.sin_sq_add_cos_sq (e.y / 2)
  have h3 := Real.sin_sq_add_cos_sq (e.z / 2)
  unfold eulerQuat
  refine Quat.unit_mul (Quat.unit_mul ?_ ?_) ?_ <;> unfold Quat.IsUnit <;> simp <;> linarith

/-! ### lengths -/

theorem inner3_eq (a b : Fin 3 → ℝ) : inner3 a b = a 0 * b 0 + a 1 * b 1 + a 2 * b 2 := Fin.sum_univ_three _

theorem length3_eq (a : Fin 3 → ℝ) : length3 a = norm3 a := by
  unfold length3 norm3
  rw [inner3_eq]
  congr 1
  ring

theorem length3_sq (a : Fin 3 → ℝ) : length3 a ^ 2 = inner3 a a := by
  unfold length3
  rw [Real.sq_sqrt]
  rw [inner3_eq]
  nlinarith [sq_nonneg (a 0), sq_nonneg (a 1), sq_nonneg (a 2)]

theorem length3_pos {a : Fin 3 → ℝ} (h : a ≠ 0) : 0 < length3 a := by
  rw [length3, Real.sqrt_pos, inner3]
  obtain ⟨i, hi⟩ := Function.ne_iff.1 h
  exact Finset.sum_pos' (fun i _ => mul_self_nonneg _) ⟨i, Finset.mem_univ _, mul_self_pos.2 hi⟩

/-- Moving a matrix across an inner product. -/
theorem inner3_mulVec (M : Mat3) (a b : Fin 3 → ℝ) : inner3 (M.mulVec a) b = inner3 a (M.transpose.mulVec b) := by
  rw [inner3_eq, inner3_eq]
  simp [Matrix.mulVec, dotProduct, Fin.sum_univ_three]
  ring

theorem rot_length {R : Mat3} (h : R.transpose * R = 1) (a : Fin 3 → ℝ) : length3 (R.mulVec a) = length3 a := by
  unfold length3
  rw [inner3_mulVec, Matrix.mulVec_mulVec, h, Matrix.one_mulVec]

theorem rot_right {R : Mat3} (h : R.transpose * R = 1) : R * R.transpose = 1 := mul_eq_one_comm.1 h

/-! ### the turn from one vector to another -/

/-- How a quaternion acts. -/
theorem quat_act (w x y z : ℝ) (v : Fin 3 → ℝ) :
    let u := ![x, y, z]
    (Quat.mk w x y z).act v = fun i => v i + 2 * w * icpCross u v i + 2 * icpCross u (icpCross u v) i := by
  funext i
  unfold Quat.act Quat.toMat icpCross
  fin_cases i <;> simp [Matrix.mulVec, dotProduct, Fin.sum_univ_three] <;> ring

theorem turn_unit (v0 v1 : Fin 3 → ℝ) (h0 : inner3 v0 v0 = 1) (h1 : inner3 v1 v1 = 1) (c s : ℝ)
    (hc : c = inner3 v1 v0) (hs : s ^ 2 = (1 + c) * 2) (hspos : 0 < s) :
    let x := icpCross v0 v1
    (Quat.mk (s * 0.5) (x 0 * (1 / s)) (x 1 * (1 / s)) (x 2 * (1 / s))).IsUnit := by
  rw [inner3_eq] at *
  have hx : (icpCross v0 v1 0) ^ 2 + (icpCross v0 v1 1) ^ 2 + (icpCross v0 v1 2) ^ 2 = 1 - c ^ 2 := by
    simp [icpCross]
    rw [hc]
    linear_combination (v1 0 * v1 0 + v1 1 * v1 1 + v1 2 * v1 2) * h0 + h1
  have hk : (1 / s) ^ 2 * s ^ 2 = 1 := by field_simp
  have hc1 : (1 / s) ^ 2 * (1 - c ^ 2) = (1 - c) / 2 := by
    have : (1 / s) ^ 2 * (1 - c ^ 2) = (1 / s) ^ 2 * s ^ 2 * (1 - c) / 2 := by rw [hs]; ring
    rw [this, hk]; ring
  show (s * 0.5) ^ 2 + (icpCross v0 v1 0 * (1 / s)) ^ 2 + (icpCross v0 v1 1 * (1 / s)) ^ 2 + (icpCross v0 v1 2 * (1 / s)) ^ 2 = 1
  have : (s * 0.5) ^ 2 + (icpCross v0 v1 0 * (1 / s)) ^ 2 + (icpCross v0 v1 1 * (1 / s)) ^ 2 + (icpCross v0 v1 2 * (1 / s)) ^ 2 =
      s ^ 2 / 4 + (1 / s) ^ 2 * ((icpCross v0 v1 0) ^ 2 + (icpCross v0 v1 1) ^ 2 + (icpCross v0 v1 2) ^ 2) := by ring
  rw [this, hx, hc1, hs]
  ring

theorem turn_maps (v0 v1 : Fin 3 → ℝ) (h0 : inner3 v0 v0 = 1) (h1 : inner3 v1 v1 = 1) (c s : ℝ)
    (hc : c = inner3 v1 v0) (hs : s ^ 2 = (1 + c) * 2) (hspos : 0 < s) :
    let x := icpCross v0 v1
    (Quat.mk (s * 0.5) (x 0 * (1 / s)) (x 1 * (1 / s)) (x 2 * (1 / s))).act v0 = v1 := by
  intro x
  rw [quat_act]
  have hk1 : s * (1 / s) = 1 := by field_simp
  have hk : (1 / s) ^ 2 * s ^ 2 = 1 := by field_simp
  have hk2 : 2 * (1 / s) ^ 2 * (1 - c ^ 2) = 1 - c := by
    have : 2 * (1 / s) ^ 2 * (1 - c ^ 2) = (1 / s) ^ 2 * s ^ 2 * (1 - c) := by rw [hs]; ring
    rw [this, hk]; ring
  rw [inner3_eq] at *
  -- the first product
  have hA : ∀ i, icpCross ![x 0 * (1 / s), x 1 * (1 / s), x 2 * (1 / s)] v0 i = (1 / s) * (v1 i - c * v0 i) := by
    intro i
    rw [hc]
    fin_cases i <;> simp [icpCross, x]
    · linear_combination s⁻¹ * v1 0 * h0
    · linear_combination s⁻¹ * v1 1 * h0
    · linear_combination s⁻¹ * v1 2 * h0
  have hB : ∀ i, icpCross ![x 0 * (1 / s), x 1 * (1 / s), x 2 * (1 / s)]
      (icpCross ![x 0 * (1 / s), x 1 * (1 / s), x 2 * (1 / s)] v0) i = -(1 / s) ^ 2 * (1 - c ^ 2) * v0 i := by
    intro i
    have hAf : icpCross ![x 0 * (1 / s), x 1 * (1 / s), x 2 * (1 / s)] v0 = fun i => (1 / s) * (v1 i - c * v0 i) := funext hA
    rw [hAf, hc]
    fin_cases i <;> simp [icpCross, x]
    · linear_combination -(s⁻¹) ^ 2 * (v1 0 * v0 0 + v1 1 * v0 1 + v1 2 * v0 2) * v1 0 * h0 - (s⁻¹) ^ 2 * v0 0 * h1
    · linear_combination -(s⁻¹) ^ 2 * (v1 0 * v0 0 + v1 1 * v0 1 + v1 2 * v0 2) * v1 1 * h0 - (s⁻¹) ^ 2 * v0 1 * h1
    · linear_combination -(s⁻¹) ^ 2 * (v1 0 * v0 0 + v1 1 * v0 1 + v1 2 * v0 2) * v1 2 * h0 - (s⁻¹) ^ 2 * v0 2 * h1
  funext i
  rw [hA, hB]
  linear_combination (v1 i - c * v0 i) * hk1 - v0 i * hk2

/-- Lagrange's identity for three vectors, as an inequality. -/
theorem triple_le (n v0 v1 : Fin 3 → ℝ) (hn : inner3 n n = 1) (h0 : inner3 v0 v0 = 1) (h1 : inner3 v1 v1 = 1) :
    (inner3 (icpCross n v0) v1) ^ 2 ≤ 1 - inner3 v1 v0 ^ 2 := by
  have hx : (icpCross v0 v1 0) ^ 2 + (icpCross v0 v1 1) ^ 2 + (icpCross v0 v1 2) ^ 2 = 1 - inner3 v1 v0 ^ 2 := by
    rw [inner3_eq] at *
    simp [icpCross]
    linear_combination (v1 0 * v1 0 + v1 1 * v1 1 + v1 2 * v1 2) * h0 + h1
  have ht : inner3 (icpCross n v0) v1 = n 0 * icpCross v0 v1 0 + n 1 * icpCross v0 v1 1 + n 2 * icpCross v0 v1 2 := by
    rw [inner3_eq]
    simp [icpCross]
    ring
  rw [ht, ← hx]
  rw [inner3_eq] at hn
  generalize icpCross v0 v1 0 = a at *
  generalize icpCross v0 v1 1 = b at *
  generalize icpCross v0 v1 2 = c at *
  nlinarith [sq_nonneg (n 0 * b - n 1 * a), sq_nonneg (n 1 * c - n 2 * b), sq_nonneg (n 2 * a - n 0 * c)]

theorem inner_ge (v0 v1 : Fin 3 → ℝ) (h0 : inner3 v0 v0 = 1) (h1 : inner3 v1 v1 = 1) : -1 ≤ inner3 v1 v0 := by
  rw [inner3_eq] at *
  nlinarith [sq_nonneg (v0 0 + v1 0), sq_nonneg (v0 1 + v1 1), sq_nonneg (v0 2 + v1 2)]

theorem normalize3_unit {a : Fin 3 → ℝ} (h : a ≠ 0) : inner3 (normalize3 a) (normalize3 a) = 1 := by
  have hp := length3_pos h
  have hs := length3_sq a
  rw [length3_eq] at hp hs
  unfold normalize3
  rw [if_pos hp]
  rw [inner3_eq] at *
  field_simp
  linarith

/-- What the turn from one vector to another does: exact unless they are opposite. -/
theorem fromTwo_spec (axis : (Fin 3 → ℝ) → (Fin 3 → ℝ) → Fin 3 → ℝ) (hp : PerpAxis axis) (a b : Fin 3 → ℝ) (ha : a ≠ 0) (hb : b ≠ 0) :
    (fromTwoVectors axis a b).IsUnit ∧
    1 - 1e-11 ≤ inner3 (normalize3 b) ((fromTwoVectors axis a b).act (normalize3 a)) := by
  have h0 := normalize3_unit ha
  have h1 := normalize3_unit hb
  unfold fromTwoVectors
  generalize normalize3 a = v0 at *
  generalize normalize3 b = v1 at *
  dsimp only
  rw [← inner3_eq v1 v0]
  have hge := inner_ge v0 v1 h0 h1
  by_cases hlt : inner3 v1 v0 < -1 + 1e-12
  · rw [if_pos hlt, max_eq_left hge]
    obtain ⟨hn, hn0, hn1⟩ := hp v0 v1
    have htl := triple_le (axis v0 v1) v0 v1 hn h0 h1
    generalize axis v0 v1 = n at *
    generalize hcc : inner3 v1 v0 = c at *
    have hw : Real.sqrt ((1 + c) * 0.5) ^ 2 = (1 + c) * 0.5 := Real.sq_sqrt (by linarith)
    have hs : Real.sqrt (1 - (1 + c) * 0.5) ^ 2 = 1 - (1 + c) * 0.5 := Real.sq_sqrt (by norm_num at hlt ⊢; linarith)
    have hw0 := Real.sqrt_nonneg ((1 + c) * 0.5)
    have hs0 := Real.sqrt_nonneg (1 - (1 + c) * 0.5)
    generalize Real.sqrt ((1 + c) * 0.5) = w at *
    generalize Real.sqrt (1 - (1 + c) * 0.5) = s at *
    refine ⟨?_, ?_⟩
    · show w ^ 2 + (n 0 * s) ^ 2 + (n 1 * s) ^ 2 + (n 2 * s) ^ 2 = 1
      rw [inner3_eq] at hn
      linear_combination hw + hs + s ^ 2 * hn
    · rw [quat_act]
      have hX : inner3 v1 (fun i => v0 i + 2 * w * icpCross ![n 0 * s, n 1 * s, n 2 * s] v0 i +
          2 * icpCross ![n 0 * s, n 1 * s, n 2 * s] (icpCross ![n 0 * s, n 1 * s, n 2 * s] v0) i) =
          (1 - 2 * s ^ 2) * c + 2 * w * s * inner3 (icpCross n v0) v1 := by
        rw [inner3_eq] at *
        rw [inner3_eq] at *
        rw [← hcc]
        simp [icpCross]
        linear_combination (2 * s ^ 2 * (v1 0 * n 0 + v1 1 * n 1 + v1 2 * n 2)) * hn0 -
          (2 * s ^ 2 * (v1 0 * v0 0 + v1 1 * v0 1 + v1 2 * v0 2)) * hn
      rw [hX]
      have hws : (2 * w * s) ^ 2 = 1 - c ^ 2 := by
        rw [mul_pow, mul_pow, hw, hs]; ring
      have hb : |2 * w * s * inner3 (icpCross n v0) v1| ≤ 1 - c ^ 2 := by
        apply abs_le_of_sq_le_sq
        · rw [mul_pow, hws, sq (1 - c ^ 2)]
          exact mul_le_mul_of_nonneg_left htl (by nlinarith)
        · nlinarith
      have := (abs_le.1 hb).1
      have hc1 : 1 - 2 * s ^ 2 = c := by rw [hs]; ring
      rw [hc1]
      norm_num at hlt ⊢
      nlinarith
  · rw [if_neg hlt]
    have hpos : 0 < (1 + inner3 v1 v0) * 2 := by norm_num at hlt ⊢; linarith
    have hs := Real.sq_sqrt (le_of_lt hpos)
    have hsp := Real.sqrt_pos.2 hpos
    refine ⟨turn_unit v0 v1 h0 h1 _ _ rfl hs hsp, ?_⟩
    have := turn_maps v0 v1 h0 h1 _ _ rfl hs hsp
    dsimp only at this
    rw [this, h1]
    norm_num

/-! ### the tracker -/

/-- The axis that is up, seen by the sensor. -/
theorem up_unit {o : Quat} (ho : o.IsUnit) : o.conj.act ![0, 0, 1] ≠ 0 ∧ normalize3 (o.conj.act ![0, 0, 1]) = o.toMat.transpose.mulVec ![0, 0, 1] := by
  have hact : o.conj.act ![0, 0, 1] = o.toMat.transpose.mulVec ![0, 0, 1] := by
    unfold Quat.act
    rw [Quat.toMat_conj]
  have hr := Quat.toMat_rot ho
  have hl : length3 (o.toMat.transpose.mulVec ![0, 0, 1]) = 1 := by
    rw [rot_length (R := o.toMat.transpose) (by rw [Matrix.transpose_transpose]; exact rot_right hr.1)]
    unfold length3
    rw [inner3_eq]
    simp
  refine ⟨?_, ?_⟩
  · intro h
    rw [← hact, h] at hl
    unfold length3 at hl
    rw [inner3_eq] at hl
    simp at hl
  · rw [hact]
    unfold normalize3
    rw [← length3_eq, hl, if_pos one_pos]
    funext i
    rw [div_one]

/-- The part of a vector along z. -/
theorem third_eq (v : Fin 3 → ℝ) : v 2 = inner3 v ![0, 0, 1] := by
  rw [inner3_eq]
  simp

theorem scaled (g : Fin 3 → ℝ) (h : g ≠ 0) : g = length3 g • normalize3 g := by
  have hp := length3_pos h
  have hp' := hp
  rw [length3_eq] at hp'
  unfold normalize3
  rw [if_pos hp']
  funext i
  rw [Pi.smul_apply, smul_eq_mul, length3_eq, mul_div_cancel₀ _ (ne_of_gt hp')]

/-- The new orientation after an acceleration. -/
theorem turned_up (axis : (Fin 3 → ℝ) → (Fin 3 → ℝ) → Fin 3 → ℝ) (hp : PerpAxis axis) (o : Quat) (ho : o.IsUnit) (g : Fin 3 → ℝ) (hg : g ≠ 0) :
    let o' := (o.mul (fromTwoVectors axis g (o.conj.act ![0, 0, 1]))).normalize
    o'.IsUnit ∧ Upright o'.toMat g := by
  obtain ⟨hb, hn⟩ := up_unit ho
  obtain ⟨hu, hi⟩ := fromTwo_spec axis hp g _ hg hb
  have hm := Quat.unit_mul ho hu
  dsimp only
  rw [Quat.normalize_unit hm]
  refine ⟨hm, ?_⟩
  rw [hn] at hi
  have : (o.mul (fromTwoVectors axis g (o.conj.act ![0, 0, 1]))).toMat.mulVec g 2 =
      length3 g * inner3 (o.toMat.transpose.mulVec ![0, 0, 1]) ((fromTwoVectors axis g (o.conj.act ![0, 0, 1])).act (normalize3 g)) := by
    rw [third_eq (Matrix.mulVec _ g), Quat.toMat_mul ho hu, ← Matrix.mulVec_mulVec, inner3_mulVec]
    generalize o.toMat.transpose.mulVec ![0, 0, 1] = e
    generalize hr : fromTwoVectors axis g (o.conj.act ![0, 0, 1]) = r
    have hsc : r.toMat.mulVec g = length3 g • r.act (normalize3 g) := by
      conv_lhs => rw [scaled g hg]
      rw [Matrix.mulVec_smul]
      rfl
    rw [hsc, inner3_eq, inner3_eq]
    simp only [Pi.smul_apply, smul_eq_mul]
    ring
  unfold Upright
  rw [this, mul_comm]
  exact mul_le_mul_of_nonneg_left hi (le_of_lt (length3_pos hg))

/-- What holds of every tracker. -/
structure ImuInv (s : ImuState) : Prop where
  unit : s.o.IsUnit
  up : Upright s.o.toMat s.g
  times : s.lastAcc ≤ 0 ∨ s.lastAcc ≤ s.time

theorem imu_start (t : ℝ) : ImuInv (imuStart t) := by
  refine ⟨?_, ?_, Or.inl (le_refl _)⟩
  · show (1 : ℝ) ^ 2 + 0 ^ 2 + 0 ^ 2 + 0 ^ 2 = 1
    norm_num
  · have hl : length3 ![0, 0, 1] = 1 := by
      unfold length3
      rw [inner3_eq]
      simp
    show (1 - 1e-11) * length3 ![0, 0, 1] ≤ (Quat.toMat ⟨1, 0, 0, 0⟩).mulVec ![0, 0, 1] 2
    rw [hl]
    simp [Quat.toMat, Matrix.mulVec, dotProduct, Fin.sum_univ_three]
    norm_num

/-- C69, acceleration: in a tracker that has run so far, a reading is accepted exactly if the gravity
estimate it leads to is not zero; otherwise the program stops. -/
theorem imu_acceleration (axis : (Fin 3 → ℝ) → (Fin 3 → ℝ) → Fin 3 → ℝ) (hp : PerpAxis axis) (tau : ℝ) (s : ImuState) (h : ImuInv s) (a : Fin 3 → ℝ) :
    (imuGravity tau s a = 0 → imuStep axis tau s (.acceleration a) = .abort) ∧
    (imuGravity tau s a ≠ 0 → ∃ o, imuStep axis tau s (.acceleration a) = .ok { s with lastAcc := s.time, g := imuGravity tau s a, o := o } ∧
      o.IsUnit ∧ Upright o.toMat (imuGravity tau s a)) := by
  refine ⟨fun hz => ?_, fun hn => ?_⟩
  · unfold imuStep
    dsimp only
    rw [hz, Outcome.check_neg, Outcome.bind_abort]
    unfold Quat.act
    rw [Matrix.mulVec_zero]
    simp
  · obtain ⟨hu, hup⟩ := turned_up axis hp s.o h.unit _ hn
    refine ⟨_, ?_, hu, hup⟩
    unfold imuStep
    dsimp only
    generalize (s.o.mul (fromTwoVectors axis (imuGravity tau s a) (s.o.conj.act ![0, 0, 1]))).normalize = o at *
    have hl := length3_pos hn
    unfold Upright at hup
    have h1 : o.act (imuGravity tau s a) 2 > 0 := by
      unfold Quat.act
      norm_num at hup ⊢
      nlinarith
    have hlen : norm3 (o.act (imuGravity tau s a)) = length3 (imuGravity tau s a) := by
      rw [← length3_eq]
      exact rot_length (Quat.toMat_rot hu).1 _
    have h2 : normalize3 (o.act (imuGravity tau s a)) 2 > 0.99 := by
      unfold normalize3
      rw [hlen, if_pos hl]
      show 0.99 < o.act (imuGravity tau s a) 2 / length3 (imuGravity tau s a)
      rw [lt_div_iff₀ hl]
      unfold Quat.act
      norm_num at hup ⊢
      nlinarith
    rw [Outcome.check_pos h1, Outcome.bind_ok, Outcome.check_pos h2, Outcome.bind_ok]
    rfl

theorem imu_advance (axis : (Fin 3 → ℝ) → (Fin 3 → ℝ) → Fin 3 → ℝ) (tau : ℝ) (s s' : ImuState) (h : ImuInv s) (t : ℝ)
    (e : imuStep axis tau s (.advance t) = .ok s') : ImuInv s' ∧ length3 s'.g = length3 s.g ∧
      s'.o.toMat.mulVec s'.g = s.o.toMat.mulVec s.g := by
  unfold imuStep at e
  rw [Outcome.check_bind_eq_ok] at e
  obtain ⟨ht, e⟩ := e
  have e' := Outcome.ok.inj e
  subst e'
  have hr := eulerQuat_unit ⟨s.omega 0 * (t - s.time), s.omega 1 * (t - s.time), s.omega 2 * (t - s.time)⟩
  dsimp only
  generalize eulerQuat ⟨s.omega 0 * (t - s.time), s.omega 1 * (t - s.time), s.omega 2 * (t - s.time)⟩ = r at *
  have hm := Quat.unit_mul h.unit hr
  rw [Quat.normalize_unit hm]
  have hact : r.conj.act s.g = r.toMat.transpose.mulVec s.g := by
    unfold Quat.act
    rw [Quat.toMat_conj]
  have hrr := rot_right (Quat.toMat_rot hr).1
  have hlen : length3 (r.conj.act s.g) = length3 s.g := by
    rw [hact]
    exact rot_length (R := r.toMat.transpose) (by rw [Matrix.transpose_transpose]; exact hrr) _
  have hsame : (s.o.mul r).toMat.mulVec (r.conj.act s.g) = s.o.toMat.mulVec s.g := by
    rw [Quat.toMat_mul h.unit hr, hact, ← Matrix.mulVec_mulVec, Matrix.mulVec_mulVec (r.conj.act s.g |> fun _ => s.g) r.toMat, hrr, Matrix.one_mulVec]
  refine ⟨⟨hm, ?_, ?_⟩, hlen, hsame⟩
  · show (1 - 1e-11) * length3 (r.conj.act s.g) ≤ (s.o.mul r).toMat.mulVec (r.conj.act s.g) 2
    rw [hlen, hsame]
    exact h.up
  · rcases h.times with h1 | h1
    · exact Or.inl h1
    · exact Or.inr (le_trans h1 ht)

theorem imu_step_inv (axis : (Fin 3 → ℝ) → (Fin 3 → ℝ) → Fin 3 → ℝ) (hp : PerpAxis axis) (tau : ℝ) (s s' : ImuState) (h : ImuInv s) (ev : ImuEvent)
    (e : imuStep axis tau s ev = .ok s') : ImuInv s' := by
  cases ev with
  | advance t => exact (imu_advance axis tau s s' h t e).1
  | acceleration a =>
    obtain ⟨h1, h2⟩ := imu_acceleration axis hp tau s h a
    by_cases hz : imuGravity tau s a = 0
    · rw [h1 hz] at e
      cases e
    · obtain ⟨o, ho, hu, hup⟩ := h2 hz
      rw [ho] at e
      cases e
      exact ⟨hu, hup, Or.inr (le_refl _)⟩
  | rotation w =>
    unfold imuStep at e
    cases e
    exact ⟨h.unit, h.up, h.times⟩

theorem imu_run_inv (axis : (Fin 3 → ℝ) → (Fin 3 → ℝ) → Fin 3 → ℝ) (hp : PerpAxis axis) (tau : ℝ) (es : List ImuEvent) :
    ∀ s s', ImuInv s → imuRun axis tau s es = .ok s' → ImuInv s' := by
  induction es with
  | nil =>
    intro s s' h e
    cases e
    exact h
  | cons ev es ih =>
    intro s s' h e
    unfold imuRun at e
    obtain ⟨m, h1, h2⟩ := (Outcome.bind_eq_ok _ _ _).1 e
    exact ih m s' (imu_step_inv axis hp tau s m h ev h1) h2

/-- C69, up: after any history the orientation is a rotation and takes the gravity estimate to the
vertical. -/
theorem C69_up (axis : (Fin 3 → ℝ) → (Fin 3 → ℝ) → Fin 3 → ℝ) (hp : PerpAxis axis) (tau t : ℝ) (es : List ImuEvent) (s : ImuState)
    (h : imuRun axis tau (imuStart t) es = .ok s) : IsRot3 s.o.toMat ∧ Upright s.o.toMat s.g := by
  have := imu_run_inv axis hp tau es _ s (imu_start t) h
  exact ⟨Quat.toMat_rot this.unit, this.up⟩

/-- C69, no stop: after any history a turn rate is accepted, a time is accepted if it is not earlier, and an
acceleration is accepted exactly if the gravity estimate does not become zero. -/
theorem C69_accepts_partial (axis : (Fin 3 → ℝ) → (Fin 3 → ℝ) → Fin 3 → ℝ) (hp : PerpAxis axis) (tau t : ℝ) (es : List ImuEvent) (s : ImuState)
    (h : imuRun axis tau (imuStart t) es = .ok s) :
    (∀ w, ∃ s', imuStep axis tau s (.rotation w) = .ok s') ∧
    (∀ u, (∃ s', imuStep axis tau s (.advance u) = .ok s') ↔ s.time ≤ u) ∧
    (∀ a, (∃ s', imuStep axis tau s (.acceleration a) = .ok s') ↔ imuGravity tau s a ≠ 0) := by
  have hi := imu_run_inv axis hp tau es _ s (imu_start t) h
  refine ⟨fun w => ⟨_, rfl⟩, fun u => ?_, fun a => ?_⟩
  · constructor
    · rintro ⟨s', e⟩
      unfold imuStep at e
      rw [Outcome.check_bind_eq_ok] at e
      exact e.1
    · intro hu
      unfold imuStep
      dsimp only
      rw [Outcome.check_pos hu, Outcome.bind_ok]
      exact ⟨_, rfl⟩
  · obtain ⟨h1, h2⟩ := imu_acceleration axis hp tau s hi a
    constructor
    · rintro ⟨s', e⟩ hz
      rw [h1 hz] at e
      cases e
    · intro hn
      obtain ⟨o, ho, _⟩ := h2 hn
      exact ⟨_, ho⟩

/-- C69 fails for a first reading of no acceleration (free fall, or a sensor without an accelerometer): the
program stops. -/
theorem C69_zero_fails (axis : (Fin 3 → ℝ) → (Fin 3 → ℝ) → Fin 3 → ℝ) (hp : PerpAxis axis) (tau t : ℝ) :
    imuRun axis tau (imuStart t) [.acceleration 0] = .abort := by
  unfold imuRun
  rw [(imu_acceleration axis hp tau _ (imu_start t) 0).1 ?_]
  · rfl
  · funext i
    unfold imuGravity imuAlpha imuStart
    simp

/-! ### size of the estimate -/

theorem length3_add (a b : Fin 3 → ℝ) : length3 (fun i => a i + b i) ≤ length3 a + length3 b := by
  have ha : 0 ≤ length3 a := Real.sqrt_nonneg _
  have hb : 0 ≤ length3 b := Real.sqrt_nonneg _
  have h1 := length3_sq a
  have h2 := length3_sq b
  apply le_of_sq_le_sq _ (by linarith)
  rw [length3_sq]
  have hcs : inner3 a b ≤ length3 a * length3 b := by
    apply le_of_sq_le_sq _ (mul_nonneg ha hb)
    rw [mul_pow, h1, h2]
    rw [inner3_eq, inner3_eq, inner3_eq]
    nlinarith [sq_nonneg (a 0 * b 1 - a 1 * b 0), sq_nonneg (a 1 * b 2 - a 2 * b 1), sq_nonneg (a 2 * b 0 - a 0 * b 2)]
  rw [inner3_eq] at hcs
  rw [add_sq, h1, h2, inner3_eq a a, inner3_eq b b, inner3_eq]
  nlinarith

theorem length3_smul (c : ℝ) (hc : 0 ≤ c) (a : Fin 3 → ℝ) : length3 (fun i => c * a i) = c * length3 a := by
  unfold length3
  have : inner3 (fun i => c * a i) (fun i => c * a i) = c ^ 2 * inner3 a a := by
    rw [inner3_eq, inner3_eq]
    ring
  rw [this, Real.sqrt_mul (sq_nonneg c), Real.sqrt_sq hc]

/-- C69, size: the gravity estimate is never longer than the longest acceleration (or the unit vector it
starts from). -/
theorem C69_size (axis : (Fin 3 → ℝ) → (Fin 3 → ℝ) → Fin 3 → ℝ) (hp : PerpAxis axis) (tau t B : ℝ) (ht : 0 < tau) (hB : 1 ≤ B)
    (es : List ImuEvent) (hes : ∀ a, ImuEvent.acceleration a ∈ es → length3 a ≤ B) (s : ImuState)
    (h : imuRun axis tau (imuStart t) es = .ok s) : length3 s.g ≤ B := by
  suffices H : ∀ (es : List ImuEvent), (∀ a, ImuEvent.acceleration a ∈ es → length3 a ≤ B) → ∀ s s', ImuInv s → length3 s.g ≤ B →
      imuRun axis tau s es = .ok s' → length3 s'.g ≤ B by
    refine H es hes _ s (imu_start t) ?_ h
    have : length3 (imuStart t).g = 1 := by
      show length3 ![0, 0, 1] = 1
      unfold length3
      rw [inner3_eq]
      simp
    rw [this]
    exact hB
  intro es
  induction es with
  | nil =>
    intro _ s s' _ hg e
    cases e
    exact hg
  | cons ev es ih =>
    intro hes s s' hi hg e
    unfold imuRun at e
    obtain ⟨m, h1, h2⟩ := (Outcome.bind_eq_ok _ _ _).1 e
    refine ih (fun a ha => hes a (by simp [ha])) m s' (imu_step_inv axis hp tau s m hi ev h1) ?_ h2
    cases ev with
    | advance u =>
      rw [(imu_advance axis tau s m hi u h1).2.1]
      exact hg
    | rotation w =>
      unfold imuStep at h1
      cases h1
      exact hg
    | acceleration a =>
      obtain ⟨k1, k2⟩ := imu_acceleration axis hp tau s hi a
      by_cases hz : imuGravity tau s a = 0
      · rw [k1 hz] at h1
        cases h1
      · obtain ⟨o, ho, _⟩ := k2 hz
        rw [ho] at h1
        cases h1
        show length3 (imuGravity tau s a) ≤ B
        have hal : 0 ≤ imuAlpha tau s ∧ imuAlpha tau s ≤ 1 := by
          unfold imuAlpha
          by_cases hl : s.lastAcc > 0
          · rw [if_pos hl]
            have hlt : s.lastAcc ≤ s.time := by
              rcases hi.times with hh | hh
              · linarith
              · exact hh
            have : Real.exp (-(s.time - s.lastAcc) / tau) ≤ 1 := by
              rw [Real.exp_le_one_iff]
              exact div_nonpos_of_nonpos_of_nonneg (by linarith) (le_of_lt ht)
            exact ⟨by linarith, by linarith [Real.exp_pos (-(s.time - s.lastAcc) / tau)]⟩
          · rw [if_neg hl]
            exact ⟨zero_le_one, le_refl _⟩
        unfold imuGravity
        refine le_trans (length3_add _ _) ?_
        rw [length3_smul _ (by linarith [hal.2]), length3_smul _ hal.1]
        have ha := hes a (by simp)
        nlinarith [mul_le_mul_of_nonneg_left hg (sub_nonneg.2 hal.2), mul_le_mul_of_nonneg_left ha hal.1]

/-- Non-vacuity: there are such axes. -/
theorem perp_exists : ∃ axis, PerpAxis axis := by
  have key : ∀ a b : Fin 3 → ℝ, ∃ n : Fin 3 → ℝ, inner3 n n = 1 ∧ inner3 n a = 0 ∧ inner3 n b = 0 := by
    intro a b
    obtain ⟨v, hv0, hv⟩ := Matrix.exists_mulVec_eq_zero_iff.2
      (show (Matrix.of ![a, b, 0] : Matrix (Fin 3) (Fin 3) ℝ).det = 0 by
        rw [Matrix.det_fin_three]
        simp)
    have h0 := congrFun hv 0
    have h1 := congrFun hv 1
    simp [Matrix.mulVec, dotProduct, Fin.sum_univ_three] at h0 h1
    have hl := length3_pos hv0
    rw [length3_eq] at hl
    refine ⟨normalize3 v, normalize3_unit hv0, ?_, ?_⟩
    · unfold normalize3
      rw [if_pos hl, inner3_eq]
      field_simp
      linarith
    · unfold normalize3
      rw [if_pos hl, inner3_eq]
      field_simp
      linarith
  choose axis h using key
  exact ⟨axis, h⟩

/-- Non-vacuity: a history with a reading, a turn rate and a step in time. -/
example : ∃ axis, PerpAxis axis ∧ ∃ s, imuRun axis 1 (imuStart 1)
    [.acceleration ![0, 0, 10], .rotation ![1, 0, 0], .advance 2] = .ok s := by
  obtain ⟨axis, hp⟩ := perp_exists
  refine ⟨axis, hp, ?_⟩
  obtain ⟨o, ho, hu, hup⟩ := (imu_acceleration axis hp 1 _ (imu_start 1) ![0, 0, 10]).2 (by
    intro h
    have := congrFun h 2
    simp [imuGravity, imuAlpha, imuStart] at this)
  unfold imuRun
  rw [ho, Outcome.bind_ok]
  unfold imuRun
  show ∃ s, (Outcome.ok _ >>= fun s => imuRun axis 1 s [ImuEvent.advance 2]) = .ok s
  rw [Outcome.bind_ok]
  unfold imuRun imuStep
  dsimp only
  rw [Outcome.check_pos (by show (1 : ℝ) ≤ 2; norm_num)]
  exact ⟨_, rfl⟩

end Verif
