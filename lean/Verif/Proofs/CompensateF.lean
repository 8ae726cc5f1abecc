import Verif.Spec.CompensateF
import Verif.Proofs.Slerp
import Verif.Proofs.RangePixelF
import Mathlib.Analysis.SpecialFunctions.Trigonometric.Bounds
import Mathlib.Analysis.Calculus.Deriv.MeanValue
namespace Verif
open Verif.Spec
noncomputable section

/-- The factor of a quaternion when turning by `φ`. -/
def turnRatio (t φ : ℝ) : ℝ := if φ = 0 then t else Real.sin (t * φ) / Real.sin φ

theorem sin_ge {x : ℝ} (h0 : 0 ≤ x) (h1 : x ≤ 1) : 5 / 6 * x ≤ Real.sin x := by
  rcases h0.eq_or_lt with rfl | h
  · simp
  · have := Real.sin_gt_sub_cube h
    nlinarith [pow_pos h 3, mul_nonneg h0 (mul_nonneg h0 (by linarith : (0:ℝ) ≤ 1 - x)), mul_nonneg h0 (by linarith : (0:ℝ) ≤ 1 - x)]

theorem turnRatio_deriv_le {t x : ℝ} (t0 : 0 ≤ t) (t1 : t ≤ 1) (x0 : 0 ≤ x) (_x1 : x ≤ 1) :
    |Real.sin (t * x) * Real.cos x - t * Real.cos (t * x) * Real.sin x| ≤ x ^ 3 := by
  have hd : ∀ y : ℝ, HasDerivAt (fun y => Real.sin (t * y) * Real.cos y - t * Real.cos (t * y) * Real.sin y)
      (-(1 - t ^ 2) * (Real.sin (t * y) * Real.sin y)) y := by
    intro y
    have h1 : HasDerivAt (fun y => t * y) t y := by simpa using (hasDerivAt_id y).const_mul t
    have := (h1.sin.mul (Real.hasDerivAt_cos y)).sub ((h1.cos.const_mul t).mul (Real.hasDerivAt_sin y))
    refine this.congr_deriv ?_
    ring
  have := norm_image_sub_le_of_norm_deriv_le_segment' (a := 0) (b := x) (C := x ^ 2)
    (fun y _ => (hd y).hasDerivWithinAt) (fun y hy => ?_) x ⟨x0, le_rfl⟩
  · simpa [Real.norm_eq_abs, pow_succ] using this
  · rw [Real.norm_eq_abs, abs_mul, abs_mul, abs_neg]
    have a1 : |1 - t ^ 2| ≤ 1 := by rw [abs_le]; constructor <;> nlinarith
    have a2 : |Real.sin (t * y)| ≤ x := by
      refine Real.abs_sin_le_abs.trans ?_
      rw [abs_of_nonneg (mul_nonneg t0 hy.1)]
      nlinarith [hy.1, hy.2]
    have a3 : |Real.sin y| ≤ x := by
      refine Real.abs_sin_le_abs.trans ?_
      rw [abs_of_nonneg hy.1]
      exact hy.2.le
    calc |1 - t ^ 2| * (|Real.sin (t * y)| * |Real.sin y|) ≤ 1 * (x * x) := by gcongr
      _ = x ^ 2 := by ring

theorem turnRatio_zero {t ψ : ℝ} (t0 : 0 ≤ t) (t1 : t ≤ 1) (h0 : 0 < ψ) (h1 : ψ ≤ 1) :
    |Real.sin (t * ψ) / Real.sin ψ - t| ≤ 2 * (1 - Real.cos ψ) := by
  have hs := sin_ge h0.le h1
  have hp : 0 < Real.sin ψ := by linarith
  have hd : ∀ y : ℝ, HasDerivAt (fun y => Real.sin (t * y) - t * Real.sin y) (t * (Real.cos (t * y) - Real.cos y)) y := by
    intro y
    have g1 : HasDerivAt (fun y => t * y) t y := by simpa using (hasDerivAt_id y).const_mul t
    refine (g1.sin.sub ((Real.hasDerivAt_sin y).const_mul t)).congr_deriv ?_
    ring
  have := norm_image_sub_le_of_norm_deriv_le_segment' (a := 0) (b := ψ) (C := 1 - Real.cos ψ)
    (fun y _ => (hd y).hasDerivWithinAt) (fun y hy => ?_) ψ ⟨h0.le, le_rfl⟩
  · have e : Real.sin (t * ψ) / Real.sin ψ - t = (Real.sin (t * ψ) - t * Real.sin ψ) / Real.sin ψ := by
      field_simp
    rw [e, abs_div, abs_of_pos hp, div_le_iff₀ hp]
    simp only [mul_zero, Real.sin_zero, sub_zero, Real.norm_eq_abs] at this
    have hc : 0 ≤ 1 - Real.cos ψ := by linarith [Real.cos_le_one ψ]
    nlinarith
  · have y1 : y ≤ 1 := hy.2.le.trans h1
    have hpi := Real.pi_gt_three
    have b1 : Real.cos ψ ≤ Real.cos y := Real.cos_le_cos_of_nonneg_of_le_pi hy.1 (by linarith) hy.2.le
    have b2 : Real.cos y ≤ Real.cos (t * y) := Real.cos_le_cos_of_nonneg_of_le_pi (mul_nonneg t0 hy.1) (by linarith)
      (by nlinarith [hy.1])
    have b3 := Real.cos_le_one (t * y)
    rw [Real.norm_eq_abs, abs_of_nonneg (mul_nonneg t0 (by linarith))]
    nlinarith

theorem turnRatio_lt {t φ ψ : ℝ} (t0 : 0 ≤ t) (t1 : t ≤ 1) (h0 : 0 ≤ φ) (h : φ < ψ) (h1 : ψ ≤ 1) :
    |turnRatio t ψ - turnRatio t φ| ≤ 2 * (Real.cos φ - Real.cos ψ) := by
  unfold turnRatio
  rw [if_neg (by linarith : ψ ≠ 0)]
  rcases h0.eq_or_lt with rfl | h0
  · simpa using turnRatio_zero t0 t1 h h1
  rw [if_neg h0.ne']
  have hpi := Real.pi_gt_three
  have hpos : ∀ y, φ ≤ y → y ≤ ψ → 0 < Real.sin y := fun y a b => by
    have := sin_ge (by linarith : 0 ≤ y) (by linarith)
    linarith
  have hd : ∀ y : ℝ, φ ≤ y → y ≤ ψ → HasDerivAt (fun y => Real.sin (t * y) / Real.sin y)
      (-(Real.sin (t * y) * Real.cos y - t * Real.cos (t * y) * Real.sin y) / Real.sin y ^ 2) y := by
    intro y a b
    have g1 : HasDerivAt (fun y => t * y) t y := by simpa using (hasDerivAt_id y).const_mul t
    refine (g1.sin.div (Real.hasDerivAt_sin y) (hpos y a b).ne').congr_deriv ?_
    ring
  obtain ⟨c, hc, e⟩ := exists_ratio_hasDerivAt_eq_ratio_slope (fun y => Real.sin (t * y) / Real.sin y) _ h
    (fun y hy => (hd y hy.1 hy.2).continuousAt.continuousWithinAt) (fun y hy => hd y hy.1.le hy.2.le)
    Real.cos (fun y => -Real.sin y) Real.continuous_cos.continuousOn (fun y _ => Real.hasDerivAt_cos y)
  have hs := hpos c hc.1.le hc.2.le
  have c0 : 0 < c := h0.trans hc.1
  have c1 : c ≤ 1 := hc.2.le.trans h1
  have g := turnRatio_deriv_le t0 t1 c0.le c1
  have k := sin_ge c0.le c1
  have cc : Real.cos ψ ≤ Real.cos φ := Real.cos_le_cos_of_nonneg_of_le_pi h0.le (by linarith) h.le
  obtain ⟨H, hH⟩ : ∃ H, H = Real.sin (t * c) * Real.cos c - t * Real.cos (t * c) * Real.sin c := ⟨_, rfl⟩
  rw [← hH] at e g
  obtain ⟨s, hs'⟩ : ∃ s, s = Real.sin c := ⟨_, rfl⟩
  rw [← hs'] at e hs k
  obtain ⟨D, hD⟩ : ∃ D, D = Real.sin (t * ψ) / Real.sin ψ - Real.sin (t * φ) / Real.sin φ := ⟨_, rfl⟩
  rw [← hD] at e ⊢
  obtain ⟨G, hG⟩ : ∃ G, G = Real.cos φ - Real.cos ψ := ⟨_, rfl⟩
  rw [← hG] at ⊢
  have e2 : D * s ^ 3 = -(G * H) := by
    have : (Real.cos ψ - Real.cos φ) * (-H / s ^ 2) = D * -s := e
    have h3 : Real.cos ψ - Real.cos φ = -G := by rw [hG]; ring
    rw [h3] at this
    field_simp at this
    linarith
  have G0 : 0 ≤ G := by rw [hG]; linarith
  have s3 : c ^ 3 ≤ 2 * s ^ 3 := by
    have : (5 / 6 * c) ^ 3 ≤ s ^ 3 := pow_le_pow_left₀ (by positivity) k 3
    nlinarith [pow_pos c0 3]
  have sp : 0 < s ^ 3 := by positivity
  have : |D| * s ^ 3 ≤ 2 * G * s ^ 3 := by
    calc |D| * s ^ 3 = |D * s ^ 3| := by rw [abs_mul, abs_of_pos sp]
      _ = G * |H| := by rw [e2, abs_neg, abs_mul, abs_of_nonneg G0]
      _ ≤ G * (2 * s ^ 3) := by gcongr; linarith
      _ = 2 * G * s ^ 3 := by ring
  exact le_of_mul_le_mul_right this sp

theorem turnRatio_lip {t φ ψ : ℝ} (t0 : 0 ≤ t) (t1 : t ≤ 1) (h0 : 0 ≤ φ) (h1 : φ ≤ 1) (k0 : 0 ≤ ψ) (k1 : ψ ≤ 1) :
    |turnRatio t ψ - turnRatio t φ| ≤ 2 * |Real.cos ψ - Real.cos φ| := by
  rcases lt_trichotomy φ ψ with h | rfl | h
  · refine (turnRatio_lt t0 t1 h0 h k1).trans ?_
    rw [abs_sub_comm]
    linarith [le_abs_self (Real.cos φ - Real.cos ψ)]
  · simp
  · rw [abs_sub_comm]
    refine (turnRatio_lt t0 t1 k0 h h1).trans ?_
    linarith [le_abs_self (Real.cos ψ - Real.cos φ)]

/-- A unit in the last place of 1. -/
def eta : ℝ := 1 / 2 ^ 52

theorem eta_pos : 0 < eta := by unfold eta; positivity
theorem eta_le : eta ≤ 1 / 4 * (1 / 10 ^ 15) := by unfold eta; norm_num

theorem tiny64 {k : ℕ} (hk : 200 ≤ k) : (1 : ℝ) / 2 ^ k ≤ 1 / 2 ^ 200 :=
  one_div_le_one_div_of_le (by positivity) (pow_le_pow_right₀ (by norm_num) hk)

theorem near64 {o : TrigOps} (ho : IeeeTrig o) {a b δ M : ℝ} (h : |a - b| ≤ δ) (ha : |a| ≤ M) (h1 : 1 ≤ M) (h2 : M ≤ 2 ^ 100) :
    |o.f64 a - b| ≤ δ + eta * M := by
  have k : |a| ≤ 2 ^ 1023 := ha.trans (h2.trans (pow_le_pow_right₀ (by norm_num) (by norm_num)))
  have g := ho.f64 a k
  have e : |o.f64 a - b| ≤ |o.f64 a - a| + |a - b| := abs_sub_le _ _ _
  have t := tiny64 (k := 1075) (by norm_num)
  have t2 : (1 : ℝ) / 2 ^ 200 ≤ 1 / 2 ^ 53 := one_div_le_one_div_of_le (by positivity) (by norm_num)
  have : eta * M = 1 / 2 ^ 53 * M + 1 / 2 ^ 53 * M := by unfold eta; ring
  have : (1 : ℝ) / 2 ^ 53 * |a| ≤ 1 / 2 ^ 53 * M := by gcongr
  have : (1 : ℝ) / 2 ^ 53 ≤ 1 / 2 ^ 53 * M := by nlinarith [show (0:ℝ) < 1 / 2 ^ 53 by positivity]
  linarith

theorem f64_zero {o : TrigOps} (ho : IeeeTrig o) : o.f64 0 = 0 := by simpa using ho.int 0 (by norm_num)

theorem mul_near {a b a' b' x y A B : ℝ} (ha : |a' - a| ≤ x) (hb : |b' - b| ≤ y) (hA : |a| ≤ A) (hB : |b'| ≤ B) :
    |a' * b' - a * b| ≤ x * B + A * y := by
  have e : a' * b' - a * b = (a' - a) * b' + a * (b' - b) := by ring
  rw [e]
  refine (abs_add_le _ _).trans ?_
  rw [abs_mul, abs_mul]
  have := abs_nonneg (a' - a)
  have := abs_nonneg a
  exact add_le_add (mul_le_mul ha hB (abs_nonneg _) (by linarith)) (mul_le_mul hA hb (abs_nonneg _) (by linarith))

theorem add_near {a b a' b' x y : ℝ} (ha : |a' - a| ≤ x) (hb : |b' - b| ≤ y) : |(a' + b') - (a + b)| ≤ x + y := by
  have e : (a' + b') - (a + b) = (a' - a) + (b' - b) := by ring
  rw [e]
  exact (abs_add_le _ _).trans (by linarith)

theorem sub_near {a b a' b' x y : ℝ} (ha : |a' - a| ≤ x) (hb : |b' - b| ≤ y) : |(a' - b') - (a - b)| ≤ x + y := by
  have e : (a' - b') - (a - b) = (a' - a) - (b' - b) := by ring
  rw [e]
  exact (abs_sub _ _).trans (by linarith)

theorem abs_near {a a' x A : ℝ} (ha : |a' - a| ≤ x) (hA : |a| ≤ A) : |a'| ≤ A + x := by
  have : a' = a + (a' - a) := by ring
  rw [this]
  exact (abs_add_le _ _).trans (by linarith)

theorem quatF_one {o : TrigOps} (ho : IeeeTrig o) : quatOfMatF o 1 = ⟨1, 0, 0, 0⟩ := by
  have e0 := f64_zero ho
  have e1 : o.f64 1 = 1 := by simpa using ho.int 1 (by norm_num)
  have e2 : o.f64 2 = 2 := by simpa using ho.int 2 (by norm_num)
  have e3 : o.f64 3 = 3 := by simpa using ho.int 3 (by norm_num)
  have e4 : o.f64 4 = 4 := by simpa using ho.int 4 (by norm_num)
  have s4 : Real.sqrt 4 = 2 := by rw [show (4:ℝ) = 2 ^ 2 by norm_num]; exact Real.sqrt_sq (by norm_num)
  have t1 : (1:ℝ) + 1 = 2 := by norm_num
  have t2 : (2:ℝ) + 1 = 3 := by norm_num
  have t3 : (3:ℝ) + 1 = 4 := by norm_num
  unfold quatOfMatF
  simp [t1, t2, t3, e0, e1, e2, e3, e4, s4]

theorem rot_entry_le {R : Mat3} (h : IsRot3 R) (i j : Fin 3) : |R i j| ≤ 1 := by
  have e := congrFun (congrFun h.1 j) j
  rw [Matrix.mul_apply, Matrix.one_apply_eq] at e
  simp only [Matrix.transpose_apply] at e
  rw [abs_le_one_iff_mul_self_le_one, ← e]
  exact Finset.single_le_sum (f := fun k => R k j * R k j) (fun k _ => mul_self_nonneg _) (Finset.mem_univ i)

theorem sqrt_near {a b x : ℝ} (h : |a - b| ≤ x) (hb : 1 ≤ b) (ha : 0 ≤ a) : |Real.sqrt a - Real.sqrt b| ≤ x := by
  have sb : 1 ≤ Real.sqrt b := Real.one_le_sqrt.2 hb
  have sa := Real.sqrt_nonneg a
  have e : (Real.sqrt a - Real.sqrt b) * (Real.sqrt a + Real.sqrt b) = a - b := by
    have := Real.sq_sqrt ha
    have := Real.sq_sqrt (by linarith : 0 ≤ b)
    nlinarith
  have : |Real.sqrt a - Real.sqrt b| * (Real.sqrt a + Real.sqrt b) ≤ x := by
    rw [← abs_of_nonneg (by linarith : 0 ≤ Real.sqrt a + Real.sqrt b), ← abs_mul, e]
    exact h
  nlinarith [abs_nonneg (Real.sqrt a - Real.sqrt b)]

/-- The quaternion of a matrix close to a rotation. -/
theorem quatF_near {o : TrigOps} (ho : IeeeTrig o) {R m : Mat3} (hR : IsRot3 R) (htr : 1 ≤ R 0 0 + R 1 1 + R 2 2) {d : ℝ}
    (hd : ∀ i j, |m i j - R i j| ≤ d) (d1 : d ≤ 1 / 10 ^ 6) :
    |(quatOfMatF o m).w - (quatOfMat R).w| ≤ 8 * d + 60 * eta ∧ |(quatOfMatF o m).x - (quatOfMat R).x| ≤ 8 * d + 60 * eta ∧
    |(quatOfMatF o m).y - (quatOfMat R).y| ≤ 8 * d + 60 * eta ∧ |(quatOfMatF o m).z - (quatOfMat R).z| ≤ 8 * d + 60 * eta := by
  have ep := eta_pos
  have el := eta_le
  have d0 : 0 ≤ d := (abs_nonneg _).trans (hd 0 0)
  have hm : ∀ i j, |m i j| ≤ 1 + d := fun i j => abs_near (hd i j) (rot_entry_le hR i j)
  obtain ⟨T, hT⟩ : ∃ T, T = R 0 0 + R 1 1 + R 2 2 := ⟨_, rfl⟩
  obtain ⟨t, ht⟩ : ∃ t, t = o.f64 (o.f64 (m 0 0 + m 1 1) + m 2 2) := ⟨_, rfl⟩
  have T3 : T ≤ 3 := by
    rw [hT]
    linarith [(abs_le.1 (rot_entry_le hR 0 0)).2, (abs_le.1 (rot_entry_le hR 1 1)).2, (abs_le.1 (rot_entry_le hR 2 2)).2]
  rw [← hT] at htr
  have n1 : |o.f64 (m 0 0 + m 1 1) - (R 0 0 + R 1 1)| ≤ 2 * d + 3 * eta := by
    have := near64 ho (M := 3) (add_near (hd 0 0) (hd 1 1)) ((abs_add_le _ _).trans (by linarith [hm 0 0, hm 1 1])) (by norm_num) (by norm_num)
    linarith
  have n2 : |t - T| ≤ 3 * d + 7 * eta := by
    have b1 := abs_near n1 (A := 2) ((abs_add_le _ _).trans (by linarith [rot_entry_le hR 0 0, rot_entry_le hR 1 1]))
    have := near64 ho (M := 4) (add_near n1 (hd 2 2)) ((abs_add_le _ _).trans (by linarith [hm 2 2])) (by norm_num) (by norm_num)
    rw [ht, hT]
    linarith
  have tb := abs_le.1 n2
  have tp : 0 < t := by linarith [tb.1]
  have n3 : |o.f64 (t + 1) - (T + 1)| ≤ 3 * d + 12 * eta := by
    have := near64 ho (M := 5) (a := t + 1) (b := T + 1) (δ := 3 * d + 7 * eta) (by rwa [add_sub_add_right_eq_sub])
      (abs_le.2 ⟨by linarith, by linarith [tb.2]⟩) (by norm_num) (by norm_num)
    linarith
  obtain ⟨u, hu⟩ : ∃ u, u = o.f64 (t + 1) := ⟨_, rfl⟩
  rw [← hu] at n3
  have ub := abs_le.1 n3
  obtain ⟨S, hS⟩ : ∃ S, S = Real.sqrt (T + 1) := ⟨_, rfl⟩
  have S1 : 7 / 5 ≤ S := by rw [hS]; exact Real.le_sqrt_of_sq_le (by norm_num; linarith)
  have S2 : S ≤ 2 := by rw [hS]; exact Real.sqrt_le_iff.2 ⟨by norm_num, by norm_num; linarith⟩
  obtain ⟨s, hs⟩ : ∃ s, s = o.f64 (Real.sqrt u) := ⟨_, rfl⟩
  have n4 : |s - S| ≤ 3 * d + 15 * eta := by
    have a := sqrt_near n3 (by linarith) (by linarith [ub.1])
    rw [← hS] at a
    have b := abs_near a (A := 2) (abs_le.2 ⟨by linarith, S2⟩)
    have := near64 ho (M := 3) a (by linarith) (by norm_num) (by norm_num)
    rw [hs]
    linarith
  have sb := abs_le.1 n4
  have s1 : 1 ≤ s := by linarith [sb.1]
  obtain ⟨f, hf⟩ : ∃ f, f = o.f64 (1 / 2 / s) := ⟨_, rfl⟩
  have n5 : |f - 1 / 2 / S| ≤ 2 * d + 9 * eta := by
    have a : |1 / 2 / s - 1 / 2 / S| ≤ 3 / 2 * d + 15 / 2 * eta := by
      have e : 1 / 2 / s - 1 / 2 / S = 1 / 2 * (S - s) / (s * S) := by
        have : s ≠ 0 := by linarith
        have : S ≠ 0 := by linarith
        field_simp
      rw [e, abs_div, abs_mul, abs_sub_comm, abs_of_pos (by positivity : (0:ℝ) < 1 / 2), abs_of_pos (by positivity : 0 < s * S),
        div_le_iff₀ (by positivity)]
      have : 1 ≤ s * S := by nlinarith
      nlinarith
    have b : |1 / 2 / s| ≤ 1 := by
      rw [abs_of_pos (by positivity), div_le_one (by linarith)]
      linarith
    have := near64 ho (M := 1) a b (by norm_num) (by norm_num)
    rw [hf]
    linarith
  have F1 : |1 / 2 / S| ≤ 2 / 5 := by
    rw [abs_of_pos (by positivity), div_le_iff₀ (by linarith)]
    linarith
  have f1 : |f| ≤ 1 / 2 := by have := abs_near n5 F1; linarith
  have off : ∀ i j k l, |o.f64 (o.f64 (m i j - m k l) * f) - (R i j - R k l) * (1 / 2 / S)| ≤ 8 * d + 60 * eta := by
    intro i j k l
    have a := near64 ho (M := 3) (sub_near (hd i j) (hd k l)) ((abs_sub _ _).trans (by linarith [hm i j, hm k l])) (by norm_num) (by norm_num)
    have A2 : |R i j - R k l| ≤ 2 := (abs_sub _ _).trans (by linarith [rot_entry_le hR i j, rot_entry_le hR k l])
    have b := mul_near a n5 A2 f1
    have c := abs_near b (A := 1) (by rw [abs_mul]; nlinarith [abs_nonneg (R i j - R k l), abs_nonneg (1 / 2 / S)])
    have := near64 ho (M := 2) b (by linarith) (by norm_num) (by norm_num)
    linarith
  have hw : |o.f64 (1 / 2 * s) - 1 / 2 * S| ≤ 8 * d + 60 * eta := by
    have a : |1 / 2 * s - 1 / 2 * S| ≤ 3 / 2 * d + 8 * eta := by
      rw [← mul_sub, abs_mul, abs_of_pos (by norm_num : (0:ℝ) < 1 / 2)]
      linarith
    have := near64 ho (M := 2) a (abs_le.2 ⟨by linarith, by linarith [sb.2]⟩) (by norm_num) (by norm_num)
    linarith
  have e1 : quatOfMatF o m = ⟨o.f64 (1 / 2 * s), o.f64 (o.f64 (m 2 1 - m 1 2) * f), o.f64 (o.f64 (m 0 2 - m 2 0) * f),
      o.f64 (o.f64 (m 1 0 - m 0 1) * f)⟩ := by
    unfold quatOfMatF
    dsimp only
    rw [← ht, if_pos tp, ← hu, ← hs, ← hf]
  have e2 : quatOfMat R = ⟨1 / 2 * S, (R 2 1 - R 1 2) * (1 / 2 / S), (R 0 2 - R 2 0) * (1 / 2 / S), (R 1 0 - R 0 1) * (1 / 2 / S)⟩ := by
    unfold quatOfMat
    dsimp only
    rw [← hT, if_pos (by linarith), ← hS]
  rw [e1, e2]
  exact ⟨hw, off 2 1 1 2, off 0 2 2 0, off 1 0 0 1⟩

set_option maxHeartbeats 1000000 in
/-- A factor of a quaternion is off by little, however small the angle is: only its cosine matters. -/
theorem scale_near {o : TrigOps} (ho : IeeeTrig o) {t t' φ c δ : ℝ} (t0 : 0 ≤ t) (t1 : t ≤ 1) (ht : |t' - t| ≤ eta)
    (p0 : 0 ≤ φ) (p1 : φ ≤ Real.pi / 4) (hc : |c - Real.cos φ| ≤ δ) (hδ : δ ≤ 1 / 1000) :
    |slerpScaleF o c t' - turnRatio t φ| ≤ 2 * δ + 31 * eta := by
  have ep := eta_pos
  have el := eta_le
  have hpi := Real.pi_lt_d2
  have P1 : φ ≤ 1 := by linarith
  have δ0 : 0 ≤ δ := (abs_nonneg _).trans hc
  have cb := abs_le.1 hc
  unfold slerpScaleF
  split
  · rename_i hn
    have a := turnRatio_lip t0 t1 p0 P1 le_rfl zero_le_one
    rw [Real.cos_zero, abs_of_nonneg (by linarith [Real.cos_le_one φ] : 0 ≤ 1 - Real.cos φ)] at a
    have r0 : turnRatio t 0 = t := by simp [turnRatio]
    rw [r0] at a
    have : |t' - turnRatio t φ| ≤ |t' - t| + |t - turnRatio t φ| := abs_sub_le _ _ _
    have : 1 - Real.cos φ ≤ δ + eta := by unfold eta; linarith [cb.2]
    linarith
  · rename_i hn
    have hn' : c < 1 - eta := not_le.1 hn
    have cφ : 707 / 1000 ≤ Real.cos φ := by
      have : Real.cos (Real.pi / 4) ≤ Real.cos φ := Real.cos_le_cos_of_nonneg_of_le_pi p0 (by linarith) p1
      rw [Real.cos_pi_div_four] at this
      have : 1414 / 1000 ≤ Real.sqrt 2 := Real.le_sqrt_of_sq_le (by norm_num)
      linarith
    have c0 : 7 / 10 ≤ c := by linarith [cb.1]
    obtain ⟨x, hx⟩ : ∃ x, x = Real.arccos c := ⟨_, rfl⟩
    have cx : Real.cos x = c := by rw [hx]; exact Real.cos_arccos (by linarith) (by linarith)
    have x0 : 0 ≤ x := by rw [hx]; exact Real.arccos_nonneg c
    have xpi : x ≤ Real.pi := by rw [hx]; exact Real.arccos_le_pi c
    have x1 : x ≤ 9 / 10 := by
      by_contra hcon
      have g1 : Real.cos x ≤ Real.cos (9 / 10) := Real.cos_le_cos_of_nonneg_of_le_pi (by norm_num) xpi (by linarith)
      have g2 := (abs_le.1 (Real.abs_cos_sub_cos_le (9 / 10) 1)).2
      have g3 := Real.cos_one_le
      have : |(9 / 10 : ℝ) - 1| = 1 / 10 := by rw [abs_of_neg (by norm_num)]; norm_num
      linarith
    have x2 : 1 / 2 ^ 26 ≤ x := by
      by_contra hcon
      have g1 := Real.one_sub_sq_div_two_le_cos (x := x)
      rw [cx] at g1
      have g2 : x ^ 2 ≤ (1 / 2 ^ 26) ^ 2 := pow_le_pow_left₀ x0 (by linarith) 2
      have g3 : ((1 : ℝ) / 2 ^ 26) ^ 2 = eta := by unfold eta; norm_num
      linarith
    obtain ⟨ψ, hψ⟩ : ∃ ψ, ψ = o.acos c := ⟨_, rfl⟩
    have hψx : |ψ - x| ≤ 5 * eta * x := by
      have := ho.acos c (by linarith) (by linarith)
      rw [← hψ, ← hx] at this
      have e : (1 : ℝ) / 2 ^ 50 = 4 * eta := by unfold eta; norm_num
      have e2 : eta * (1 / 2 ^ 26) ≤ eta * x := by gcongr
      have e3 : (1 : ℝ) / 2 ^ 200 ≤ eta * (1 / 2 ^ 26) := by unfold eta; norm_num
      have e4 := tiny64 (k := 1072) (by norm_num)
      rw [e] at this
      linarith
    have ex : 5 * eta * x ≤ 1 / 100 * x := by
      apply mul_le_mul_of_nonneg_right _ x0
      linarith
    have ψb := abs_le.1 hψx
    have ψ1 : ψ ≤ 1 := by linarith [ψb.2]
    have ψ2 : 1 / 2 ^ 27 ≤ ψ := by
      have : (1 : ℝ) / 2 ^ 27 = 1 / 2 * (1 / 2 ^ 26) := by norm_num
      rw [this]
      linarith [ψb.1]
    have ψ0 : 0 < ψ := lt_of_lt_of_le (by positivity) ψ2
    rw [← hψ]
    have tiny : ∀ k : ℕ, 200 ≤ k → (1 : ℝ) / 2 ^ k ≤ 1 / 10 * (eta * ψ) := by
      intro k hk
      refine (tiny64 hk).trans ?_
      have : eta * (1 / 2 ^ 27) ≤ eta * ψ := by gcongr
      refine le_trans ?_ (mul_le_mul_of_nonneg_left this (by norm_num))
      unfold eta
      norm_num
    have t'1 : |t'| ≤ 11 / 10 := by
      have := abs_near ht (abs_le.2 ⟨by linarith, t1⟩)
      linarith
    obtain ⟨y, hy⟩ : ∃ y, y = o.f64 (t' * ψ) := ⟨_, rfl⟩
    have ym : |t' * ψ| ≤ 11 / 10 * ψ := by
      rw [abs_mul, abs_of_pos ψ0]
      gcongr
    have eψ : 0 < eta * ψ := mul_pos ep ψ0
    have y1 : |y - t * ψ| ≤ 2 * (eta * ψ) := by
      have a := ho.f64 (t' * ψ) (by
        have : (1 : ℝ) * 2 ≤ 2 ^ 1023 := by
          calc (1 : ℝ) * 2 = 2 ^ 1 := by norm_num
            _ ≤ 2 ^ 1023 := pow_le_pow_right₀ (by norm_num) (by norm_num)
        exact (by linarith : |t' * ψ| ≤ 1 * 2).trans this)
      rw [← hy] at a
      have b : |t' * ψ - t * ψ| ≤ eta * ψ := by
        rw [← sub_mul, abs_mul, abs_of_pos ψ0]
        gcongr
      have c1 := tiny 1075 (by norm_num)
      have e : (1 : ℝ) / 2 ^ 53 * |t' * ψ| ≤ 11 / 20 * (eta * ψ) := by
        have : (1 : ℝ) / 2 ^ 53 = eta / 2 := by unfold eta; norm_num
        rw [this]
        nlinarith
      have := abs_sub_le y (t' * ψ) (t * ψ)
      linarith
    have tψ : |t * ψ| ≤ ψ := by
      rw [abs_of_nonneg (mul_nonneg t0 ψ0.le)]
      nlinarith
    have eψ1 : eta * ψ ≤ 1 / 1000 * ψ := by
      apply mul_le_mul_of_nonneg_right _ ψ0.le
      linarith
    have yb : |y| ≤ 101 / 100 * ψ := by
      have := abs_near y1 tψ
      linarith
    obtain ⟨N, hN⟩ : ∃ N, N = o.sin y := ⟨_, rfl⟩
    have al : (1 : ℝ) / 2 ^ 50 = 4 * eta := by unfold eta; norm_num
    have n1 : |N - Real.sin (t * ψ)| ≤ 8 * (eta * ψ) := by
      have a := ho.sin y (by linarith)
      rw [← hN, al] at a
      have b := Real.abs_sin_sub_sin_le y (t * ψ)
      have c1 := tiny 1072 (by norm_num)
      have e : 4 * eta * |Real.sin y| ≤ 4 * eta * (101 / 100 * ψ) := by
        gcongr
        exact Real.abs_sin_le_abs.trans yb
      have := abs_sub_le N (Real.sin y) (Real.sin (t * ψ))
      linarith
    obtain ⟨D, hD⟩ : ∃ D, D = o.sin ψ := ⟨_, rfl⟩
    have s1 := sin_ge ψ0.le ψ1
    have s2 : Real.sin ψ ≤ ψ := Real.sin_le ψ0.le
    have d1 : |D - Real.sin ψ| ≤ 5 * (eta * ψ) := by
      have a := ho.sin ψ (by rw [abs_of_pos ψ0]; linarith)
      rw [← hD, al, abs_of_nonneg (by linarith : 0 ≤ Real.sin ψ)] at a
      have c1 := tiny 1072 (by norm_num)
      nlinarith
    have db := abs_le.1 d1
    have D0 : 4 / 5 * ψ ≤ D := by linarith [db.1]
    obtain ⟨S, hS⟩ : ∃ S, S = Real.sin (t * ψ) := ⟨_, rfl⟩
    obtain ⟨s, hs⟩ : ∃ s, s = Real.sin ψ := ⟨_, rfl⟩
    rw [← hS] at n1
    rw [← hs] at s1 s2 d1 db
    have S1 : |S| ≤ ψ := by rw [hS]; exact Real.abs_sin_le_abs.trans tψ
    have Dp : 0 < D := by linarith
    have sp : 0 < s := by linarith
    have q1 : |N / D - S / s| ≤ 20 * eta := by
      have e : N / D - S / s = ((N - S) * s - S * (D - s)) / (D * s) := by
        field_simp
        ring
      rw [e, abs_div, abs_of_pos (by positivity : 0 < D * s), div_le_iff₀ (by positivity)]
      refine (abs_sub _ _).trans ?_
      rw [abs_mul, abs_mul, abs_of_pos sp]
      have a1 : |N - S| * s ≤ 8 * (eta * ψ) * ψ := mul_le_mul n1 s2 sp.le (by positivity)
      have a2 : |S| * |D - s| ≤ ψ * (5 * (eta * ψ)) := mul_le_mul S1 d1 (abs_nonneg _) ψ0.le
      have a3 : (4 / 5 * ψ) * (5 / 6 * ψ) ≤ D * s := mul_le_mul D0 s1 (by positivity) (by linarith)
      have a4 : 20 * eta * ((4 / 5 * ψ) * (5 / 6 * ψ)) ≤ 20 * eta * (D * s) := by gcongr
      nlinarith [mul_pos eψ ψ0]
    have q2 : |S / s| ≤ 6 / 5 := by
      rw [abs_div, abs_of_pos sp, div_le_iff₀ sp]
      linarith
    have q3 := abs_near q1 q2
    have q4 := near64 ho (M := 2) q1 (by linarith) (by norm_num) (by norm_num)
    have e : turnRatio t ψ = S / s := by unfold turnRatio; rw [if_neg ψ0.ne', hS, hs]
    have l := turnRatio_lip t0 t1 p0 P1 ψ0.le ψ1
    have w : |Real.cos ψ - Real.cos φ| ≤ 9 / 2 * eta + δ := by
      have a := Real.abs_cos_sub_cos_le ψ x
      have b := abs_sub_le (Real.cos ψ) (Real.cos x) (Real.cos φ)
      rw [cx] at a b
      nlinarith
    rw [e] at l
    rw [← hy, ← hN, ← hD]
    have := abs_sub_le (o.f64 (N / D)) (S / s) (turnRatio t φ)
    linarith

theorem quat_of_one : quatOfMat 1 = ⟨1, 0, 0, 0⟩ := by
  have s4 : Real.sqrt 4 = 2 := by rw [show (4:ℝ) = 2 ^ 2 by norm_num]; exact Real.sqrt_sq (by norm_num)
  have t1 : (1:ℝ) + 1 = 2 := by norm_num
  have t2 : (2:ℝ) + 1 = 3 := by norm_num
  have t3 : (3:ℝ) + 1 = 4 := by norm_num
  unfold quatOfMat
  simp [t1, t2, t3, s4]

theorem one_rot : IsRot3 1 := by constructor <;> simp

/-- The rotation part of the ideal motion, as a mix of two quaternions. -/
def idealQuat (R : Mat3) (t φ : ℝ) : Quat := Quat.mix (turnRatio (1 - t) φ) (turnRatio t φ) ⟨1, 0, 0, 0⟩ (quatOfMat R)

theorem cos_eq_one {φ : ℝ} (p0 : 0 ≤ φ) (p1 : φ ≤ 1) : 1 ≤ Real.cos φ ↔ φ = 0 := by
  constructor
  · intro h
    by_contra hne
    have hp : 0 < φ := lt_of_le_of_ne p0 (Ne.symm hne)
    have := Real.pi_gt_three
    have := Real.cos_lt_cos_of_nonneg_of_le_pi le_rfl (by linarith) hp
    rw [Real.cos_zero] at this
    linarith
  · rintro rfl
    simp

/-- A turn of at most 90 degrees: the first component of the quaternion is the cosine of half the angle. -/
theorem quat_w {R : Mat3} (hR : IsRot3 R) {θ : ℝ} (h : TurnAngle 1 R θ) (hθ : θ ≤ Real.pi / 2) :
    1 ≤ R 0 0 + R 1 1 + R 2 2 ∧ (quatOfMat R).w = Real.cos (θ / 2) := by
  have tr : R 0 0 + R 1 1 + R 2 2 = 1 + 2 * Real.cos θ := by
    have := h.2.2
    rw [Matrix.transpose_one, one_mul, Matrix.trace_fin_three] at this
    exact this
  have c0 : 0 ≤ Real.cos θ := Real.cos_nonneg_of_mem_Icc ⟨by linarith [h.1, Real.pi_pos], hθ⟩
  refine ⟨by linarith, ?_⟩
  have hw : 0 ≤ (quatOfMat R).w := by
    unfold quatOfMat
    dsimp only
    rw [if_pos (by linarith)]
    positivity
  have := dot_angle one_rot hR h
  rw [quat_of_one] at this
  unfold Quat.dot at this
  dsimp only at this
  rw [one_mul, zero_mul, zero_mul, zero_mul, add_zero, add_zero, add_zero, abs_of_nonneg hw] at this
  exact this

theorem ideal_slerp {R : Mat3} (hR : IsRot3 R) {θ : ℝ} (h : TurnAngle 1 R θ) (hθ : θ ≤ Real.pi / 2) (t : ℝ) :
    slerpMat 0 1 R t = (idealQuat R t (θ / 2)).toMat := by
  obtain ⟨-, hw⟩ := quat_w hR h hθ
  have hpi := Real.pi_lt_d2
  have p0 : 0 ≤ θ / 2 := by linarith [h.1]
  have p1 : θ / 2 ≤ 1 := by linarith
  have c0 : 0 ≤ Real.cos (θ / 2) := Real.cos_nonneg_of_mem_Icc ⟨by linarith [Real.pi_pos], by linarith [Real.pi_pos]⟩
  have ac : Real.arccos (Real.cos (θ / 2)) = θ / 2 := Real.arccos_cos p0 (by linarith [Real.pi_pos])
  have r : ∀ u, (if Real.cos (θ / 2) ≥ 1 - 0 then u else Real.sin (u * (θ / 2)) / Real.sin (θ / 2)) = turnRatio u (θ / 2) := by
    intro u
    unfold turnRatio
    simp only [sub_zero, ge_iff_le, cos_eq_one p0 p1]
  unfold slerpMat eigenSlerp idealQuat Quat.mix
  dsimp only
  have dq : (quatOfMat 1).dot (quatOfMat R) = Real.cos (θ / 2) := by
    rw [quat_of_one, ← hw]
    simp [Quat.dot]
  rw [dq, abs_of_nonneg c0, if_neg (not_lt.2 c0), quat_of_one]
  unfold slerpScale0 slerpScale1
  rw [ac, r, r]

theorem ideal_turn {R : Mat3} (hR : IsRot3 R) {θ : ℝ} (h : TurnAngle 1 R θ) (hθ : θ ≤ Real.pi / 2) {t : ℝ} (t0 : 0 ≤ t) (t1 : t ≤ 1) :
    IsRot3 (idealQuat R t (θ / 2)).toMat ∧ TurnAngle 1 (idealQuat R t (θ / 2)).toMat (t * θ) ∧
      TurnAngle (idealQuat R t (θ / 2)).toMat R ((1 - t) * θ) := by
  rw [← ideal_slerp hR h hθ t]
  have hpi := Real.pi_lt_d2
  have p0 : 0 ≤ θ / 2 := by linarith [h.1]
  have p1 : θ / 2 ≤ 1 := by linarith
  rcases lt_or_ge (Real.cos (θ / 2)) 1 with hc | hc
  · exact slerp_far le_rfl one_rot hR h (by linarith) t0 t1
  · have z : θ = 0 := by linarith [(cos_eq_one p0 p1).1 hc]
    obtain ⟨g1, Q, g2, g3⟩ := slerp_near one_rot hR h (eps := 0) (by linarith) (by norm_num) t0 t1
    have e1 : slerpMat 0 1 R t = Q := by
      ext i j
      exact sub_eq_zero.1 (abs_nonpos_iff.1 (g3 i j))
    have e2 : slerpMat 0 1 R t = (1 - t) • (1 : Mat3) + t • R := by
      ext i j
      have := sub_eq_zero.1 (abs_nonpos_iff.1 (g1 i j))
      simpa using this
    have tr : R.trace = 3 := by
      have := h.2.2
      rw [Matrix.transpose_one, one_mul, z, Real.cos_zero] at this
      linarith
    refine ⟨e1 ▸ g2, ⟨by rw [z, mul_zero], by rw [z, mul_zero]; exact Real.pi_pos.le, ?_⟩, ⟨by rw [z, mul_zero], by rw [z, mul_zero]; exact Real.pi_pos.le, ?_⟩⟩
    · rw [e2, z, mul_zero, Real.cos_zero, Matrix.transpose_one, one_mul, Matrix.trace_add, Matrix.trace_smul, Matrix.trace_smul, tr]
      simp
      ring
    · rw [e2, z, mul_zero, Real.cos_zero, Matrix.transpose_add, Matrix.transpose_smul, Matrix.transpose_smul, Matrix.transpose_one,
        add_mul, Matrix.smul_mul, Matrix.smul_mul, one_mul, hR.1, Matrix.trace_add, Matrix.trace_smul, Matrix.trace_smul, tr]
      simp
      ring

theorem ideal_unit {R : Mat3} (hR : IsRot3 R) {θ : ℝ} (h : TurnAngle 1 R θ) (hθ : θ ≤ Real.pi / 2) (t : ℝ) :
    sq4 (idealQuat R t (θ / 2)) = 1 := by
  obtain ⟨-, hw⟩ := quat_w hR h hθ
  have hpi := Real.pi_lt_d2
  unfold idealQuat
  rw [mix_unit (by simp [Quat.IsUnit]) (quatOfMat_unit hR)]
  have : (⟨1, 0, 0, 0⟩ : Quat).dot (quatOfMat R) = Real.cos (θ / 2) := by rw [← hw]; simp [Quat.dot]
  rw [this]
  unfold turnRatio
  split
  · rename_i hz
    rw [hz, Real.cos_zero]
    ring
  · rename_i hz
    have p0 : 0 < θ / 2 := lt_of_le_of_ne (by linarith [h.1]) (Ne.symm hz)
    have s0 := sin_ge p0.le (by linarith)
    have e := sin_sum_sq ((1 - t) * (θ / 2)) (t * (θ / 2))
    rw [show (1 - t) * (θ / 2) + t * (θ / 2) = θ / 2 by ring] at e
    have hs : Real.sin (θ / 2) ≠ 0 := by linarith
    generalize Real.sin (θ / 2) = s at *
    generalize Real.sin ((1 - t) * (θ / 2)) = a at *
    generalize Real.sin (t * (θ / 2)) = b at *
    generalize Real.cos (θ / 2) = c at *
    field_simp
    linarith

theorem turnRatio_le {t φ : ℝ} (t0 : 0 ≤ t) (t1 : t ≤ 1) (p0 : 0 ≤ φ) (p1 : φ ≤ 1) : |turnRatio t φ| ≤ 6 / 5 := by
  unfold turnRatio
  split
  · exact abs_le.2 ⟨by linarith, by linarith⟩
  · rename_i hz
    have hp : 0 < φ := lt_of_le_of_ne p0 (Ne.symm hz)
    have s0 := sin_ge p0 p1
    rw [abs_div, abs_of_pos (by linarith : 0 < Real.sin φ), div_le_iff₀ (by linarith)]
    have : |t * φ| ≤ φ := by
      rw [abs_of_nonneg (mul_nonneg t0 p0)]
      nlinarith
    have := Real.abs_sin_le_abs (x := t * φ)
    linarith

set_option maxHeartbeats 1000000 in
/-- The quaternion of the program is close to the ideal one. -/
theorem slerpF_near {o : TrigOps} (ho : IeeeTrig o) {R m : Mat3} (hR : IsRot3 R) {θ : ℝ} (h : TurnAngle 1 R θ) (hθ : θ ≤ Real.pi / 2)
    {d : ℝ} (hd : ∀ i j, |m i j - R i j| ≤ d) (d1 : d ≤ 1 / 10 ^ 6) {t : ℝ} (t0 : 0 ≤ t) (t1 : t ≤ 1) :
    ∀ f ∈ [Quat.w, Quat.x, Quat.y, Quat.z],
      |f (slerpQuatF o (quatOfMatF o 1) (quatOfMatF o m) t) - f (idealQuat R t (θ / 2))| ≤ 50 * d + 460 * eta := by
  have ep := eta_pos
  have el := eta_le
  have hpi := Real.pi_lt_d2
  have d0 : 0 ≤ d := (abs_nonneg _).trans (hd 0 0)
  obtain ⟨htr, hw⟩ := quat_w hR h hθ
  obtain ⟨n1, n2, n3, n4⟩ := quatF_near ho hR htr hd d1
  obtain ⟨q, hq⟩ : ∃ q, q = quatOfMat R := ⟨_, rfl⟩
  obtain ⟨b, hb⟩ : ∃ b, b = quatOfMatF o m := ⟨_, rfl⟩
  rw [← hq] at n1 n2 n3 n4 hw
  rw [← hb] at n1 n2 n3 n4 ⊢
  have z := f64_zero ho
  have uq : q.w ^ 2 + q.x ^ 2 + q.y ^ 2 + q.z ^ 2 = 1 := by rw [hq]; exact quatOfMat_unit hR
  have cmp : ∀ a : ℝ, a ^ 2 ≤ 1 → |a| ≤ 1 := fun a ha => by
    rw [abs_le_one_iff_mul_self_le_one]
    linarith [pow_two a]
  have w1 : |q.w| ≤ 1 := cmp _ (by nlinarith [sq_nonneg q.x, sq_nonneg q.y, sq_nonneg q.z])
  have x1 : |q.x| ≤ 1 := cmp _ (by nlinarith [sq_nonneg q.w, sq_nonneg q.y, sq_nonneg q.z])
  have y1 : |q.y| ≤ 1 := cmp _ (by nlinarith [sq_nonneg q.x, sq_nonneg q.w, sq_nonneg q.z])
  have z1 : |q.z| ≤ 1 := cmp _ (by nlinarith [sq_nonneg q.x, sq_nonneg q.y, sq_nonneg q.w])
  rw [quatF_one ho]
  obtain ⟨c, hc⟩ : ∃ c, c = dotF o ⟨1, 0, 0, 0⟩ b := ⟨_, rfl⟩
  have c1 : |c - Real.cos (θ / 2)| ≤ 8 * d + 64 * eta := by
    rw [hc, ← hw]
    unfold dotF
    simp only [zero_mul, z, add_zero, zero_add, one_mul]
    have a1 := abs_near n1 w1
    have a2 := near64 ho (M := 2) n1 (by linarith) (by norm_num) (by norm_num)
    have a3 := abs_near a2 w1
    have a4 := near64 ho (M := 2) a2 (by linarith) (by norm_num) (by norm_num)
    linarith
  have φ0 : 0 ≤ θ / 2 := by linarith [h.1]
  have φ1 : θ / 2 ≤ Real.pi / 4 := by linarith
  have φ2 : θ / 2 ≤ 1 := by linarith
  have cφ : 7 / 10 ≤ Real.cos (θ / 2) := by
    have : Real.cos (Real.pi / 4) ≤ Real.cos (θ / 2) := Real.cos_le_cos_of_nonneg_of_le_pi φ0 (by linarith [Real.pi_pos]) φ1
    rw [Real.cos_pi_div_four] at this
    have : 1414 / 1000 ≤ Real.sqrt 2 := Real.le_sqrt_of_sq_le (by norm_num)
    linarith
  have cp : 0 < c := by linarith [(abs_le.1 c1).1]
  have k0 : |slerpScaleF o c (o.f64 (1 - t)) - turnRatio (1 - t) (θ / 2)| ≤ 16 * d + 160 * eta := by
    have a := near64 ho (M := 1) (a := 1 - t) (b := 1 - t) (δ := 0) (by simp) (abs_le.2 ⟨by linarith, by linarith⟩) (by norm_num) (by norm_num)
    have := scale_near ho (t := 1 - t) (by linarith) (by linarith) (by linarith) φ0 φ1 c1 (by linarith)
    linarith
  have k1 : |slerpScaleF o c t - turnRatio t (θ / 2)| ≤ 16 * d + 160 * eta := by
    have := scale_near ho (t := t) (t' := t) t0 t1 (by simpa using ep.le) φ0 φ1 c1 (by linarith)
    linarith
  have r0 := turnRatio_le (t := 1 - t) (by linarith) (by linarith) φ0 φ2
  have r1 := turnRatio_le t0 t1 φ0 φ2
  obtain ⟨K0, hK0⟩ : ∃ K, K = slerpScaleF o c (o.f64 (1 - t)) := ⟨_, rfl⟩
  obtain ⟨K1, hK1⟩ : ∃ K, K = slerpScaleF o c t := ⟨_, rfl⟩
  obtain ⟨R0, hR0⟩ : ∃ K, K = turnRatio (1 - t) (θ / 2) := ⟨_, rfl⟩
  obtain ⟨R1, hR1⟩ : ∃ K, K = turnRatio t (θ / 2) := ⟨_, rfl⟩
  rw [← hK0, ← hR0] at k0
  rw [← hK1, ← hR1] at k1
  rw [← hR0] at r0
  rw [← hR1] at r1
  have b0 := abs_near k0 r0
  have b1 := abs_near k1 r1
  have main : ∀ u v v' : ℝ, |u| ≤ 1 → |v| ≤ 1 → |v' - v| ≤ 8 * d + 60 * eta →
      |o.f64 (o.f64 (K0 * u) + o.f64 (K1 * v')) - (R0 * u + R1 * v)| ≤ 50 * d + 460 * eta := by
    intro u v v' hu hv hv'
    have v'1 := abs_near hv' hv
    have a1 : |K0 * u - R0 * u| ≤ (16 * d + 160 * eta) * 1 + 6 / 5 * 0 := mul_near k0 (by simp) r0 hu
    have a2 : |K1 * v' - R1 * v| ≤ (16 * d + 160 * eta) * (101 / 100) + 6 / 5 * (8 * d + 60 * eta) := mul_near k1 hv' r1 (by linarith)
    have m1 : |R0 * u| ≤ 6 / 5 := by rw [abs_mul]; nlinarith [abs_nonneg R0, abs_nonneg u]
    have m2 : |R1 * v| ≤ 6 / 5 := by rw [abs_mul]; nlinarith [abs_nonneg R1, abs_nonneg v]
    have e1 := abs_near a1 m1
    have e2 := abs_near a2 m2
    have g1 := near64 ho (M := 2) a1 (by linarith) (by norm_num) (by norm_num)
    have g2 := near64 ho (M := 2) a2 (by linarith) (by norm_num) (by norm_num)
    have f1 := abs_near g1 m1
    have f2 := abs_near g2 m2
    have := near64 ho (M := 4) (add_near g1 g2) ((abs_add_le _ _).trans (by linarith)) (by norm_num) (by norm_num)
    linarith
  have sq : slerpQuatF o ⟨1, 0, 0, 0⟩ b t = ⟨o.f64 (o.f64 (K0 * 1) + o.f64 (K1 * b.w)), o.f64 (o.f64 (K0 * 0) + o.f64 (K1 * b.x)),
      o.f64 (o.f64 (K0 * 0) + o.f64 (K1 * b.y)), o.f64 (o.f64 (K0 * 0) + o.f64 (K1 * b.z))⟩ := by
    unfold slerpQuatF
    dsimp only
    rw [← hc, if_neg (not_lt.2 cp.le), abs_of_pos cp, ← hK0, ← hK1]
  have id : idealQuat R t (θ / 2) = ⟨R0 * 1 + R1 * q.w, R0 * 0 + R1 * q.x, R0 * 0 + R1 * q.y, R0 * 0 + R1 * q.z⟩ := by
    unfold idealQuat Quat.mix
    rw [← hR0, ← hR1, ← hq]
  rw [sq, id]
  intro f hf
  simp only [List.mem_cons, List.not_mem_nil, or_false] at hf
  rcases hf with rfl | rfl | rfl | rfl
  · exact main 1 q.w b.w (by simp) w1 n1
  · exact main 0 q.x b.x (by simp) x1 n2
  · exact main 0 q.y b.y (by simp) y1 n3
  · exact main 0 q.z b.z (by simp) z1 n4

/-- Conversion to a matrix. -/
theorem toMatF_near {o : TrigOps} (ho : IeeeTrig o) {a q : Quat} (hq : sq4 q = 1) {δ : ℝ} (δ0 : 0 ≤ δ) (δ1 : δ ≤ 1 / 10 ^ 4)
    (h : ∀ f ∈ [Quat.w, Quat.x, Quat.y, Quat.z], |f a - f q| ≤ δ) (i j : Fin 3) :
    |toMatF o a i j - q.toMat i j| ≤ 41 / 5 * δ + 30 * eta := by
  have ep := eta_pos
  have el := eta_le
  unfold sq4 at hq
  have cmp : ∀ a : ℝ, a ^ 2 ≤ 1 → |a| ≤ 1 := fun a ha => by
    rw [abs_le_one_iff_mul_self_le_one]
    linarith [pow_two a]
  have w1 : |q.w| ≤ 1 := cmp _ (by nlinarith [sq_nonneg q.x, sq_nonneg q.y, sq_nonneg q.z])
  have x1 : |q.x| ≤ 1 := cmp _ (by nlinarith [sq_nonneg q.w, sq_nonneg q.y, sq_nonneg q.z])
  have y1 : |q.y| ≤ 1 := cmp _ (by nlinarith [sq_nonneg q.x, sq_nonneg q.w, sq_nonneg q.z])
  have z1 : |q.z| ≤ 1 := cmp _ (by nlinarith [sq_nonneg q.x, sq_nonneg q.y, sq_nonneg q.w])
  have hw := h Quat.w (by simp)
  have hx := h Quat.x (by simp)
  have hy := h Quat.y (by simp)
  have hz := h Quat.z (by simp)
  have P : ∀ u v u' v' : ℝ, |u| ≤ 1 → |v| ≤ 1 → |u' - u| ≤ δ → |v' - v| ≤ δ →
      |o.f64 (o.f64 (2 * u') * v') - 2 * u * v| ≤ 201 / 50 * δ + 7 * eta ∧ |2 * u * v| ≤ 2 := by
    intro u v u' v' hu hv hu' hv'
    have a1 : |2 * u' - 2 * u| ≤ 2 * δ := by
      rw [← mul_sub, abs_mul, abs_of_pos (by norm_num : (0:ℝ) < 2)]
      linarith
    have u2 : |2 * u| ≤ 2 := by rw [abs_mul, abs_of_pos (by norm_num : (0:ℝ) < 2)]; linarith
    have b1 := abs_near a1 u2
    have a2 := near64 ho (M := 3) a1 (by linarith) (by norm_num) (by norm_num)
    have v'1 := abs_near hv' hv
    have a3 := mul_near a2 hv' u2 (B := 101 / 100) (by linarith)
    have uv : |2 * u * v| ≤ 2 := by rw [abs_mul]; nlinarith [abs_nonneg (2 * u), abs_nonneg v]
    have b3 := abs_near a3 uv
    have := near64 ho (M := 3) a3 (by linarith) (by norm_num) (by norm_num)
    exact ⟨by linarith, uv⟩
  have add : ∀ A B A' B' : ℝ, |A' - A| ≤ 201 / 50 * δ + 7 * eta ∧ |A| ≤ 2 → |B' - B| ≤ 201 / 50 * δ + 7 * eta ∧ |B| ≤ 2 →
      |o.f64 (A' + B') - (A + B)| ≤ 201 / 25 * δ + 19 * eta ∧ |o.f64 (A' - B') - (A - B)| ≤ 201 / 25 * δ + 19 * eta := by
    intro A B A' B' hA hB
    have a := abs_near hA.1 hA.2
    have b := abs_near hB.1 hB.2
    have g1 := near64 ho (M := 5) (add_near hA.1 hB.1) ((abs_add_le _ _).trans (by linarith)) (by norm_num) (by norm_num)
    have g2 := near64 ho (M := 5) (sub_near hA.1 hB.1) ((abs_sub _ _).trans (by linarith)) (by norm_num) (by norm_num)
    exact ⟨by linarith, by linarith⟩
  have one : ∀ A A' : ℝ, |A' - A| ≤ 201 / 25 * δ + 19 * eta → |A| ≤ 4 → |o.f64 (1 - A') - (1 - A)| ≤ 41 / 5 * δ + 30 * eta := by
    intro A A' h1 h2
    have a := abs_near h1 h2
    have := near64 ho (M := 6) (a := 1 - A') (b := 1 - A) (δ := 201 / 25 * δ + 19 * eta)
      (by rw [show 1 - A' - (1 - A) = -(A' - A) by ring, abs_neg]; exact h1)
      ((abs_sub _ _).trans (by rw [abs_one]; linarith)) (by norm_num) (by norm_num)
    linarith
  have two : ∀ A B : ℝ, |A| ≤ 2 → |B| ≤ 2 → |A + B| ≤ 4 := fun A B h1 h2 => (abs_add_le _ _).trans (by linarith)
  have wk : ∀ {A : ℝ}, |A| ≤ 201 / 25 * δ + 19 * eta → |A| ≤ 41 / 5 * δ + 30 * eta := fun h => h.trans (by linarith)
  have xx := P _ _ _ _ x1 x1 hx hx
  have yy := P _ _ _ _ y1 y1 hy hy
  have zz := P _ _ _ _ z1 z1 hz hz
  have yx := P _ _ _ _ y1 x1 hy hx
  have zx := P _ _ _ _ z1 x1 hz hx
  have zy := P _ _ _ _ z1 y1 hz hy
  have xw := P _ _ _ _ x1 w1 hx hw
  have yw := P _ _ _ _ y1 w1 hy hw
  have zw := P _ _ _ _ z1 w1 hz hw
  unfold toMatF Quat.toMat
  fin_cases i <;> fin_cases j
  · exact one _ _ (add _ _ _ _ yy zz).1 (two _ _ yy.2 zz.2)
  · exact wk (add _ _ _ _ yx zw).2
  · exact wk (add _ _ _ _ zx yw).1
  · exact wk (add _ _ _ _ yx zw).1
  · exact one _ _ (add _ _ _ _ xx zz).1 (two _ _ xx.2 zz.2)
  · exact wk (add _ _ _ _ zy xw).2
  · exact wk (add _ _ _ _ zx yw).2
  · exact wk (add _ _ _ _ zy xw).1
  · exact one _ _ (add _ _ _ _ xx yy).1 (two _ _ xx.2 yy.2)

/-- One coordinate: a row of the matrix times the point, plus the translation. -/
theorem row_near {o : TrigOps} (ho : IeeeTrig o) {r r' v : Fin 3 → ℝ} {x y z f T A B δ : ℝ} (hr : ∀ j, |r j| ≤ 1)
    (δ1 : δ ≤ 1 / 1000) (hd : ∀ j, |r' j - r j| ≤ δ) (hx : |x| ≤ B) (hy : |y| ≤ B) (hz : |z| ≤ B) (B1 : 1 ≤ B) (B2 : B ≤ 2 ^ 40)
    (hT : |T| ≤ A) (A1 : 1 ≤ A) (A2 : A ≤ 2 ^ 40) (f0 : 0 ≤ f) (f1 : f ≤ 1)
    (hv : v 0 = o.f64 (o.f64 (o.f64 (o.f64 (r' 0 * x) + o.f64 (r' 1 * y)) + o.f64 (r' 2 * z)) + o.f64 (0 + o.f64 (o.f64 (T - 0) * f)))) :
    |v 0 - (r 0 * x + r 1 * y + r 2 * z + f * T)| ≤ 3 * (δ * B) + 20 * (eta * B) + 12 * (eta * A) := by
  have ep := eta_pos
  have el := eta_le
  have δ0 : 0 ≤ δ := (abs_nonneg _).trans (hd 0)
  have eB : 0 < eta * B := mul_pos ep (by linarith)
  have eA : 0 < eta * A := mul_pos ep (by linarith)
  have eB1 : eta * B ≤ 1 / 1000 * B := mul_le_mul_of_nonneg_right (by linarith) (by linarith)
  have eA1 : eta * A ≤ 1 / 1000 * A := mul_le_mul_of_nonneg_right (by linarith) (by linarith)
  have δB : 0 ≤ δ * B := mul_nonneg δ0 (by linarith)
  have δB1 : δ * B ≤ 1 / 1000 * B := mul_le_mul_of_nonneg_right (by linarith) (by linarith)
  have big : ∀ k : ℝ, k ≤ 2 ^ 50 → k ≤ 2 ^ 100 := fun k hk => hk.trans (by norm_num)
  have M1 : ∀ (j : Fin 3) (c : ℝ), |c| ≤ B → |o.f64 (r' j * c) - r j * c| ≤ δ * B + 2 * (eta * B) ∧ |r j * c| ≤ B := by
    intro j c hc
    have a : |r' j * c - r j * c| ≤ δ * B + 1 * 0 := mul_near (hd j) (by simp) (hr j) hc
    have b : |r j * c| ≤ B := by
      rw [abs_mul]
      nlinarith [hr j, abs_nonneg (r j), abs_nonneg c]
    have e := abs_near a b
    have := near64 ho (M := 2 * B) a (by linarith) (by linarith) (big _ (by norm_num at B2 ⊢; linarith))
    exact ⟨by linarith, b⟩
  obtain ⟨a1, b1⟩ := M1 0 x hx
  obtain ⟨a2, b2⟩ := M1 1 y hy
  obtain ⟨a3, b3⟩ := M1 2 z hz
  have c12 : |r 0 * x + r 1 * y| ≤ 2 * B := (abs_add_le _ _).trans (by linarith)
  have s1 := add_near a1 a2
  have e1 := abs_near s1 c12
  have g1 := near64 ho (M := 3 * B) s1 (by linarith) (by linarith) (big _ (by norm_num at B2 ⊢; linarith))
  have c123 : |r 0 * x + r 1 * y + r 2 * z| ≤ 3 * B := (abs_add_le _ _).trans (by linarith)
  have s2 := add_near g1 a3
  have e2 := abs_near s2 c123
  have g2 := near64 ho (M := 4 * B) s2 (by linarith) (by linarith) (big _ (by norm_num at B2 ⊢; linarith))
  rw [sub_zero, zero_add] at hv
  have h1 := near64 ho (M := A) (a := T) (b := T) (δ := 0) (by simp) hT A1 (big _ (by norm_num at A2 ⊢; linarith))
  have h2 : |o.f64 T * f - T * f| ≤ (0 + eta * A) * 1 + A * 0 := mul_near h1 (by simp) hT (abs_le.2 ⟨by linarith, f1⟩)
  have Tf : |T * f| ≤ A := by
    rw [abs_mul, abs_of_nonneg f0]
    nlinarith [abs_nonneg T]
  have e3 := abs_near h2 Tf
  have h3 := near64 ho (M := 2 * A) h2 (by linarith) (by linarith) (big _ (by norm_num at A2 ⊢; linarith))
  have e4 := abs_near h3 Tf
  have h4 := near64 ho (M := 2 * A) h3 (by linarith) (by linarith) (big _ (by norm_num at A2 ⊢; linarith))
  have e5 := abs_near h4 Tf
  have s3 := add_near g2 h4
  have e6 := abs_near g2 c123
  have g3 := near64 ho (M := 4 * B + 3 * A) s3 ((abs_add_le _ _).trans (by linarith)) (by linarith)
    (big _ (by norm_num at A2 B2 ⊢; linarith))
  rw [← hv, mul_comm T f] at g3
  linarith

/-- A coordinate of a `float`. -/
theorem near32 {o : TrigOps} (ho : IeeeTrig o) {a b x : ℝ} (h : |a - b| ≤ x) (ha : |a| ≤ 2 ^ 100) :
    |o.f32 a - b| ≤ 1 / 2 ^ 24 * |b| + 11 / 10 * x + 1 / 2 ^ 150 := by
  have g := ho.f32 a (ha.trans (by norm_num))
  have e := abs_sub_le (o.f32 a) a b
  have k := abs_near h le_rfl
  have x0 : 0 ≤ x := (abs_nonneg _).trans h
  have : (1 : ℝ) / 2 ^ 24 * |a| ≤ 1 / 2 ^ 24 * (|b| + x) := by gcongr
  have : (1 : ℝ) / 2 ^ 24 ≤ 1 / 10 := by norm_num
  nlinarith

/-- Rounding to the nearest value keeps integers. -/
theorem nearest_int (n : Int) (hn : |n| ≤ 2 ^ 53) : nearest 52 (-1074) n = n := by
  unfold nearest
  rcases eq_or_ne n 0 with rfl | hz
  · simp
  obtain ⟨e, he⟩ : ∃ e, e = max (Int.log 2 |(n : ℝ)| - 52) (-1074) := ⟨_, rfl⟩
  rw [← he]
  have h1 : (1 : ℝ) ≤ |(n : ℝ)| := by
    rw [← Int.cast_abs]
    exact_mod_cast Int.one_le_abs hz
  have h2 : |(n : ℝ)| ≤ 2 ^ 53 := by
    rw [← Int.cast_abs]
    exact_mod_cast hn
  have hs : (0 : ℝ) < 2 ^ e := by positivity
  have hk : ∃ k : Int, (n : ℝ) / 2 ^ e = k := by
    rcases le_or_gt e 0 with h0 | h0
    · refine ⟨n * 2 ^ (-e).toNat, ?_⟩
      push_cast
      rw [div_eq_mul_inv, ← zpow_neg, ← zpow_natCast, Int.toNat_of_nonneg (by omega)]
    · have hl : Int.log 2 |(n : ℝ)| ≤ 53 := by
        have := Int.log_mono_right (b := 2) (by linarith : 0 < |(n : ℝ)|) h2
        have e53 : Int.log 2 ((2 : ℝ) ^ 53) = 53 := by
          have := Int.log_zpow (R := ℝ) (b := 2) (by norm_num) 53
          exact_mod_cast this
        omega
      have e1 : e = 1 := by omega
      have l53 : Int.log 2 |(n : ℝ)| = 53 := by omega
      have := Int.zpow_log_le_self (b := 2) (by norm_num) (by linarith : 0 < |(n : ℝ)|)
      rw [l53] at this
      have hn2 : |n| = 2 ^ 53 := by
        have : (2 : ℝ) ^ 53 ≤ |(n : ℝ)| := by exact_mod_cast this
        rw [← Int.cast_abs] at this
        have : (2 : Int) ^ 53 ≤ |n| := by exact_mod_cast this
        omega
      rw [e1]
      rcases abs_eq (by norm_num : (0 : Int) ≤ 2 ^ 53) |>.1 hn2 with rfl | rfl
      · exact ⟨2 ^ 52, by norm_num⟩
      · exact ⟨-2 ^ 52, by norm_num⟩
  obtain ⟨k, hk⟩ := hk
  rw [hk, round_intCast, ← hk]
  field_simp

/-- Operations that round to the nearest value. -/
def nearestTrig : TrigOps :=
  { f32 := nearest 23 (-149), f64 := nearest 52 (-1074), acos := fun x => nearest 52 (-1074) (Real.arccos x),
    sin := fun x => nearest 52 (-1074) (Real.sin x) }

theorem nearest64_err (x : ℝ) : |nearest 52 (-1074) x - x| ≤ 1 / 2 ^ 53 * |x| + 1 / 2 ^ 1075 := by
  have := nearest_err 52 (-1074) x
  have e : (2 : ℝ) ^ (-1074 - 1 : Int) = 1 / 2 ^ 1075 := by
    rw [show (-1074 - 1 : Int) = -((1075 : Nat) : Int) by norm_num, zpow_neg, zpow_natCast, one_div]
  have e2 : (2 : ℝ) ^ (-(52 + 1) : Int) = 1 / 2 ^ 53 := by
    rw [show (-(52 + 1) : Int) = -((53 : Nat) : Int) by norm_num, zpow_neg, zpow_natCast, one_div]
  rw [e, e2] at this
  exact this

theorem nearest_trig : IeeeTrig nearestTrig where
  int n hn := nearest_int n hn
  f64 x _ := nearest64_err x
  f32 x _ := by
    have := nearest_err 23 (-149) x
    norm_num at this ⊢
    exact this
  acos x _ _ := by
    have g := nearest64_err (Real.arccos x)
    have k := Real.arccos_nonneg x
    rw [abs_of_nonneg k] at g
    have t : (1 : ℝ) / 2 ^ 1075 ≤ 1 / 2 ^ 1072 := one_div_le_one_div_of_le (by positivity) (pow_le_pow_right₀ (by norm_num) (by norm_num))
    have u : (1 : ℝ) / 2 ^ 53 * Real.arccos x ≤ 1 / 2 ^ 50 * Real.arccos x := by
      gcongr <;> norm_num
    exact g.trans (add_le_add u t)
  sin x _ := by
    have g := nearest64_err (Real.sin x)
    have t : (1 : ℝ) / 2 ^ 1075 ≤ 1 / 2 ^ 1072 := one_div_le_one_div_of_le (by positivity) (pow_le_pow_right₀ (by norm_num) (by norm_num))
    have u : (1 : ℝ) / 2 ^ 53 * |Real.sin x| ≤ 1 / 2 ^ 50 * |Real.sin x| := by
      gcongr <;> norm_num
    exact g.trans (add_le_add u t)

end
end Verif
