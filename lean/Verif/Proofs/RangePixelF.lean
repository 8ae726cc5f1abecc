import Mathlib.Data.Int.Log
import Verif.Model.RangePixelF
import Verif.Spec.RangePixelF
import Verif.Proofs.RangePixel
import Mathlib.Analysis.SpecialFunctions.Complex.Arg
import Mathlib.Analysis.Real.Pi.Bounds
/-! Lemmas for C126. -/
namespace Verif
open Spec
noncomputable section

/-! ### relative errors -/

/-- `a` is `b` up to a share `e`. -/
def Rel (e a b : ℝ) : Prop := |a - b| ≤ e * |b|

theorem Rel.refl (b : ℝ) : Rel 0 b b := by unfold Rel; simp

theorem Rel.mono {e f a b : ℝ} (h : Rel e a b) (hf : e ≤ f) : Rel f a b :=
  le_trans h (mul_le_mul_of_nonneg_right hf (abs_nonneg _))

theorem Rel.abs_le {e a b : ℝ} (h : Rel e a b) : |a| ≤ (1 + e) * |b| := by
  unfold Rel at h
  have : |a| ≤ |a - b| + |b| := by
    have := abs_add_le (a - b) b
    simpa using this
  linarith

theorem Rel.trans {e f a b c : ℝ} (h : Rel e a b) (k : Rel f b c) (he : 0 ≤ e) : Rel (e + f + e * f) a c := by
  have h1 := k.abs_le
  unfold Rel at *
  have h2 := abs_sub_le a b c
  have h3 : e * |b| ≤ e * ((1 + f) * |c|) := mul_le_mul_of_nonneg_left h1 he
  nlinarith

theorem Rel.mul {e f a b a' b' : ℝ} (h : Rel e a' a) (k : Rel f b' b) (he : 0 ≤ e) : Rel (e + f + e * f) (a' * b') (a * b) := by
  have h1 := k.abs_le
  unfold Rel at *
  rw [show a' * b' - a * b = (a' - a) * b' + a * (b' - b) by ring, abs_mul]
  have h2 := abs_add_le ((a' - a) * b') (a * (b' - b))
  rw [abs_mul, abs_mul] at h2
  have h3 : |a' - a| * |b'| ≤ e * |a| * ((1 + f) * |b|) := mul_le_mul h h1 (abs_nonneg _) (by positivity)
  have h4 : |a| * |b' - b| ≤ |a| * (f * |b|) := mul_le_mul_of_nonneg_left k (abs_nonneg _)
  nlinarith

theorem Rel.add {e a b a' b' : ℝ} (h : Rel e a' a) (k : Rel e b' b) (ha : 0 ≤ a) (hb : 0 ≤ b) : Rel e (a' + b') (a + b) := by
  unfold Rel at *
  rw [abs_of_nonneg ha] at h
  rw [abs_of_nonneg hb] at k
  rw [abs_of_nonneg (add_nonneg ha hb), show a' + b' - (a + b) = (a' - a) + (b' - b) by ring]
  have := abs_add_le (a' - a) (b' - b)
  linarith

theorem Rel.inv {e a b : ℝ} (h : Rel e a b) (hb : b ≠ 0) (he : 0 ≤ e) (h1 : e ≤ 1 / 2) : Rel (2 * e) a⁻¹ b⁻¹ := by
  unfold Rel at *
  have hb0 : 0 < |b| := abs_pos.2 hb
  have ha0 : |b| ≤ 2 * |a| := by
    have := abs_sub_abs_le_abs_sub b a
    rw [abs_sub_comm] at this
    nlinarith
  have ha : a ≠ 0 := by
    rintro rfl
    rw [abs_zero] at ha0
    linarith
  have hap : 0 < |a| := abs_pos.2 ha
  rw [inv_sub_inv ha hb, abs_div, abs_mul, abs_inv, abs_sub_comm, div_le_iff₀ (by positivity)]
  calc |a - b| ≤ e * |b| := h
    _ ≤ e * (2 * |a|) := mul_le_mul_of_nonneg_left ha0 he
    _ = 2 * e * |b|⁻¹ * (|a| * |b|) := by field_simp

theorem Rel.sqrt {e a b : ℝ} (h : Rel e a b) (hb : 0 ≤ b) (he : e ≤ 1) : Rel e (Real.sqrt a) (Real.sqrt b) := by
  unfold Rel at *
  rw [abs_of_nonneg hb] at h
  rw [abs_of_nonneg (Real.sqrt_nonneg b)]
  have hs := Real.sq_sqrt hb
  have s0 := Real.sqrt_nonneg b
  rw [_root_.abs_le] at h ⊢
  by_cases hb0 : b = 0
  · subst hb0
    have : a = 0 := by linarith [h.1, h.2]
    subst this
    simp
  have he0 : 0 ≤ e := by
    by_contra hc
    have : 0 < b := lt_of_le_of_ne hb (Ne.symm hb0)
    nlinarith [h.1, h.2]
  constructor
  · have : (1 - e) * Real.sqrt b ≤ Real.sqrt a := by
      apply Real.le_sqrt_of_sq_le
      rw [mul_pow, hs]
      nlinarith [h.1, mul_nonneg he0 hb, mul_nonneg (mul_nonneg he0 he0) hb]
    linarith
  · have : Real.sqrt a ≤ (1 + e) * Real.sqrt b := by
      apply Real.sqrt_le_iff.2
      constructor
      · positivity
      · rw [mul_pow, hs]
        nlinarith [h.2, mul_nonneg he0 hb, mul_nonneg (mul_nonneg he0 he0) hb]
    linarith

theorem Rel.nonneg {e a b : ℝ} (h : Rel e a b) (he : e ≤ 1) (hb : 0 ≤ b) : 0 ≤ a := by
  unfold Rel at h
  rw [abs_of_nonneg hb, _root_.abs_le] at h
  nlinarith [h.1]

theorem Rel.neg_of {e a b : ℝ} (h : Rel e a b) (he : e < 1) (hb : b < 0) : a < 0 := by
  unfold Rel at h
  rw [abs_of_neg hb, _root_.abs_le] at h
  nlinarith [h.2]

/-! ### angles -/

theorem arcsin_small {t : ℝ} (h : |t| ≤ 1) : |Real.arcsin t| ≤ Real.pi / 2 * |t| := by
  have key : ∀ t : ℝ, 0 ≤ t → t ≤ 1 → Real.arcsin t ≤ Real.pi / 2 * t := by
    intro t h0 h1
    have a0 : 0 ≤ Real.arcsin t := Real.arcsin_nonneg.2 h0
    have a1 := Real.arcsin_le_pi_div_two t
    have := Real.mul_le_sin a0 a1
    rw [Real.sin_arcsin (by linarith) h1] at this
    have hp := Real.pi_pos
    rw [div_mul_eq_mul_div, div_le_iff₀ hp] at this
    linarith
  rcases le_total 0 t with h0 | h0
  · rw [abs_of_nonneg h0] at h ⊢
    rw [abs_of_nonneg (Real.arcsin_nonneg.2 h0)]
    exact key t h0 h
  · rw [abs_of_nonpos h0] at h ⊢
    rw [← abs_neg, ← Real.arcsin_neg, abs_of_nonneg (Real.arcsin_nonneg.2 (by linarith))]
    exact key _ (by linarith) h

/-- Numbers with the same signs, off by a share `u`: the angle is off by `2 u`. -/
theorem angle_rel {u x y x' y' : ℝ} (h0 : 0 ≤ u) (h1 : u ≤ 1 / 100) (hx : Rel u x' x) (hy : Rel u y' y) :
    |atan2 y' x' - atan2 y x| ≤ 2 * u := by
  unfold atan2
  obtain ⟨z, hz⟩ : ∃ z : ℂ, z = ⟨x, y⟩ := ⟨_, rfl⟩
  obtain ⟨z', hz'⟩ : ∃ z' : ℂ, z' = ⟨x', y'⟩ := ⟨_, rfl⟩
  rw [← hz, ← hz']
  have near : ‖z' - z‖ ≤ u * ‖z‖ := by
    have e1 : ‖z' - z‖ ^ 2 = (x' - x) ^ 2 + (y' - y) ^ 2 := by
      rw [← Complex.normSq_eq_norm_sq, Complex.normSq_apply, hz, hz']
      simp
      ring
    have e2 : ‖z‖ ^ 2 = x ^ 2 + y ^ 2 := by
      rw [← Complex.normSq_eq_norm_sq, Complex.normSq_apply, hz]
      simp
      ring
    have a1 : (x' - x) ^ 2 ≤ u ^ 2 * x ^ 2 := by
      have := pow_le_pow_left₀ (abs_nonneg _) hx 2
      rw [sq_abs, mul_pow, sq_abs] at this
      exact this
    have a2 : (y' - y) ^ 2 ≤ u ^ 2 * y ^ 2 := by
      have := pow_le_pow_left₀ (abs_nonneg _) hy 2
      rw [sq_abs, mul_pow, sq_abs] at this
      exact this
    refine (sq_le_sq₀ (norm_nonneg _) (by positivity)).1 ?_
    rw [mul_pow, e1, e2]
    linarith
  by_cases hz0 : z = 0
  · rw [hz0] at near
    simp at near
    rw [near, hz0]
    simpa using h0
  have hn : 0 < ‖z‖ := norm_pos_iff.2 hz0
  obtain ⟨w, hw⟩ : ∃ w, w = z' / z := ⟨_, rfl⟩
  have hzw : z' = z * w := by rw [hw]; field_simp
  have hw1 : ‖w - 1‖ ≤ u := by
    have : w - 1 = (z' - z) / z := by rw [hw]; field_simp
    rw [this, norm_div, div_le_iff₀ hn]
    exact near
  have hre : 1 - u ≤ w.re := by
    have := (Complex.abs_re_le_norm (w - 1)).trans hw1
    rw [_root_.abs_le] at this
    simp at this
    linarith [this.1]
  have him : |w.im| ≤ u := by
    have := (Complex.abs_im_le_norm (w - 1)).trans hw1
    simpa using this
  have hnw : 1 - u ≤ ‖w‖ := le_trans hre (le_trans (le_abs_self _) (Complex.abs_re_le_norm w))
  have hwp : 0 < ‖w‖ := by linarith
  have harg : |Complex.arg w| ≤ 2 * u := by
    rw [Complex.arg_of_re_nonneg (by linarith)]
    have ht : |w.im / ‖w‖| ≤ 102 / 100 * u := by
      rw [abs_div, abs_of_pos hwp, div_le_iff₀ hwp]
      nlinarith
    refine le_trans (arcsin_small (by linarith)) ?_
    have hp := Real.pi_lt_d2
    have hp0 := Real.pi_pos
    calc Real.pi / 2 * |w.im / ‖w‖| ≤ (315 / 100) / 2 * (102 / 100 * u) := by
          apply mul_le_mul _ ht (abs_nonneg _) (by norm_num)
          linarith
      _ ≤ 2 * u := by nlinarith
  have hw0 : w ≠ 0 := norm_pos_iff.1 hwp
  have hang : ((Complex.arg z' : ℝ) : Real.Angle) = ((Complex.arg z + Complex.arg w : ℝ) : Real.Angle) := by
    rw [hzw, Complex.arg_mul_coe_angle hz0 hw0]
    push_cast
    rfl
  obtain ⟨k, hk⟩ := Real.Angle.angle_eq_iff_two_pi_dvd_sub.1 hang
  have hpi := Real.pi_gt_three
  have side : |Complex.arg z' - Complex.arg z| ≤ Real.pi := by
    rcases le_or_gt 0 y with hy0 | hy0
    · have hy' := hy.nonneg (by linarith) hy0
      have b1 := Complex.arg_nonneg_iff.2 (by rw [hz]; exact hy0 : 0 ≤ z.im)
      have b2 := Complex.arg_nonneg_iff.2 (by rw [hz']; exact hy' : 0 ≤ z'.im)
      have b3 := Complex.arg_le_pi z
      have b4 := Complex.arg_le_pi z'
      rw [_root_.abs_le]
      constructor <;> linarith
    · have hy' := hy.neg_of (by linarith) hy0
      have b1 := Complex.arg_neg_iff.2 (by rw [hz]; exact hy0 : z.im < 0)
      have b2 := Complex.arg_neg_iff.2 (by rw [hz']; exact hy' : z'.im < 0)
      have b3 := Complex.neg_pi_lt_arg z
      have b4 := Complex.neg_pi_lt_arg z'
      rw [_root_.abs_le]
      constructor <;> linarith
  have hk0 : k = 0 := by
    by_contra hc
    have : (1 : ℝ) ≤ |(k : ℝ)| := by
      have : 1 ≤ |k| := Int.one_le_abs hc
      exact_mod_cast this
    have e : 2 * Real.pi * k = (Complex.arg z' - Complex.arg z) - Complex.arg w := by linarith
    have e2 : |2 * Real.pi * k| = 2 * Real.pi * |(k : ℝ)| := by rw [abs_mul, abs_of_pos (by linarith : 0 < 2 * Real.pi)]
    have e3 : |2 * Real.pi * k| ≤ Real.pi + 2 * u := by
      rw [e]
      exact le_trans (abs_sub _ _) (by linarith)
    rw [e2] at e3
    nlinarith
  rw [hk0] at hk
  have : Complex.arg z' - Complex.arg z = Complex.arg w := by
    push_cast at hk
    linarith
  rw [this]
  exact harg

/-! ### the roundings of the filter -/

/-- Half a unit in the last place of a `float`. -/
def uF : ℝ := 1 / 2 ^ 24

theorem uF_pos : 0 < uF := by unfold uF; positivity
theorem uF_small : uF ≤ 1 / 1000000 := by unfold uF; norm_num
theorem uF_m : 66 * uF ≤ 4 / 1000000 := by unfold uF; norm_num
theorem v_le : (1 : ℝ) / 2 ^ 53 ≤ 1 / 1000000 * uF := by unfold uF; norm_num

variable {o : FloatOps}

theorem p200_le : (2 : ℝ) ^ 200 ≤ 2 ^ 1023 := pow_le_pow_right₀ (by norm_num) (by norm_num)

theorem tiny_le : (1 : ℝ) / 2 ^ 1075 ≤ 1 / 2 ^ 200 :=
  one_div_le_one_div_of_le (by positivity) (pow_le_pow_right₀ (by norm_num) (by norm_num))

/-- Zero, or neither tiny nor huge. -/
def Mid (b : ℝ) : Prop := b = 0 ∨ 1 / 2 ^ 101 ≤ |b| ∧ |b| ≤ 2 ^ 125

theorem r32 (h : Ieee o) {e a b : ℝ} (k : Rel e a b) (he : 0 ≤ e) (h1 : e ≤ 1 / 10000) (hb : Mid b) :
    Rel (e + 11 / 10 * uF) (o.f32 a) b := by
  rcases hb with rfl | ⟨hb, hB⟩
  · have ha : a = 0 := by
      unfold Rel at k
      simpa using k
    subst ha
    unfold Rel
    simp [h.f32_zero]
  · have hu := uF_pos
    have ha := k.abs_le
    have g : Rel (105 / 100 * uF) (o.f32 a) a := by
      unfold Rel
      have hlo : (1 : ℝ) / 2 ^ 102 ≤ |a| := by
        unfold Rel at k
        have := abs_sub_abs_le_abs_sub b a
        rw [abs_sub_comm] at this
        have h2 : (1 : ℝ) / 2 ^ 102 = 1 / 2 * (1 / 2 ^ 101) := by norm_num
        rw [h2]
        nlinarith [abs_nonneg b]
      have hhi : |a| ≤ 2 ^ 127 := by
        have : (1 + e) * |b| ≤ 2 * 2 ^ 125 := by nlinarith [abs_nonneg b]
        calc |a| ≤ (1 + e) * |b| := ha
          _ ≤ 2 * 2 ^ 125 := this
          _ ≤ 2 ^ 127 := by norm_num
      refine le_trans (h.f32 a hhi) ?_
      have h3 : (1 : ℝ) / 2 ^ 150 ≤ 5 / 100 * uF * (1 / 2 ^ 102) := by
        unfold uF
        norm_num
      have h4 : 5 / 100 * uF * (1 / 2 ^ 102) ≤ 5 / 100 * uF * |a| := mul_le_mul_of_nonneg_left hlo (by positivity)
      have h5 : (1 : ℝ) / 2 ^ 24 = uF := rfl
      rw [h5]
      linarith
    refine (g.trans k (by positivity)).mono ?_
    nlinarith

theorem r64 (h : Ieee o) {e a b : ℝ} (k : Rel e a b) (he : 0 ≤ e) (h1 : e ≤ 1 / 10000) (hb : 1 / 2 ^ 101 ≤ |b| ∧ |b| ≤ 2 ^ 125) :
    Rel (e + 1 / 100 * uF) (o.f64 a) b := by
  obtain ⟨hb, hB⟩ := hb
  have hu := uF_pos
  have ha := k.abs_le
  have g : Rel (1 / 1000 * uF) (o.f64 a) a := by
    unfold Rel
    have hlo : (1 : ℝ) / 2 ^ 102 ≤ |a| := by
      unfold Rel at k
      have := abs_sub_abs_le_abs_sub b a
      rw [abs_sub_comm] at this
      have h2 : (1 : ℝ) / 2 ^ 102 = 1 / 2 * (1 / 2 ^ 101) := by norm_num
      rw [h2]
      nlinarith [abs_nonneg b]
    have hhi : |a| ≤ 2 ^ 1023 := by
      have : (1 + e) * |b| ≤ 2 * 2 ^ 125 := by nlinarith [abs_nonneg b]
      calc |a| ≤ (1 + e) * |b| := ha
        _ ≤ 2 * 2 ^ 125 := this
        _ ≤ 2 ^ 1023 := le_trans (by norm_num) p200_le
    refine le_trans (h.f64 a hhi) ?_
    have h3 : (1 : ℝ) / 2 ^ 1075 ≤ 1 / 10000 * uF * (1 / 2 ^ 102) := by
      refine le_trans tiny_le ?_
      unfold uF
      norm_num
    have h4 : 1 / 10000 * uF * (1 / 2 ^ 102) ≤ 1 / 10000 * uF * |a| := mul_le_mul_of_nonneg_left hlo (by positivity)
    have h5 : 1 / 2 ^ 53 * |a| ≤ 1 / 1000000 * uF * |a| := mul_le_mul_of_nonneg_right v_le (abs_nonneg _)
    nlinarith [abs_nonneg a]
  refine (g.trans k (by positivity)).mono ?_
  nlinarith

/-- Numbers between a millionth of a millionth and a million are in the middle. -/
theorem mid_of {b : ℝ} (h0 : 1 / 2 ^ 40 ≤ b) (h1 : b ≤ 2 ^ 40) : 1 / 2 ^ 101 ≤ |b| ∧ |b| ≤ 2 ^ 125 := by
  have : 0 < b := lt_of_lt_of_le (by positivity) h0
  rw [abs_of_pos this]
  exact ⟨le_trans (by norm_num) h0, le_trans h1 (by norm_num)⟩

theorem rmul {e f a b a' b' : ℝ} (h : Rel e a' a) (k : Rel f b' b) (he : 0 ≤ e) (hf : 0 ≤ f) (h1 : e ≤ 1 / 100000) :
    Rel (e + 101 / 100 * f) (a' * b') (a * b) := (h.mul k he).mono (by nlinarith)

theorem rpi (h : Ieee o) : Rel (1 / 100 * uF) o.pi Real.pi := by
  have hp := Real.pi_lt_d2
  have hp3 := Real.pi_gt_three
  have := r64 h (Rel.refl Real.pi) le_rfl (by norm_num) (mid_of (by norm_num; linarith) (by norm_num; linarith))
  rw [zero_add] at this
  exact this

/-- What the roundings of the two resolutions cost. -/
theorem hRes_rel (h : Ieee o) {c : ImageCfg} (hc : Sized c) : Rel (4 * uF) (hResF o c) c.hRes := by
  have hu := uF_pos
  have hs := uF_small
  have hp := Real.pi_lt_d2
  have hp3 := Real.pi_gt_three
  have hC : (1 : ℝ) ≤ c.cols := by exact_mod_cast hc.cols.1
  have hC' : (c.cols : ℝ) ≤ 65536 := by exact_mod_cast hc.cols.2
  have hC0 : (0 : ℝ) < c.cols := by linarith
  have a1 := r32 h (Rel.refl (c.cols : ℝ)) le_rfl (by norm_num) (.inr (mid_of (by norm_num; linarith) (by norm_num; linarith)))
  have a2 := a1.inv hC0.ne' (by positivity) (by linarith)
  have a3 : Rel (1 / 100 * uF) (o.pi * 2) (Real.pi * 2) := by
    have := (rpi h).mul (Rel.refl 2) (by positivity)
    simpa using this
  have a4 := rmul a3 a2 (by positivity) (by positivity) (by linarith)
  rw [← div_eq_mul_inv, ← div_eq_mul_inv] at a4
  have hm : 1 / 2 ^ 101 ≤ |Real.pi * 2 / c.cols| ∧ |Real.pi * 2 / c.cols| ≤ 2 ^ 125 := by
    apply mid_of
    · rw [le_div_iff₀ hC0]
      norm_num
      linarith
    · rw [div_le_iff₀ hC0]
      norm_num
      linarith
  have a5 := r64 h a4 (by positivity) (by linarith) hm
  have a6 := r32 h a5 (by positivity) (by linarith) (.inr hm)
  exact a6.mono (by linarith)

theorem vRes_rel (h : Ieee o) {c : ImageCfg} (hc : Sized c) : Rel (7 * uF) (vResF o c) c.vRes := by
  have hu := uF_pos
  have hs := uF_small
  have hp := Real.pi_lt_d2
  have hp3 := Real.pi_gt_three
  have hR : (1 : ℝ) ≤ c.rows := by exact_mod_cast hc.rows.1
  have hR' : (c.rows : ℝ) ≤ 65536 := by exact_mod_cast hc.rows.2
  have hR0 : (0 : ℝ) < c.rows := by linarith
  have hV0 : 1 / 100 ≤ c.top - c.btm := by linarith [hc.view]
  have hV1 : c.top - c.btm ≤ 180 := by linarith [(_root_.abs_le.1 hc.btm).1, (_root_.abs_le.1 hc.top).2]
  have a1 := r32 h (Rel.refl (c.rows : ℝ)) le_rfl (by norm_num) (.inr (mid_of (by norm_num; linarith) (by norm_num; linarith)))
  have a2 := a1.inv hR0.ne' (by positivity) (by linarith)
  have a3 := r32 h (Rel.refl (c.top - c.btm)) le_rfl (by norm_num) (.inr (mid_of (by norm_num; linarith) (by norm_num; linarith)))
  have a4 := rmul a3 a2 (by positivity) (by positivity) (by linarith)
  rw [← div_eq_mul_inv, ← div_eq_mul_inv] at a4
  have q0 : 1 / 6553600 ≤ (c.top - c.btm) / c.rows := by
    rw [le_div_iff₀ hR0]
    linarith
  have q1 : (c.top - c.btm) / c.rows ≤ 180 := by
    rw [div_le_iff₀ hR0]
    linarith
  obtain ⟨q, hq⟩ : ∃ q, q = (c.top - c.btm) / (c.rows : ℝ) := ⟨_, rfl⟩
  rw [← hq] at a4 q0 q1
  have a5 := r32 h a4 (by positivity) (by linarith) (.inr (mid_of (le_trans (by norm_num) q0) (le_trans q1 (by norm_num))))
  have a6 := rmul a5 (Rel.refl ((180 : ℝ)⁻¹)) (by positivity) le_rfl (by linarith)
  rw [← div_eq_mul_inv _ (180 : ℝ), ← div_eq_mul_inv _ (180 : ℝ)] at a6
  have a7 := r32 h a6 (by positivity) (by linarith) (.inr (mid_of (by norm_num; linarith) (by norm_num; linarith)))
  have a8 := rmul a7 (rpi h) (by positivity) (by positivity) (by linarith)
  have hm : 1 / 2 ^ 101 ≤ |q / 180 * Real.pi| ∧ |q / 180 * Real.pi| ≤ 2 ^ 125 := by
    apply mid_of
    · norm_num
      nlinarith
    · norm_num
      nlinarith
  have a9 := r64 h a8 (by positivity) (by linarith) hm
  have a10 := r32 h a9 (by positivity) (by linarith) (.inr hm)
  unfold ImageCfg.vRes
  rw [← hq]
  exact a10.mono (by linarith)

theorem btm_near (h : Ieee o) {c : ImageCfg} (hb : |c.btm| ≤ 90) :
    |o.f64 (o.f32 (c.btm / 180) * o.pi) - c.btm / 180 * Real.pi| ≤ 2 * uF := by
  have hu := uF_pos
  have hs := uF_small
  have hp := Real.pi_lt_d2
  have hp3 := Real.pi_gt_three
  have hb2 : |c.btm / 180| ≤ 1 / 2 := by
    rw [abs_div, abs_of_pos (by norm_num : (0 : ℝ) < 180)]
    linarith
  generalize c.btm / 180 = b at hb2
  have hpi := rpi h
  have g1 := h.f32 b (le_trans hb2 (by norm_num))
  have g1' : |o.f32 b - b| ≤ 51 / 100 * uF := by
    refine le_trans g1 ?_
    have : (1 : ℝ) / 2 ^ 150 ≤ 1 / 100 * uF := by unfold uF; norm_num
    have h5 : (1 : ℝ) / 2 ^ 24 = uF := rfl
    rw [h5]
    nlinarith
  have hF : |o.f32 b| ≤ 6 / 10 := by
    have := abs_sub_abs_le_abs_sub (o.f32 b) b
    linarith
  unfold Rel at hpi
  rw [abs_of_pos Real.pi_pos] at hpi
  have hprod : |o.f32 b * o.pi - b * Real.pi| ≤ 17 / 10 * uF := by
    have e : o.f32 b * o.pi - b * Real.pi = o.f32 b * (o.pi - Real.pi) + (o.f32 b - b) * Real.pi := by ring
    rw [e]
    refine le_trans (abs_add_le _ _) ?_
    rw [abs_mul, abs_mul, abs_of_pos Real.pi_pos]
    have h1 : |o.f32 b| * |o.pi - Real.pi| ≤ 6 / 10 * (1 / 100 * uF * (315 / 100)) :=
      mul_le_mul hF (le_trans hpi (by nlinarith)) (abs_nonneg _) (by norm_num)
    have h2 : |o.f32 b - b| * Real.pi ≤ 51 / 100 * uF * (315 / 100) :=
      mul_le_mul g1' (by linarith) (by linarith) (by positivity)
    linarith
  have hP : |o.f32 b * o.pi| ≤ 2 := by
    have := abs_sub_abs_le_abs_sub (o.f32 b * o.pi) (b * Real.pi)
    rw [abs_mul b, abs_of_pos Real.pi_pos] at this
    nlinarith [abs_nonneg b]
  have g2 := h.f64 (o.f32 b * o.pi) (le_trans hP (le_trans (by norm_num) p200_le))
  have g2' : |o.f64 (o.f32 b * o.pi) - o.f32 b * o.pi| ≤ 1 / 100 * uF := by
    refine le_trans g2 ?_
    have h3 : (1 : ℝ) / 2 ^ 1075 ≤ 1 / 1000 * uF := le_trans tiny_le (by unfold uF; norm_num)
    have := v_le
    nlinarith [abs_nonneg (o.f32 b * o.pi)]
  have := abs_sub_le (o.f64 (o.f32 b * o.pi)) (o.f32 b * o.pi) (b * Real.pi)
  linarith

/-- Usual numbers and their squares are in the middle. -/
theorem usual_mid {x : ℝ} (h : Usual x) : Mid x := by
  rcases h with h | ⟨h0, h1⟩
  · exact .inl h
  · exact .inr ⟨le_trans (by norm_num) h0, le_trans h1 (by norm_num)⟩

theorem usual_sq {x : ℝ} (h : Usual x) : x * x = 0 ∨ 1 / 2 ^ 100 ≤ x * x ∧ x * x ≤ 2 ^ 100 := by
  rcases h with h | ⟨h0, h1⟩
  · exact .inl (by simp [h])
  · right
    rw [← abs_mul_abs_self x]
    constructor
    · calc (1 : ℝ) / 2 ^ 100 = 1 / 2 ^ 50 * (1 / 2 ^ 50) := by norm_num
        _ ≤ |x| * |x| := mul_self_le_mul_self (by positivity) h0
    · calc |x| * |x| ≤ 2 ^ 50 * 2 ^ 50 := mul_self_le_mul_self (abs_nonneg _) h1
        _ = 2 ^ 100 := by norm_num

theorem flat_size {q : InnerPoint ℝ} (h : UsualPoint q) :
    q.x * q.x + q.y * q.y = 0 ∨ 1 / 2 ^ 100 ≤ q.x * q.x + q.y * q.y ∧ q.x * q.x + q.y * q.y ≤ 2 ^ 101 := by
  have hx0 := mul_self_nonneg q.x
  have hy0 := mul_self_nonneg q.y
  rcases usual_sq h.x with a | ⟨a, a'⟩ <;> rcases usual_sq h.y with b | ⟨b, b'⟩
  · exact .inl (by rw [a, b]; norm_num)
  · exact .inr ⟨by linarith, by rw [a]; norm_num at b' ⊢; linarith⟩
  · exact .inr ⟨by linarith, by rw [b]; norm_num at a' ⊢; linarith⟩
  · exact .inr ⟨by linarith, by norm_num at a' b' ⊢; linarith⟩

theorem flat_size' {q : InnerPoint ℝ} (h : UsualPoint q) : flatDist q = 0 ∨ 1 / 2 ^ 50 ≤ flatDist q ∧ flatDist q ≤ 2 ^ 51 := by
  unfold flatDist
  rcases flat_size h with a | ⟨a, b⟩
  · exact .inl (by rw [a, Real.sqrt_zero])
  · right
    constructor
    · apply Real.le_sqrt_of_sq_le
      refine le_trans (le_of_eq ?_) a
      norm_num
    · apply Real.sqrt_le_iff.2 ⟨by positivity, le_trans b (by norm_num)⟩

theorem flat_rel (h : Ieee o) {c : ImageCfg} {p : InnerPoint ℝ} (hq : UsualPoint (c.shift p)) :
    Rel (6 * uF) (flatF o (shiftF o c p)) (flatDist (c.shift p)) := by
  have hu := uF_pos
  have hs := uF_small
  have sq : ∀ a, Usual a → Rel (34 / 10 * uF) (o.f32 (o.f32 a * o.f32 a)) (a * a) := by
    intro a ha
    have a1 := r32 h (Rel.refl a) le_rfl (by norm_num) (usual_mid ha)
    have a2 := rmul a1 a1 (by positivity) (by positivity) (by linarith)
    refine (r32 h a2 (by positivity) (by linarith) ?_).mono (by linarith)
    rcases usual_sq ha with g | ⟨g0, g1⟩
    · exact .inl g
    · refine .inr ?_
      rw [abs_of_nonneg (mul_self_nonneg a)]
      exact ⟨le_trans (by norm_num) g0, le_trans g1 (by norm_num)⟩
  have b1 := (sq (p.x + c.ox) hq.x).add (sq (p.y + c.oy) hq.y) (mul_self_nonneg _) (mul_self_nonneg _)
  have n0 : 0 ≤ (p.x + c.ox) * (p.x + c.ox) + (p.y + c.oy) * (p.y + c.oy) :=
    add_nonneg (mul_self_nonneg _) (mul_self_nonneg _)
  have b2 := r32 h b1 (by positivity) (by linarith) (by
    rcases flat_size hq with g | ⟨g0, g1⟩
    · exact .inl g
    · refine .inr ?_
      rw [abs_of_nonneg n0]
      exact ⟨le_trans (by norm_num) g0, le_trans g1 (by norm_num)⟩)
  have b3 := b2.sqrt n0 (by linarith)
  refine (r32 h b3 (by positivity) (by linarith) ?_).mono (by linarith)
  rcases flat_size' hq with g | ⟨g0, g1⟩
  · exact .inl g
  · refine .inr ?_
    have : 0 ≤ flatDist (c.shift p) := Real.sqrt_nonneg _
    change 1 / 2 ^ 101 ≤ |flatDist (c.shift p)| ∧ |flatDist (c.shift p)| ≤ 2 ^ 125
    rw [abs_of_nonneg this]
    exact ⟨le_trans (by norm_num) g0, le_trans g1 (by norm_num)⟩

/-- What is off by little from a usual number is one the arc tangent is accurate for. -/
theorem at2_range {e a b : ℝ} (k : Rel e a b) (he : 0 ≤ e) (h1 : e ≤ 1 / 10) (hb : b = 0 ∨ 1 / 2 ^ 50 ≤ |b| ∧ |b| ≤ 2 ^ 51) :
    a = 0 ∨ 1 / 2 ^ 55 ≤ |a| ∧ |a| ≤ 2 ^ 55 := by
  rcases hb with rfl | ⟨h0, hB⟩
  · left
    unfold Rel at k
    simpa using k
  · right
    have ha := k.abs_le
    constructor
    · unfold Rel at k
      have := abs_sub_abs_le_abs_sub b a
      rw [abs_sub_comm] at this
      have h2 : (1 : ℝ) / 2 ^ 55 ≤ 1 / 2 * (1 / 2 ^ 50) := by norm_num
      refine le_trans h2 ?_
      nlinarith [abs_nonneg b]
    · have : (1 + e) * |b| ≤ 2 * 2 ^ 51 := by nlinarith [abs_nonneg b]
      calc |a| ≤ (1 + e) * |b| := ha
        _ ≤ 2 * 2 ^ 51 := this
        _ ≤ 2 ^ 55 := by norm_num

theorem usual_wide {x : ℝ} (h : Usual x) : x = 0 ∨ 1 / 2 ^ 50 ≤ |x| ∧ |x| ≤ 2 ^ 51 := by
  rcases h with h | ⟨h0, h1⟩
  · exact .inl h
  · exact .inr ⟨h0, le_trans h1 (by norm_num)⟩

theorem elevation_near (h : Ieee o) {c : ImageCfg} {p : InnerPoint ℝ} (hq : UsualPoint (c.shift p)) {r ε φ : ℝ} (hs : SeenAt (c.shift p) r ε φ) :
    |o.at2 (shiftF o c p).z (flatF o (shiftF o c p)) - ε| ≤ 19 * uF := by
  have hu := uF_pos
  have hsm := uF_small
  have hf := flat_rel h hq
  have hz : Rel (6 * uF) (shiftF o c p).z (c.shift p).z :=
    (r32 h (Rel.refl (p.z + c.oz)) le_rfl (by norm_num) (usual_mid hq.z)).mono (by linarith)
  have a1 := angle_rel (by linarith) (by linarith) hf hz
  rw [seen_elevation hs] at a1
  have a2 : |o.at2 (shiftF o c p).z (flatF o (shiftF o c p)) - atan2 (shiftF o c p).z (flatF o (shiftF o c p))| ≤
      1 / 2 ^ 22 * |atan2 (shiftF o c p).z (flatF o (shiftF o c p))| := by
    apply h.at2 _ _ (at2_range hz (by positivity) (by linarith) (usual_wide hq.z)) (at2_range hf (by positivity) (by linarith) ?_)
    rcases flat_size' hq with g | ⟨g0, g1⟩
    · exact .inl g
    · have n0 : 0 ≤ flatDist (c.shift p) := Real.sqrt_nonneg _
      rw [abs_of_nonneg n0]
      exact .inr ⟨g0, g1⟩
  generalize atan2 (shiftF o c p).z (flatF o (shiftF o c p)) = α at a1 a2
  have hp := Real.pi_lt_d2
  have he : |ε| ≤ 16 / 10 := by
    rw [_root_.abs_le]
    constructor <;> linarith [hs.up.1, hs.up.2]
  have hα : |α| ≤ 17 / 10 := by
    have := abs_sub_abs_le_abs_sub α ε
    linarith
  have hb : 1 / 2 ^ 22 * |α| ≤ 68 / 10 * uF := by
    unfold uF
    linarith
  have := abs_sub_le (o.at2 (shiftF o c p).z (flatF o (shiftF o c p))) α ε
  linarith

theorem vRes_ge {c : ImageCfg} (hc : Sized c) : 2 / 1000000000 ≤ c.vRes := by
  have hp3 := Real.pi_gt_three
  have hR : (1 : ℝ) ≤ c.rows := by exact_mod_cast hc.rows.1
  have hR' : (c.rows : ℝ) ≤ 65536 := by exact_mod_cast hc.rows.2
  have hV0 : 1 / 100 ≤ c.top - c.btm := by linarith [hc.view]
  have q0 : 1 / 6553600 ≤ (c.top - c.btm) / c.rows := by
    rw [le_div_iff₀ (by linarith)]
    linarith
  unfold ImageCfg.vRes
  have q1 : 1 / 6553600 / 180 ≤ (c.top - c.btm) / c.rows / 180 := by linarith
  nlinarith

/-- The quotient whose whole part is the row. -/
theorem row_arg (h : Ieee o) {c : ImageCfg} (hc : Sized c) {p : InnerPoint ℝ} (hq : UsualPoint (c.shift p)) {r ε φ : ℝ} (hs : SeenAt (c.shift p) r ε φ) :
    0 < vResF o c ∧ ∃ X, X = o.f64 (o.f64 (o.at2 (shiftF o c p).z (flatF o (shiftF o c p)) - o.f64 (o.f32 (c.btm / 180) * o.pi)) / vResF o c) ∧ |X| ≤ 2147483647 ∧
      ∀ k : ℝ, -1 ≤ k → k ≤ c.rows →
        (k * c.vRes + c.btm / 180 * Real.pi + 4 / 1000000 ≤ ε → k ≤ X) ∧
        (ε + 4 / 1000000 ≤ k * c.vRes + c.btm / 180 * Real.pi → X < k) := by
  have hu := uF_pos
  have hsm := uF_small
  have hm := uF_m
  have hr := hc.rows.1
  have hb := hc.btm
  have ht := hc.top
  have hbt : c.btm < c.top := by linarith [hc.view]
  have hv := vRes_pos hr hbt
  have hR := vRes_rel h hc
  have hRpos : 0 < vResF o c := by
    unfold Rel at hR
    rw [abs_of_pos hv, _root_.abs_le] at hR
    nlinarith [hR.1]
  refine ⟨hRpos, _, rfl, ?_⟩
  have hrows : (1 : ℝ) ≤ c.rows := by exact_mod_cast hr
  have hp := Real.pi_lt_d2
  have hp3 := Real.pi_gt_three
  have hfov : c.rows * c.vRes ≤ 315 / 100 := by
    have e : c.rows * c.vRes = (c.top - c.btm) / 180 * Real.pi := by
      unfold ImageCfg.vRes
      field_simp
    rw [e]
    rw [_root_.abs_le] at hb ht
    have h1 : (c.top - c.btm) / 180 ≤ 1 := by linarith [hb.1, ht.2]
    have h0 : 0 ≤ (c.top - c.btm) / 180 := by linarith
    nlinarith
  have hv1 : c.vRes ≤ 315 / 100 := by nlinarith
  have hv2 : 2 / 1000000000 ≤ c.vRes := vRes_ge hc
  have hel := elevation_near h hq hs
  have hbn := btm_near h hb
  generalize o.at2 (shiftF o c p).z (flatF o (shiftF o c p)) = V at hel
  have hbabs : |c.btm / 180 * Real.pi| ≤ 16 / 10 := by
    rw [abs_mul, abs_div, abs_of_pos Real.pi_pos, abs_of_pos (by norm_num : (0 : ℝ) < 180)]
    have : |c.btm| / 180 ≤ 1 / 2 := by linarith
    nlinarith [abs_nonneg c.btm]
  generalize o.f64 (o.f32 (c.btm / 180) * o.pi) = B at hbn
  generalize c.btm / 180 * Real.pi = b at hbn hbabs
  have hR' : |vResF o c - c.vRes| ≤ 7 * uF * c.vRes := by
    unfold Rel at hR
    rwa [abs_of_pos hv] at hR
  generalize vResF o c = R' at hRpos hR'
  generalize c.vRes = R at hv hR' hfov hv1 hv2
  have he : |ε| ≤ 16 / 10 := by
    rw [_root_.abs_le]
    constructor <;> linarith [hs.up.1, hs.up.2]
  rw [_root_.abs_le] at hel hbn hR' he hbabs
  -- the difference
  have hN : |o.f64 (V - B) - (ε - b)| ≤ 22 * uF ∧ |o.f64 (V - B)| ≤ 4 := by
    have hvb : |V - B| ≤ 4 := by
      rw [_root_.abs_le]
      constructor <;> linarith [hel.1, hel.2, hbn.1, hbn.2]
    have g := h.f64 (V - B) (le_trans hvb (le_trans (by norm_num) p200_le))
    have hv4 : 1 / 2 ^ 53 * |V - B| + 1 / 2 ^ 1075 ≤ uF / 100 := by
      have := v_le
      have h3 : (1 : ℝ) / 2 ^ 1075 ≤ 1 / 1000 * uF := le_trans tiny_le (by unfold uF; norm_num)
      nlinarith [abs_nonneg (V - B)]
    have hvb2 : |V - B| ≤ 35 / 10 := by
      rw [_root_.abs_le]
      constructor <;> linarith [hel.1, hel.2, hbn.1, hbn.2]
    have g' := le_trans g hv4
    have g2 := abs_sub_abs_le_abs_sub (o.f64 (V - B)) (V - B)
    refine ⟨?_, by linarith⟩
    rw [_root_.abs_le] at g' ⊢
    constructor <;> linarith [g'.1, g'.2, hel.1, hel.2, hbn.1, hbn.2]
  generalize o.f64 (V - B) = N' at hN
  obtain ⟨hN1, hN2⟩ := hN
  have hR1 : 1 / 1000000000 ≤ R' ∧ R' ≤ 4 := by
    constructor <;> nlinarith [hR'.1, hR'.2]
  have hq := h.f64 (N' / R') (by
    rw [abs_div, abs_of_pos hRpos, div_le_iff₀ hRpos]
    have := p200_le
    have h4 : (4 : ℝ) ≤ 2 ^ 200 * (1 / 1000000000) := by norm_num
    exact le_trans hN2 (le_trans h4 (mul_le_mul this hR1.1 (by norm_num) (by positivity))))
  generalize o.f64 (N' / R') = X at hq
  have hq' : |X * R' - N'| ≤ uF / 100 := by
    have e : X * R' - N' = (X - N' / R') * R' := by field_simp
    rw [e, abs_mul, abs_of_pos hRpos]
    have e2 : |N' / R'| * R' = |N'| := by rw [abs_div, abs_of_pos hRpos]; field_simp
    calc |X - N' / R'| * R' ≤ (1 / 2 ^ 53 * |N' / R'| + 1 / 2 ^ 1075) * R' := mul_le_mul_of_nonneg_right hq hRpos.le
      _ = 1 / 2 ^ 53 * |N'| + 1 / 2 ^ 1075 * R' := by rw [add_mul, mul_assoc, e2]
      _ ≤ uF / 100 := by
        have := v_le
        have h3 : (1 : ℝ) / 2 ^ 1075 ≤ 1 / 1000 * uF := le_trans tiny_le (by unfold uF; norm_num)
        have h4 : 1 / 2 ^ 1075 * R' ≤ 1 / 1000 * uF * 4 := mul_le_mul h3 hR1.2 hRpos.le (by positivity)
        nlinarith [abs_nonneg N']
  have hXb : |X| ≤ 2147483647 := by
    have hR3 : 19 / 10 / 1000000000 ≤ R' := by nlinarith [hR'.1]
    have h1 := abs_sub_abs_le_abs_sub (X * R') N'
    rw [abs_mul, abs_of_pos hRpos] at h1
    by_contra hn
    push Not at hn
    nlinarith
  rw [_root_.abs_le] at hq' hN1
  refine ⟨hXb, ?_⟩
  intro k hk0 hk1
  have hkR : |k * R' - k * R| ≤ 23 * uF := by
    rw [← mul_sub, abs_mul]
    have h1 : |k| ≤ c.rows := by
      rw [_root_.abs_le]
      constructor <;> linarith
    have h2 : |R' - R| ≤ 7 * uF * R := by
      rw [_root_.abs_le]
      exact hR'
    calc |k| * |R' - R| ≤ c.rows * (7 * uF * R) := mul_le_mul h1 h2 (abs_nonneg _) (by linarith)
      _ = 7 * uF * (c.rows * R) := by ring
      _ ≤ 7 * uF * (315 / 100) := mul_le_mul_of_nonneg_left hfov (by positivity)
      _ ≤ 23 * uF := by linarith
  rw [_root_.abs_le] at hkR
  constructor
  · intro hlo
    have : k * R' ≤ X * R' := by linarith [hkR.1, hkR.2, hq'.1, hq'.2, hN1.1, hN1.2]
    exact le_of_mul_le_mul_right this hRpos
  · intro hhi
    have : X * R' < k * R' := by linarith [hkR.1, hkR.2, hq'.1, hq'.2, hN1.1, hN1.2]
    exact lt_of_mul_lt_mul_right this hRpos.le

/-- The angle round the sensor. -/
theorem turn_near (h : Ieee o) {c : ImageCfg} {p : InnerPoint ℝ} (hq : UsualPoint (c.shift p)) {r ε φ a : ℝ}
    (hs : SeenAt (c.shift p) r ε φ) (ha : a = o.at2 (shiftF o c p).y (shiftF o c p).x) :
    0 ≤ (if a < 0 then o.f32 (o.f64 (a + o.pi * 2)) else a) ∧
      |(if a < 0 then o.f32 (o.f64 (a + o.pi * 2)) else a) - φ| ≤ 22 * uF := by
  have hu := uF_pos
  have hsm := uF_small
  have hp := Real.pi_lt_d2
  have hp3 := Real.pi_gt_three
  have hx : Rel (11 / 10 * uF) (shiftF o c p).x (c.shift p).x :=
    (r32 h (Rel.refl (p.x + c.ox)) le_rfl (by norm_num) (usual_mid hq.x)).mono (by linarith)
  have hy : Rel (11 / 10 * uF) (shiftF o c p).y (c.shift p).y :=
    (r32 h (Rel.refl (p.y + c.oy)) le_rfl (by norm_num) (usual_mid hq.y)).mono (by linarith)
  have a1 := angle_rel (by positivity) (by linarith) hx hy
  have a2 : |a - atan2 (shiftF o c p).y (shiftF o c p).x| ≤ 1 / 2 ^ 22 * |atan2 (shiftF o c p).y (shiftF o c p).x| := by
    rw [ha]
    exact h.at2 _ _ (at2_range hy (by positivity) (by linarith) (usual_wide hq.y))
      (at2_range hx (by positivity) (by linarith) (usual_wide hq.x))
  have hsign : atan2 (shiftF o c p).y (shiftF o c p).x < 0 ↔ atan2 (c.shift p).y (c.shift p).x < 0 := by
    unfold atan2
    rw [Complex.arg_neg_iff, Complex.arg_neg_iff]
    dsimp only
    constructor
    · intro g
      by_contra hn
      exact absurd (hy.nonneg (by linarith) (not_lt.1 hn)) (not_le.2 g)
    · intro g
      exact hy.neg_of (by linarith) g
  have hφ := seen_azimuth hs
  have hb : |atan2 (shiftF o c p).y (shiftF o c p).x| ≤ Real.pi := Complex.abs_arg_le_pi _
  generalize atan2 (shiftF o c p).y (shiftF o c p).x = α' at a1 a2 hsign hb
  have hneg : -Real.pi < atan2 (c.shift p).y (c.shift p).x := Complex.neg_pi_lt_arg _
  generalize atan2 (c.shift p).y (c.shift p).x = α at a1 hsign hφ hneg
  have hq22 : (1 : ℝ) / 2 ^ 22 = 4 * uF := by unfold uF; norm_num
  rw [hq22] at a2
  have a3 : |a - α| ≤ 15 * uF := by
    have := abs_sub_le a α' α
    nlinarith
  by_cases hα : α < 0
  · have hα' := hsign.2 hα
    have han : a < 0 := by
      rw [abs_of_neg hα', _root_.abs_le] at a2
      nlinarith [a2.2]
    rw [if_pos hα] at hφ
    rw [if_pos han]
    rw [_root_.abs_le] at a3
    have hpi := rpi h
    unfold Rel at hpi
    rw [abs_of_pos Real.pi_pos, _root_.abs_le] at hpi
    have hpi1 : o.pi ≤ Real.pi + 4 / 100 * uF := by nlinarith [hpi.2]
    have hpi2 : Real.pi - 4 / 100 * uF ≤ o.pi := by nlinarith [hpi.1]
    have hφ1 := hs.turn.2
    have b1 : |a + o.pi * 2 - φ| ≤ 151 / 10 * uF := by
      rw [_root_.abs_le]
      constructor <;> linarith [a3.1, a3.2]
    have hφpos : Real.pi ≤ φ := by linarith
    have b2 : |a + o.pi * 2| ≤ 64 / 10 := by
      rw [_root_.abs_le] at b1 ⊢
      constructor <;> linarith [b1.1, b1.2]
    have g1 := h.f64 (a + o.pi * 2) (le_trans b2 (le_trans (by norm_num) p200_le))
    have g1' : |o.f64 (a + o.pi * 2) - (a + o.pi * 2)| ≤ 1 / 100 * uF := by
      refine le_trans g1 ?_
      have h3 : (1 : ℝ) / 2 ^ 1075 ≤ 1 / 1000 * uF := le_trans tiny_le (by unfold uF; norm_num)
      have := v_le
      nlinarith [abs_nonneg (a + o.pi * 2)]
    have b3 : |o.f64 (a + o.pi * 2)| ≤ 641 / 100 := by
      have := abs_sub_abs_le_abs_sub (o.f64 (a + o.pi * 2)) (a + o.pi * 2)
      linarith
    have g2 := h.f32 (o.f64 (a + o.pi * 2)) (le_trans b3 (by norm_num))
    have g2' : |o.f32 (o.f64 (a + o.pi * 2)) - o.f64 (a + o.pi * 2)| ≤ 65 / 10 * uF := by
      refine le_trans g2 ?_
      have : (1 : ℝ) / 2 ^ 150 ≤ 1 / 100 * uF := by unfold uF; norm_num
      have h5 : (1 : ℝ) / 2 ^ 24 = uF := rfl
      rw [h5]
      nlinarith
    rw [_root_.abs_le] at g1' g2' b1
    constructor
    · linarith [g1'.1, g2'.1, b1.1]
    · rw [_root_.abs_le]
      constructor <;> linarith [g1'.1, g2'.1, b1.1, g1'.2, g2'.2, b1.2]
  · have hα' : ¬ α' < 0 := fun g => hα (hsign.1 g)
    have han : ¬ a < 0 := by
      rw [abs_of_nonneg (not_lt.1 hα'), _root_.abs_le] at a2
      push Not at hα' ⊢
      nlinarith [a2.1]
    rw [if_neg hα] at hφ
    rw [if_neg han]
    subst hφ
    exact ⟨not_lt.1 han, by linarith⟩

/-- The quotient whose nearest integer is the column. -/
theorem col_arg (h : Ieee o) {c : ImageCfg} (hc : Sized c) {p : InnerPoint ℝ} (hq : UsualPoint (c.shift p)) {r ε φ : ℝ}
    (hs : SeenAt (c.shift p) r ε φ) :
    ∃ a X, a = o.at2 (shiftF o c p).y (shiftF o c p).x ∧
      X = o.f32 ((if a < 0 then o.f32 (o.f64 (a + o.pi * 2)) else a) / hResF o c) ∧ -(1 / 2) < X ∧
      ∀ k : ℝ, (0 ≤ k → k * c.hRes + 4 / 1000000 ≤ φ → k ≤ X) ∧ (φ + 4 / 1000000 ≤ k * c.hRes → X < k) := by
  have hu := uF_pos
  have hsm := uF_small
  have hm := uF_m
  have hp := Real.pi_lt_d2
  have hp3 := Real.pi_gt_three
  have hC : (1 : ℝ) ≤ c.cols := by exact_mod_cast hc.cols.1
  have hC' : (c.cols : ℝ) ≤ 65536 := by exact_mod_cast hc.cols.2
  refine ⟨_, _, rfl, rfl, ?_⟩
  obtain ⟨hΦ0, hΦ⟩ := turn_near h hq hs rfl
  generalize (if o.at2 (shiftF o c p).y (shiftF o c p).x < 0 then o.f32 (o.f64 (o.at2 (shiftF o c p).y (shiftF o c p).x + o.pi * 2))
    else o.at2 (shiftF o c p).y (shiftF o c p).x) = Φ at hΦ0 hΦ
  have hR := hRes_rel h hc
  have hR0 : 9 / 100000 ≤ c.hRes := by
    unfold ImageCfg.hRes
    rw [le_div_iff₀ (by linarith)]
    linarith
  have hR2 : c.hRes ≤ 63 / 10 := by
    unfold ImageCfg.hRes
    rw [div_le_iff₀ (by linarith)]
    linarith
  generalize c.hRes = R at hR hR0 hR2
  unfold Rel at hR
  rw [abs_of_pos (by linarith : 0 < R), _root_.abs_le] at hR
  generalize hResF o c = R' at hR
  have hR1 : 1 / 100000 ≤ R' ∧ R' ≤ 7 := by constructor <;> nlinarith [hR.1, hR.2]
  have hRpos : 0 < R' := by linarith
  rw [_root_.abs_le] at hΦ
  have hφ := hs.turn
  have hΦ1 : Φ ≤ 64 / 10 := by linarith
  have hQ0 : 0 ≤ Φ / R' := div_nonneg hΦ0 hRpos.le
  have hQ1 : Φ / R' ≤ 1000000 := by
    rw [div_le_iff₀ hRpos]
    linarith
  have g := h.f32 (Φ / R') (by rw [abs_of_nonneg hQ0]; exact le_trans hQ1 (by norm_num))
  have h5 : (1 : ℝ) / 2 ^ 24 = uF := rfl
  have h6 : (1 : ℝ) / 2 ^ 150 ≤ 1 / 1000 * uF := by unfold uF; norm_num
  rw [h5, abs_of_nonneg hQ0] at g
  generalize o.f32 (Φ / R') = X at g
  have g' : |X * R' - Φ| ≤ 65 / 10 * uF := by
    have e : X * R' - Φ = (X - Φ / R') * R' := by field_simp
    have e2 : Φ / R' * R' = Φ := by field_simp
    rw [e, abs_mul, abs_of_pos hRpos]
    calc |X - Φ / R'| * R' ≤ (uF * (Φ / R') + 1 / 2 ^ 150) * R' := mul_le_mul_of_nonneg_right g hRpos.le
      _ = uF * Φ + 1 / 2 ^ 150 * R' := by rw [add_mul, mul_assoc, e2]
      _ ≤ 65 / 10 * uF := by
        have h4 : 1 / 2 ^ 150 * R' ≤ 1 / 1000 * uF * 7 := mul_le_mul h6 hR1.2 hRpos.le (by positivity)
        nlinarith
  rw [_root_.abs_le] at g g'
  refine ⟨by nlinarith [g.1], fun k => ⟨fun hk hlo => ?_, fun hhi => ?_⟩⟩
  · have : k * R' ≤ X * R' := by
      have h1 : k * R' ≤ k * R + 4 * uF * (k * R) := by nlinarith [hR.2]
      have h2 : k * R ≤ 63 / 10 := by linarith
      nlinarith [g'.1]
    exact le_of_mul_le_mul_right this hRpos
  · have hk : 0 < k := by
      by_contra hn
      push Not at hn
      nlinarith
    have : X * R' < k * R' := by
      have h1 : k * R - 4 * uF * (k * R) ≤ k * R' := by nlinarith [hR.1]
      have h2 : (φ + 4 / 1000000) * (1 - 4 * uF) ≤ k * R * (1 - 4 * uF) := mul_le_mul_of_nonneg_right hhi (by linarith)
      nlinarith [g'.2]
    exact lt_of_mul_lt_mul_right this hRpos.le

theorem lround_of {X : ℝ} {k : Int} (h : -(1 / 2) < X) (hk : 0 ≤ k) (h0 : k = 0 ∨ (k : ℝ) - 1 / 2 ≤ X) (h1 : X < k + 1 / 2) :
    realLround X = k := by
  unfold realLround
  split
  · next g =>
    rw [Int.floor_eq_iff]
    refine ⟨?_, by linarith⟩
    rcases h0 with rfl | h0
    · push_cast
      linarith
    · linarith
  · next g =>
    push Not at g
    have : k = 0 := by
      rcases h0 with h0 | h0
      · exact h0
      · have : (k : ℝ) < 1 := by linarith
        have : k < 1 := by exact_mod_cast this
        omega
    subst this
    rw [Int.ceil_eq_iff]
    push_cast
    constructor <;> linarith

/-- The row, without undefined behaviour, for every point. -/
theorem rowF_ok (h : Ieee o) {c : ImageCfg} (hc : Sized c) {p : InnerPoint ℝ} (hq : UsualPoint (c.shift p)) {r ε φ : ℝ}
    (hs : SeenAt (c.shift p) r ε φ) :
    ∃ X, imageRowF o c (shiftF o c p) = .ok (realTrunc X) ∧ ∀ k : ℝ, -1 ≤ k → k ≤ c.rows →
        (k * c.vRes + c.btm / 180 * Real.pi + 4 / 1000000 ≤ ε → k ≤ X) ∧
        (ε + 4 / 1000000 ≤ k * c.vRes + c.btm / 180 * Real.pi → X < k) := by
  obtain ⟨hR, X, hX, hb, hk⟩ := row_arg h hc hq hs
  refine ⟨X, ?_, hk⟩
  unfold imageRowF
  rw [if_neg hR.ne']
  dsimp only
  rw [← hX, if_pos]
  rw [_root_.abs_le] at hb
  unfold realTrunc
  split
  · constructor
    · exact Int.le_floor.2 (by push_cast; linarith)
    · have : (⌊X⌋ : ℝ) ≤ 2147483647 := le_trans (Int.floor_le X) hb.2
      exact_mod_cast this
  · constructor
    · have : (-2147483647 : ℝ) ≤ ⌈X⌉ := le_trans hb.1 (Int.le_ceil X)
      have : (-2147483647 : Int) ≤ ⌈X⌉ := by exact_mod_cast this
      omega
    · exact Int.ceil_le.2 (by push_cast; linarith)

theorem row_border {c : ImageCfg} (k : ℝ) :
    (c.btm + k * ((c.top - c.btm) / c.rows)) / 180 * Real.pi = k * c.vRes + c.btm / 180 * Real.pi := by
  unfold ImageCfg.vRes
  ring

theorem pixelF_in (h : Ieee o) {c : ImageCfg} (hc : Sized c) {p : InnerPoint ℝ} (hq : UsualPoint (c.shift p)) {r ε φ : ℝ}
    (hs : SeenAt (c.shift p) r ε φ) (hfar : (1 + 1 / 1000000) / 100 ≤ r * Real.cos ε) {k j : Int}
    (hk : WellInRow c (4 / 1000000) ε k) (hj : WellInCol c (4 / 1000000) φ j) :
    imagePixelF o c p = .ok (some (k, j)) := by
  have hu := uF_pos
  have hm := uF_m
  obtain ⟨⟨k0, k1, hlo, -⟩, ⟨-, -, -, hhi⟩⟩ := hk
  rw [row_border] at hlo hhi
  obtain ⟨X, hrow, hX⟩ := rowF_ok h hc hq hs
  have hkR : (0 : ℝ) ≤ k := by exact_mod_cast k0
  have hkR' : (k : ℝ) + 1 ≤ c.rows := by exact_mod_cast k1
  have x0 := (hX k (by linarith) (by linarith)).1 (by linarith)
  have x1 := (hX (k + 1) (by linarith) (by linarith)).2 (by linarith)
  have hrow' : realTrunc X = k := by
    unfold realTrunc
    rw [if_pos (by linarith), Int.floor_eq_iff]
    exact ⟨x0, x1⟩
  obtain ⟨a, Y, ha, hY, hY0, hYk⟩ := col_arg h hc hq hs
  obtain ⟨j0, j1, hcol⟩ := hj
  have hC : (0 : ℝ) < c.cols := by exact_mod_cast hc.cols.1
  have eR : 2 * Real.pi / c.cols = c.hRes := by
    unfold ImageCfg.hRes
    ring
  have full : c.cols * c.hRes = 2 * Real.pi := by
    unfold ImageCfg.hRes
    field_simp
  rw [eR] at hcol
  have hj0R : (0 : ℝ) ≤ j := by exact_mod_cast j0
  have hcolF : (if c.cols ≤ imageColF o c (shiftF o c p) then imageColF o c (shiftF o c p) - c.cols
      else imageColF o c (shiftF o c p)) = j := by
    have e : imageColF o c (shiftF o c p) = realLround Y := by
      unfold imageColF
      rw [hY, ha]
    rw [e]
    rcases hcol with ⟨c0, c1⟩ | ⟨rfl, c0⟩
    · have : realLround Y = j := by
        apply lround_of hY0 j0
        · by_cases hz : j = 0
          · exact .inl hz
          · right
            have : (1 : ℝ) ≤ j := by
              have : 1 ≤ j := by omega
              exact_mod_cast this
            exact (hYk (j - 1 / 2)).1 (by linarith) c0
        · exact (hYk (j + 1 / 2)).2 c1
      rw [this, if_neg (by omega)]
    · have : realLround Y = c.cols := by
        have h1 : (1 : ℝ) ≤ c.cols := by exact_mod_cast hc.cols.1
        apply lround_of hY0 hc.cols.1.le
        · exact .inr ((hYk (c.cols - 1 / 2)).1 (by linarith) c0)
        · apply (hYk (c.cols + 1 / 2)).2
          have := hs.turn.2
          linarith
      rw [this, if_pos le_rfl]
      ring
  have hflat := flat_rel h hq
  rw [seen_flat hs] at hflat
  have h01 := r32 h (Rel.refl (1 / 100 : ℝ)) le_rfl (by norm_num) (.inr (mid_of (by norm_num) (by norm_num)))
  have hnear : ¬ flatF o (shiftF o c p) < o.f32 (1 / 100) := by
    unfold Rel at hflat h01
    rw [abs_of_pos (by linarith : 0 < r * Real.cos ε), _root_.abs_le] at hflat
    rw [abs_of_pos (by norm_num : (0 : ℝ) < 1 / 100), _root_.abs_le] at h01
    push Not
    nlinarith [hflat.1, h01.2]
  unfold imagePixelF
  dsimp only
  rw [if_neg hnear, hrow, hrow']
  show (if k < 0 ∨ c.rows ≤ k then _ else _) = _
  rw [if_neg (by omega), hcolF, if_neg (by omega)]
  rfl

theorem pixelF_out (h : Ieee o) {c : ImageCfg} (hc : Sized c) {p : InnerPoint ℝ} (hq : UsualPoint (c.shift p)) {r ε φ : ℝ}
    (hs : SeenAt (c.shift p) r ε φ)
    (hout : r * Real.cos ε ≤ (1 - 1 / 1000000) / 100 ∨ c.top / 180 * Real.pi + 4 / 1000000 ≤ ε ∨
      ε + 4 / 1000000 ≤ (c.btm - (c.top - c.btm) / c.rows) / 180 * Real.pi) :
    imagePixelF o c p = .ok none := by
  have hu := uF_pos
  have hm := uF_m
  unfold imagePixelF
  dsimp only
  split
  · rfl
  · next hnear =>
    obtain ⟨X, hrow, hX⟩ := rowF_ok h hc hq hs
    have hR : (1 : ℝ) ≤ c.rows := by exact_mod_cast hc.rows.1
    have hbad : realTrunc X < 0 ∨ c.rows ≤ realTrunc X := by
      rcases hout with g | g | g
      · exfalso
        apply hnear
        have hflat := flat_rel h hq
        rw [seen_flat hs] at hflat
        have h01 := r32 h (Rel.refl (1 / 100 : ℝ)) le_rfl (by norm_num) (.inr (mid_of (by norm_num) (by norm_num)))
        unfold Rel at hflat h01
        have hpos : 0 < r * Real.cos ε := mul_pos hs.far (Real.cos_pos_of_mem_Ioo hs.up)
        rw [abs_of_pos hpos, _root_.abs_le] at hflat
        rw [abs_of_pos (by norm_num : (0 : ℝ) < 1 / 100), _root_.abs_le] at h01
        nlinarith [hflat.2, h01.1]
      · right
        have e : (c.rows : ℝ) * c.vRes + c.btm / 180 * Real.pi = c.top / 180 * Real.pi := by
          unfold ImageCfg.vRes
          field_simp
          ring
        have := (hX c.rows (by linarith) le_rfl).1 (by linarith)
        unfold realTrunc
        rw [if_pos (by linarith)]
        exact Int.le_floor.2 this
      · left
        have e : (-1 : ℝ) * c.vRes + c.btm / 180 * Real.pi = (c.btm - (c.top - c.btm) / c.rows) / 180 * Real.pi := by
          unfold ImageCfg.vRes
          ring
        have := (hX (-1) le_rfl (by linarith)).2 (by linarith)
        unfold realTrunc
        rw [if_neg (by linarith)]
        have h2 : ⌈X⌉ ≤ -1 := Int.ceil_le.2 (by push_cast; linarith)
        omega
    rw [hrow]
    show (if realTrunc X < 0 ∨ c.rows ≤ realTrunc X then _ else _) = _
    rw [if_pos hbad]
    rfl

/-! ### rounding to nearest keeps the promise -/

/-- The nearest number with `q + 1` binary digits, not finer than `2 ^ m`. -/
def nearest (q m : Int) (x : ℝ) : ℝ := (round (x / 2 ^ max (Int.log 2 |x| - q) m) : ℝ) * 2 ^ max (Int.log 2 |x| - q) m

theorem nearest_err (q m : Int) (x : ℝ) : |nearest q m x - x| ≤ 2 ^ (-(q + 1)) * |x| + 2 ^ (m - 1) := by
  unfold nearest
  obtain ⟨e, he⟩ : ∃ e, e = max (Int.log 2 |x| - q) m := ⟨_, rfl⟩
  rw [← he]
  have hs : (0 : ℝ) < 2 ^ e := by positivity
  have g := abs_sub_round (x / 2 ^ e)
  have e1 : (round (x / 2 ^ e) : ℝ) * 2 ^ e - x = -((x / 2 ^ e - round (x / 2 ^ e)) * 2 ^ e) := by
    field_simp
    ring
  rw [e1, abs_neg, abs_mul, abs_of_pos hs]
  by_cases hx : x = 0
  · subst hx
    simp
    positivity
  · have hx0 : 0 < |x| := abs_pos.2 hx
    have h1 : |x / 2 ^ e - round (x / 2 ^ e)| * 2 ^ e ≤ 1 / 2 * 2 ^ e := mul_le_mul_of_nonneg_right g hs.le
    refine le_trans h1 ?_
    have hhalf : ∀ t : Int, (1 : ℝ) / 2 * 2 ^ t = 2 ^ (t - 1) := by
      intro t
      rw [zpow_sub_one₀ (by norm_num)]
      ring
    rw [hhalf]
    rcases max_choice (Int.log 2 |x| - q) m with c | c
    · rw [he, c]
      have e2 : (2 : ℝ) ^ (Int.log 2 |x| - q - 1) = 2 ^ (-(q + 1)) * 2 ^ Int.log 2 |x| := by
        rw [← zpow_add₀ (by norm_num)]
        congr 1
        ring
      rw [e2]
      have h2 : (2 : ℝ) ^ Int.log 2 |x| ≤ |x| := by
        have := Int.zpow_log_le_self (b := 2) (by norm_num) hx0
        exact_mod_cast this
      have h3 : (2 : ℝ) ^ (-(q + 1)) * 2 ^ Int.log 2 |x| ≤ 2 ^ (-(q + 1)) * |x| := mul_le_mul_of_nonneg_left h2 (by positivity)
      have : (0 : ℝ) ≤ 2 ^ (m - 1) := by positivity
      linarith
    · rw [he, c]
      have : (0 : ℝ) ≤ 2 ^ (-(q + 1)) * |x| := by positivity
      linarith

/-- Rounding to nearest, the arc tangent correctly rounded. -/
def nearestOps : FloatOps :=
  { f32 := nearest 23 (-149), f64 := nearest 52 (-1074), at2 := fun y x => nearest 23 (-149) (Complex.arg ⟨x, y⟩) }

theorem nearest_ieee : Ieee nearestOps where
  f32_zero := by simp [nearestOps, nearest]
  f32 x _ := by
    have := nearest_err 23 (-149) x
    norm_num at this ⊢
    exact this
  f64 x _ := by
    have := nearest_err 52 (-1074) x
    have e : (2 : ℝ) ^ (-1074 - 1 : Int) = 1 / 2 ^ 1075 := by
      rw [show (-1074 - 1 : Int) = -((1075 : Nat) : Int) by norm_num, zpow_neg, zpow_natCast, one_div]
    have e2 : (2 : ℝ) ^ (-(52 + 1) : Int) = 1 / 2 ^ 53 := by
      rw [show (-(52 + 1) : Int) = -((53 : Nat) : Int) by norm_num, zpow_neg, zpow_natCast, one_div]
    rw [e, e2] at this
    exact this
  at2 y x hy hx := by
    obtain ⟨z, hz⟩ : ∃ z : ℂ, z = ⟨x, y⟩ := ⟨_, rfl⟩
    show |nearest 23 (-149) (Complex.arg ⟨x, y⟩) - Complex.arg ⟨x, y⟩| ≤ _
    rw [← hz]
    have g := nearest_err 23 (-149) (Complex.arg z)
    have lo : Complex.arg z = 0 ∨ 1 / 2 ^ 111 ≤ |Complex.arg z| := by
      rcases hy with rfl | ⟨y0, y1⟩
      · rcases le_or_gt 0 x with h0 | h0
        · left
          rw [hz]
          exact Complex.arg_ofReal_of_nonneg h0
        · right
          have : Complex.arg z = Real.pi := by
            rw [hz]
            exact Complex.arg_ofReal_of_neg h0
          rw [this, abs_of_pos Real.pi_pos]
          linarith [Real.pi_gt_three, (by norm_num : (1 : ℝ) / 2 ^ 111 ≤ 1)]
      · right
        have hyne : y ≠ 0 := by
          rintro rfl
          rw [abs_zero] at y0
          norm_num at y0
        have hzne : z ≠ 0 := by
          rw [hz]
          intro hc
          exact hyne (congrArg Complex.im hc)
        have h1 : |Real.sin (Complex.arg z)| ≤ |Complex.arg z| := Real.abs_sin_le_abs
        refine le_trans ?_ h1
        rw [Complex.sin_arg, abs_div, abs_of_nonneg (norm_nonneg z), le_div_iff₀ (norm_pos_iff.2 hzne)]
        have e1 : z.im = y := by rw [hz]
        have hx1 : |x| ≤ 2 ^ 55 := by
          rcases hx with rfl | ⟨-, g⟩
          · rw [abs_zero]
            positivity
          · exact g
        have h2 : ‖z‖ ≤ |x| + |y| := by
          have := Complex.norm_le_abs_re_add_abs_im z
          rw [hz] at this ⊢
          exact this
        rw [e1]
        calc 1 / 2 ^ 111 * ‖z‖ ≤ 1 / 2 ^ 111 * (2 ^ 55 + 2 ^ 55) := mul_le_mul_of_nonneg_left (by linarith) (by positivity)
          _ = 1 / 2 ^ 55 := by norm_num
          _ ≤ |y| := y0
    rcases lo with h0 | h0
    · rw [h0]
      simp [nearest]
    · refine le_trans g ?_
      have e1 : (2 : ℝ) ^ (-(23 + 1) : Int) = 1 / 2 ^ 24 := by norm_num
      have e2 : (2 : ℝ) ^ (-149 - 1 : Int) = 1 / 2 ^ 39 * (1 / 2 ^ 111) := by norm_num
      rw [e1, e2]
      have h2 : (1 : ℝ) / 2 ^ 39 * (1 / 2 ^ 111) ≤ 1 / 2 ^ 39 * |Complex.arg z| := mul_le_mul_of_nonneg_left h0 (by positivity)
      have h3 : (1 : ℝ) / 2 ^ 24 + 1 / 2 ^ 39 ≤ 1 / 2 ^ 22 := by norm_num
      nlinarith [abs_nonneg (Complex.arg z)]

end
end Verif
