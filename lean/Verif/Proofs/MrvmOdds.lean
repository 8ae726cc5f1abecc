import Verif.Spec.MrvmOdds
import Verif.Props.Mrvm
import Mathlib.Analysis.Complex.ExponentialBounds
namespace Verif
open Spec

theorem clampReal_eq (v lo hi : ℝ) (h : lo ≤ hi) : clampReal v lo hi = max lo (min v hi) := by
  unfold clampReal
  by_cases h1 : v > hi
  · rw [if_pos h1, min_eq_right (le_of_lt h1), max_eq_right h]
  · rw [if_neg h1, min_eq_left (not_lt.1 h1)]
    by_cases h2 : v < lo
    · rw [if_pos h2, max_eq_left (le_of_lt h2)]
    · rw [if_neg h2, max_eq_right (not_lt.1 h2)]

theorem logistic_mono_lip {a b : ℝ} (h : a ≤ b) : 0 ≤ logistic b - logistic a ∧ logistic b - logistic a ≤ b - a := by
  unfold logistic
  have ha := Real.exp_pos a
  have hb := Real.exp_pos b
  have hm := Real.exp_le_exp.mpr h
  have e : (1 - 1 / (1 + Real.exp b)) - (1 - 1 / (1 + Real.exp a)) =
      (Real.exp b - Real.exp a) / ((1 + Real.exp a) * (1 + Real.exp b)) := by
    field_simp; ring
  rw [e]
  refine ⟨div_nonneg (by linarith) (by positivity), ?_⟩
  rw [div_le_iff₀ (by positivity)]
  have h1 : Real.exp b - Real.exp a ≤ Real.exp b * (b - a) := by
    have h2 := Real.add_one_le_exp (a - b)
    have h3 : Real.exp a = Real.exp b * Real.exp (a - b) := by rw [← Real.exp_add]; ring_nf
    rw [h3]
    nlinarith
  refine le_trans h1 ?_
  have h4 : 0 ≤ (b - a) := by linarith
  nlinarith [mul_nonneg h4 ha.le, mul_nonneg (mul_nonneg h4 ha.le) hb.le]

theorem logistic_lip (a b : ℝ) : |logistic a - logistic b| ≤ |a - b| := by
  rcases le_total a b with h | h
  · have := logistic_mono_lip h
    rw [abs_sub_comm, abs_of_nonneg this.1, abs_sub_comm, abs_of_nonneg (by linarith)]
    exact this.2
  · have := logistic_mono_lip h
    rw [abs_of_nonneg this.1, abs_of_nonneg (by linarith)]
    exact this.2

theorem exp_big : (231 / 25 : ℝ) ≤ Real.exp (12 / 5) := by
  have h1 := Real.exp_one_gt_d9
  have h2 := Real.add_one_le_exp (2 / 5 : ℝ)
  have e : Real.exp (12 / 5) = Real.exp 1 * Real.exp 1 * Real.exp (2 / 5) := by
    rw [← Real.exp_add, ← Real.exp_add]; norm_num
  have h3 : (2.7 : ℝ) * 2.7 ≤ Real.exp 1 * Real.exp 1 := by
    apply mul_le_mul <;> linarith
  rw [e]
  calc (231 / 25 : ℝ) ≤ 2.7 * 2.7 * (2 / 5 + 1) := by norm_num
    _ ≤ Real.exp 1 * Real.exp 1 * Real.exp (2 / 5) := by
        apply mul_le_mul h3 h2 (by norm_num) (by positivity)

theorem logOdds_bound {p : ℝ} (h1 : 25 / 256 ≤ p) (h2 : p ≤ 231 / 256) : |logOdds p| ≤ 12 / 5 := by
  have hp : 0 < p := by linarith
  have hq : 0 < 1 - p := by linarith
  unfold logOdds
  rw [abs_le]
  have pos : 0 < p / (1 - p) := div_pos hp hq
  constructor
  · rw [Real.le_log_iff_exp_le pos, Real.exp_neg, inv_le_comm₀ (Real.exp_pos _) pos, inv_div]
    refine le_trans ?_ exp_big
    rw [div_le_iff₀ hp]; linarith
  · rw [Real.log_le_iff_le_exp pos]
    refine le_trans ?_ exp_big
    rw [div_le_iff₀ hq]; linarith

/-- The tolerance of the theorems. -/
def tol : ℚ := 1 / 2 ^ 19

theorem tol_val : ((tol : ℚ) : ℝ) = 1 / 2 ^ 19 := by unfold tol; norm_num

/-- The value before clamping is within four tolerances of the exact one. -/
theorem back_near {I : OddsImpl} {hit miss : ℚ} (ha : Accurate I hit miss (1 / 2 ^ 19)) (b : Bool)
    (hh : 1 / 10 ≤ hit ∧ hit ≤ 9 / 10) (hm : 1 / 10 ≤ miss ∧ miss ≤ 9 / 10) (n : ℕ) (h1 : 25 ≤ n) (h2 : n ≤ 230) :
    |I.back (I.add (I.table n) (if b then I.hit else I.miss)) -
      ((bayes ((n : ℚ) / 256) (if b then hit else miss) : ℚ) : ℝ)| ≤ 4 / 2 ^ 19 := by
  obtain ⟨q, t, hq, hq1, ht⟩ : ∃ (q : ℚ) (t : ℝ), q = (if b then hit else miss) ∧ (1 / 10 ≤ q ∧ q ≤ 9 / 10) ∧
      (t = (if b then I.hit else I.miss) ∧ |t - logOdds q| ≤ 1 / 2 ^ 19) := by
    cases b
    · exact ⟨miss, I.miss, rfl, hm, rfl, ha.miss⟩
    · exact ⟨hit, I.hit, rfl, hh, rfl, ha.hit⟩
  rw [← hq, ← ht.1]
  have n1 : (25 : ℝ) ≤ n := by exact_mod_cast h1
  have n2 : (n : ℝ) ≤ 230 := by exact_mod_cast h2
  have q1 : (1 / 10 : ℝ) ≤ q := by have := (Rat.cast_le (K := ℝ)).mpr hq1.1; push_cast at this; exact this
  have q2 : (q : ℝ) ≤ 9 / 10 := by have := (Rat.cast_le (K := ℝ)).mpr hq1.2; push_cast at this; exact this
  have bt := logOdds_bound (p := (n : ℝ) / 256) (by linarith) (by linarith)
  have bq := logOdds_bound (p := (q : ℝ)) (by linarith) (by linarith)
  have et := ha.table n h1 h2
  have key := bayes_eq_odds ((n : ℚ) / 256) q
    ⟨by have : (25 : ℚ) ≤ n := by exact_mod_cast h1
        linarith, by
        have : (n : ℚ) ≤ 230 := by exact_mod_cast h2
        linarith⟩ ⟨by linarith, by linarith⟩
  push_cast at key
  have key' : ((bayes ((n : ℚ) / 256) q : ℚ) : ℝ) = logistic (logOdds ((n : ℝ) / 256) + logOdds q) := key
  rw [key']
  have et' := abs_le.mp et
  have eq' := abs_le.mp ht.2
  have bt' := abs_le.mp bt
  have bq' := abs_le.mp bq
  have b1 : |I.table n| ≤ 5 / 2 := by rw [abs_le]; constructor <;> norm_num at * <;> linarith
  have b2 : |t| ≤ 5 / 2 := by rw [abs_le]; constructor <;> norm_num at * <;> linarith
  have hadd := ha.add _ _ b1 b2
  have hadd' := abs_le.mp hadd
  have b3 : |I.add (I.table n) t| ≤ 5 := by rw [abs_le]; constructor <;> norm_num at * <;> linarith
  have hback := abs_le.mp (ha.back _ b3)
  have hl := logistic_lip (I.add (I.table n) t) (logOdds ((n : ℝ) / 256) + logOdds q)
  have hd : |I.add (I.table n) t - (logOdds ((n : ℝ) / 256) + logOdds q)| ≤ 3 / 2 ^ 19 := by
    rw [abs_le]; constructor <;> norm_num at * <;> linarith
  have hl' := abs_le.mp (le_trans hl hd)
  rw [abs_le]; constructor <;> norm_num at * <;> linarith

theorem clamp_near {I : OddsImpl} {hit miss : ℝ} (ha : Accurate I hit miss (1 / 2 ^ 19)) {y : ℝ} {x : ℚ}
    (h : |y - (x : ℝ)| ≤ 4 / 2 ^ 19) :
    |clampReal y I.lo I.hi - ((clampRat x (1 / 10) (9 / 10) : ℚ) : ℝ)| ≤ 4 / 2 ^ 19 := by
  have hlo := abs_le.mp ha.lo
  have hhi := abs_le.mp ha.hi
  rw [clampReal_eq _ _ _ (by norm_num at *; linarith), clampRat_eq _ _ _ (by norm_num)]
  push_cast
  refine le_trans (abs_max_sub_max_le_max _ _ _ _) (max_le ?_ ?_)
  · refine le_trans ha.lo (by norm_num)
  · refine le_trans (abs_min_sub_min_le_max _ _ _ _) (max_le h ?_)
    exact le_trans ha.hi (by norm_num)

theorem floor_robust {x : ℚ} {y : ℝ} (m : ℚ) (h1 : (⌊x⌋ : ℚ) + m ≤ x) (h2 : x ≤ ⌊x⌋ + 1 - m)
    (h : |y - (x : ℝ)| < m) : ⌊y⌋ = ⌊x⌋ := by
  have h1' : ((⌊x⌋ : ℤ) : ℝ) + m ≤ x := by exact_mod_cast h1
  have h2' : (x : ℝ) ≤ (⌊x⌋ : ℤ) + 1 - m := by exact_mod_cast h2
  have := abs_lt.mp h
  rw [Int.floor_eq_iff]
  constructor <;> linarith

/-- No exact value is within 1/500 of an integer. -/
def wideMargin (q : ℚ) : Prop :=
  ∀ n : Fin 231, 25 ≤ n.val → let x := clampRat (bayes ((n.val : ℚ) / 256) q) (1 / 10) (9 / 10) * 256
    (⌊x⌋ : ℚ) + 1 / 500 ≤ x ∧ x ≤ ⌊x⌋ + 1 - 1 / 500

theorem update_exact {I : OddsImpl} {hit miss : ℚ} (ha : Accurate I hit miss (1 / 2 ^ 19)) (b : Bool)
    (hh : 1 / 10 ≤ hit ∧ hit ≤ 9 / 10) (hm : 1 / 10 ≤ miss ∧ miss ≤ 9 / 10)
    (hw : wideMargin (if b then hit else miss)) (n : ℕ) (h1 : 25 ≤ n) (h2 : n ≤ 230) :
    I.update b n = updateProb (if b then hit else miss) n := by
  have hc := clamp_near ha (back_near ha b hh hm n h1 h2)
  obtain ⟨m1, m2⟩ := hw ⟨n, by omega⟩ h1
  simp only [] at m1 m2
  unfold OddsImpl.update updateProb
  rw [floor_robust (x := clampRat (bayes ((n : ℚ) / 256) (if b then hit else miss)) (1 / 10) (9 / 10) * 256)
    (1 / 500) m1 m2]
  push_cast
  rw [← sub_mul, abs_mul, abs_of_pos (by norm_num : (0 : ℝ) < 256)]
  norm_num at hc ⊢
  linarith

/-! ### any admissible probabilities -/

theorem lo_floor {I : OddsImpl} {hit miss : ℝ} (ha : Accurate I hit miss (1 / 2 ^ 19)) :
    25 < I.lo * 256 ∧ I.lo * 256 < 26 ∧ 230 < I.hi * 256 ∧ I.hi * 256 < 231 := by
  have hlo := abs_le.mp ha.lo
  have hhi := abs_le.mp ha.hi
  norm_num at *
  refine ⟨?_, ?_, ?_, ?_⟩ <;> linarith

theorem update_range {I : OddsImpl} {hit miss : ℝ} (ha : Accurate I hit miss (1 / 2 ^ 19)) (b : Bool) (n : ℕ) :
    25 ≤ I.update b n ∧ I.update b n ≤ 230 := by
  obtain ⟨l1, l2, u1, u2⟩ := lo_floor ha
  unfold OddsImpl.update
  rw [clampReal_eq _ _ _ (by linarith)]
  generalize I.back _ = y
  have a1 : (25 : ℤ) ≤ ⌊max I.lo (min y I.hi) * 256⌋ := by
    rw [Int.le_floor]
    have := le_max_left I.lo (min y I.hi)
    push_cast; linarith
  have a2 : ⌊max I.lo (min y I.hi) * 256⌋ < (231 : ℤ) := by
    rw [Int.floor_lt]
    have : max I.lo (min y I.hi) ≤ I.hi := max_le (by linarith) (min_le_right _ _)
    push_cast; linarith
  omega

theorem bayes_gap_hit {p q : ℚ} (hp : 25 / 256 ≤ p ∧ p ≤ 230 / 256) (hq : 501 / 1000 ≤ q ∧ q ≤ 9 / 10) :
    p + 1 / 10000 ≤ bayes p q := by
  have hd := bayes_den (p := p) (q := q) ⟨by linarith, by linarith⟩ ⟨by linarith, by linarith⟩
  have hd1 : p * q + (1 - p) * (1 - q) ≤ 1 := by nlinarith
  unfold bayes
  rw [le_div_iff₀ hd]
  have h1 : (25 / 256 : ℚ) * (26 / 256) ≤ p * (1 - p) := by
    nlinarith [mul_nonneg (sub_nonneg.mpr hp.1) (sub_nonneg.mpr hp.2)]
  have h2 : (25 / 256 : ℚ) * (231 / 256) ≤ p * (1 - p) ∨ (26 / 256 : ℚ) * (230 / 256) ≤ p * (1 - p) := by
    rcases le_total p (1 / 2) with h | h
    · left; nlinarith
    · right; nlinarith
  have h3 : (8 / 100 : ℚ) ≤ p * (1 - p) := by rcases h2 with h | h <;> linarith
  nlinarith [mul_le_mul h3 (by linarith [hq.1] : (2 / 1000 : ℚ) ≤ 2 * q - 1) (by norm_num) (by nlinarith)]

theorem bayes_gap_miss {p q : ℚ} (hp : 25 / 256 ≤ p ∧ p ≤ 230 / 256) (hq : 1 / 10 ≤ q ∧ q ≤ 499 / 1000) :
    bayes p q ≤ p - 1 / 10000 := by
  have hd := bayes_den (p := p) (q := q) ⟨by linarith, by linarith⟩ ⟨by linarith, by linarith⟩
  have hd1 : p * q + (1 - p) * (1 - q) ≤ 1 := by nlinarith
  unfold bayes
  rw [div_le_iff₀ hd]
  have h2 : (25 / 256 : ℚ) * (231 / 256) ≤ p * (1 - p) ∨ (26 / 256 : ℚ) * (230 / 256) ≤ p * (1 - p) := by
    rcases le_total p (1 / 2) with h | h
    · left; nlinarith
    · right; nlinarith
  have h3 : (8 / 100 : ℚ) ≤ p * (1 - p) := by rcases h2 with h | h <;> linarith
  nlinarith [mul_le_mul h3 (by linarith [hq.2] : (2 / 1000 : ℚ) ≤ 1 - 2 * q) (by norm_num) (by nlinarith)]

theorem n_unit {n : ℕ} (h1 : 25 ≤ n) (h2 : n ≤ 230) : (25 / 256 : ℚ) ≤ n / 256 ∧ (n : ℚ) / 256 ≤ 230 / 256 := by
  have a : (25 : ℚ) ≤ n := by exact_mod_cast h1
  have b : (n : ℚ) ≤ 230 := by exact_mod_cast h2
  constructor <;> linarith

theorem update_hit_ge {I : OddsImpl} {hit miss : ℚ} (ha : Accurate I hit miss (1 / 2 ^ 19))
    (hh : 501 / 1000 ≤ hit ∧ hit ≤ 9 / 10) (hm : 1 / 10 ≤ miss ∧ miss ≤ 499 / 1000) (n : ℕ) (h1 : 25 ≤ n)
    (h2 : n ≤ 230) : n ≤ I.update true n := by
  have hb := abs_le.mp (back_near ha true ⟨by linarith, hh.2⟩ ⟨hm.1, by linarith⟩ n h1 h2)
  simp only [if_true] at hb
  obtain ⟨l1, l2, u1, u2⟩ := lo_floor ha
  have g := bayes_gap_hit (n_unit h1 h2) hh
  have g' : (n : ℝ) / 256 + 1 / 10000 ≤ ((bayes ((n : ℚ) / 256) hit : ℚ) : ℝ) := by
    have := (Rat.cast_le (K := ℝ)).mpr g
    push_cast at this
    exact this
  unfold OddsImpl.update
  simp only [if_true]
  rw [clampReal_eq _ _ _ (by linarith)]
  generalize I.back _ = y at *
  have n2 : (n : ℝ) ≤ 230 := by exact_mod_cast h2
  have : (n : ℤ) ≤ ⌊max I.lo (min y I.hi) * 256⌋ := by
    rw [Int.le_floor]
    have hy : (n : ℝ) / 256 ≤ y := by norm_num at *; linarith
    have : (n : ℝ) / 256 ≤ max I.lo (min y I.hi) := le_trans (le_min hy (by linarith)) (le_max_right _ _)
    push_cast; linarith
  omega

theorem update_miss_lt {I : OddsImpl} {hit miss : ℚ} (ha : Accurate I hit miss (1 / 2 ^ 19))
    (hh : 501 / 1000 ≤ hit ∧ hit ≤ 9 / 10) (hm : 1 / 10 ≤ miss ∧ miss ≤ 499 / 1000) (n : ℕ) (h1 : 25 ≤ n)
    (h2 : n ≤ 230) : I.update false n < n ∨ (n = 25 ∧ I.update false n = 25) := by
  have hb := abs_le.mp (back_near ha false ⟨by linarith, hh.2⟩ ⟨hm.1, by linarith⟩ n h1 h2)
  simp only [Bool.false_eq_true, if_false] at hb
  have hr := (update_range ha false n).1
  obtain ⟨l1, l2, u1, u2⟩ := lo_floor ha
  have g := bayes_gap_miss (n_unit h1 h2) hm
  have g' : ((bayes ((n : ℚ) / 256) miss : ℚ) : ℝ) ≤ (n : ℝ) / 256 - 1 / 10000 := by
    have := (Rat.cast_le (K := ℝ)).mpr g
    push_cast at this
    exact this
  have up : ∀ k : ℕ, 26 ≤ k → n ≤ k → I.update false n < k := by
    intro k hk hnk
    unfold OddsImpl.update
    simp only [Bool.false_eq_true, if_false]
    rw [clampReal_eq _ _ _ (by linarith)]
    generalize I.back _ = y at *
    have k1 : (26 : ℝ) ≤ k := by exact_mod_cast hk
    have k2 : (n : ℝ) ≤ k := by exact_mod_cast hnk
    have : ⌊max I.lo (min y I.hi) * 256⌋ < (k : ℤ) := by
      rw [Int.floor_lt]
      have hy : y < (n : ℝ) / 256 := by norm_num at *; linarith
      have : max I.lo (min y I.hi) < (k : ℝ) / 256 :=
        max_lt (by linarith) (lt_of_le_of_lt (min_le_left _ _) (by linarith))
      push_cast; linarith
    omega
  rcases Nat.lt_or_ge 25 n with h | h
  · exact Or.inl (up n h le_rfl)
  · right
    have : I.update false n < 26 := up 26 le_rfl (by omega)
    omega

end Verif
