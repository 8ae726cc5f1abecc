import Verif.Model.Floats
import Mathlib.Tactic.Linarith
import Mathlib.Tactic.Ring
import Mathlib.Tactic.NormNum
import Mathlib.Tactic.FieldSimp
import Mathlib.Tactic.Push
import Mathlib.Algebra.Order.Field.Power
/-! Properties of rounding to a number of bits. -/
namespace Verif

theorem rintEven_le (y : ℚ) : (rintEven y : ℚ) ≤ y + 1 / 2 := by
  have h1 := Int.floor_le y
  unfold rintEven
  split
  · linarith
  · split
    · push_cast; linarith
    · split
      · linarith
      · push_cast; linarith

theorem le_rintEven (y : ℚ) : y - 1 / 2 ≤ (rintEven y : ℚ) := by
  have h1 := Int.floor_le y
  have h2 := Int.lt_floor_add_one y
  unfold rintEven
  split
  · linarith
  · split
    · push_cast; linarith
    · split
      · linarith
      · push_cast; linarith

theorem rintEven_int (n : ℤ) : rintEven (n : ℚ) = n := by
  unfold rintEven
  rw [Int.floor_intCast, if_pos (by norm_num)]

theorem rintEven_mono {x y : ℚ} (h : x ≤ y) : rintEven x ≤ rintEven y := by
  have h1 := rintEven_le x
  have h2 := le_rintEven y
  by_contra hc
  push Not at hc
  have hc' : (rintEven y : ℚ) + 1 ≤ rintEven x := by exact_mod_cast hc
  -- the only case: `y = x` and both are half way
  have hxy : x = y := by linarith
  rw [hxy] at hc
  exact lt_irrefl _ hc

theorem rintEven_neg (y : ℚ) : rintEven (-y) = - rintEven y := by
  have hf := Int.floor_le y
  have hl := Int.lt_floor_add_one y
  by_cases h0 : y = ⌊y⌋
  · rw [h0, ← Int.cast_neg, rintEven_int, rintEven_int]
  · have hlt : (⌊y⌋ : ℚ) < y := lt_of_le_of_ne hf (Ne.symm h0)
    have hneg : ⌊-y⌋ = -⌊y⌋ - 1 := by
      rw [Int.floor_eq_iff]; push_cast; constructor <;> linarith
    unfold rintEven
    rw [hneg]
    push_cast
    by_cases hlow : y - ⌊y⌋ < 1 / 2
    · rw [if_pos hlow, if_neg (by linarith), if_pos (by linarith)]; ring
    · by_cases hup : 1 / 2 < y - ⌊y⌋
      · rw [if_neg hlow, if_pos hup, if_pos (by linarith)]; ring
      · rw [if_neg hlow, if_neg hup, if_neg (by linarith), if_neg (by linarith)]
        by_cases hev : ⌊y⌋ % 2 = 0
        · rw [if_pos hev, if_neg (by omega)]; ring
        · rw [if_neg hev, if_pos (by omega)]; ring

theorem flUlp_pos (p : ℕ) (x : ℚ) : 0 < flUlp p x := by unfold flUlp; positivity

theorem flUlp_neg (p : ℕ) (x : ℚ) : flUlp p (-x) = flUlp p x := by unfold flUlp; rw [abs_neg]

theorem flRound_zero (p : ℕ) : flRound p 0 = 0 := by unfold flRound; rw [if_pos rfl]

theorem flRound_of_ne (p : ℕ) {x : ℚ} (h : x ≠ 0) :
    flRound p x = rintEven (x / flUlp p x) * flUlp p x := by unfold flRound; rw [if_neg h]

theorem flRound_neg (p : ℕ) (x : ℚ) : flRound p (-x) = - flRound p x := by
  by_cases h : x = 0
  · rw [h, neg_zero, flRound_zero, neg_zero]
  · rw [flRound_of_ne p h, flRound_of_ne p (neg_ne_zero.mpr h), flUlp_neg, neg_div, rintEven_neg]
    push_cast; ring

/-- Half a step. -/
theorem flRound_err_ulp (p : ℕ) (x : ℚ) : |flRound p x - x| ≤ flUlp p x / 2 := by
  have hu := flUlp_pos p x
  by_cases h : x = 0
  · rw [h, flRound_zero, sub_zero, abs_zero]; rw [h] at hu; linarith
  · rw [flRound_of_ne p h]
    have h1 := rintEven_le (x / flUlp p x)
    have h2 := le_rintEven (x / flUlp p x)
    have e : x = x / flUlp p x * flUlp p x := by field_simp
    rw [abs_le]
    constructor
    · nlinarith
    · nlinarith

theorem log_le_abs {x : ℚ} (h : x ≠ 0) : (2 : ℚ) ^ Int.log 2 |x| ≤ |x| := by
  have := Int.zpow_log_le_self (R := ℚ) (b := 2) (by norm_num) (abs_pos.mpr h)
  exact_mod_cast this

theorem abs_lt_log (x : ℚ) : |x| < (2 : ℚ) ^ (Int.log 2 |x| + 1) := by
  have := Int.lt_zpow_succ_log_self (R := ℚ) (b := 2) (by norm_num) |x|
  exact_mod_cast this

theorem flUlp_eq (p : ℕ) (x : ℚ) : flUlp p x = 2 ^ Int.log 2 |x| * (2 / 2 ^ p) := by
  unfold flUlp
  rw [show Int.log 2 |x| - p + 1 = Int.log 2 |x| + 1 - p from by ring,
    zpow_sub₀ (by norm_num), zpow_add₀ (by norm_num), zpow_one, zpow_natCast]
  ring

/-- The relative error is at most `2 ^ -p`. -/
theorem flRound_err (p : ℕ) (x : ℚ) : |flRound p x - x| ≤ |x| / 2 ^ p := by
  by_cases h : x = 0
  · rw [h, flRound_zero]; simp
  · refine le_trans (flRound_err_ulp p x) ?_
    rw [flUlp_eq]
    have := log_le_abs h
    have hp : (0 : ℚ) < 2 ^ p := by positivity
    rw [show (2 : ℚ) ^ Int.log 2 |x| * (2 / 2 ^ p) / 2 = 2 ^ Int.log 2 |x| / 2 ^ p from by ring]
    gcongr

/-- Rounding when the exponent is known. -/
theorem flRound_of_exp (p : ℕ) {x : ℚ} (e : ℤ) (h1 : (2 : ℚ) ^ e ≤ |x|) (h2 : |x| < 2 ^ (e + 1)) :
    flRound p x = rintEven (x / 2 ^ (e - p + 1)) * 2 ^ (e - p + 1) := by
  have hx : x ≠ 0 := by
    intro h; rw [h, abs_zero] at h1
    have : (0 : ℚ) < 2 ^ e := by positivity
    linarith
  have hlog : Int.log 2 |x| = e := by
    have a := log_le_abs hx
    have b := abs_lt_log x
    have c1 : (2 : ℚ) ^ Int.log 2 |x| < 2 ^ (e + 1) := lt_of_le_of_lt a h2
    have c2 : (2 : ℚ) ^ e < 2 ^ (Int.log 2 |x| + 1) := lt_of_le_of_lt h1 b
    have d1 := (zpow_lt_zpow_iff_right₀ (by norm_num : (1 : ℚ) < 2)).mp c1
    have d2 := (zpow_lt_zpow_iff_right₀ (by norm_num : (1 : ℚ) < 2)).mp c2
    omega
  rw [flRound_of_ne p hx, flUlp, hlog]

/-- A number with at most `p` bits is kept. -/
theorem flRound_exact (p : ℕ) (hp : 1 ≤ p) (m k : ℤ) (hm : |m| ≤ 2 ^ p) :
    flRound p ((m : ℚ) * 2 ^ k) = m * 2 ^ k := by
  have hk : (0 : ℚ) < 2 ^ k := by positivity
  by_cases h0 : (m : ℚ) * 2 ^ k = 0
  · rw [h0, flRound_zero]
  · have key : ∀ q : ℕ, ∃ n : ℤ, (2 : ℚ) ^ k * m / 2 ^ (k - (q : ℤ)) = n := by
      intro q
      refine ⟨m * 2 ^ q, ?_⟩
      rw [zpow_sub₀ (by norm_num), zpow_natCast]
      push_cast
      field_simp
    set x : ℚ := (m : ℚ) * 2 ^ k with hx
    have hax : |x| ≤ 2 ^ (p + k : ℤ) := by
      rw [hx, abs_mul, abs_of_pos hk, zpow_add₀ (by norm_num), zpow_natCast]
      have : (|(m : ℚ)|) ≤ 2 ^ p := by exact_mod_cast hm
      gcongr
    have hlog := log_le_abs h0
    have hle : Int.log 2 |x| ≤ p + k :=
      (zpow_le_zpow_iff_right₀ (by norm_num : (1 : ℚ) < 2)).mp (le_trans hlog hax)
    have hint : ∃ n : ℤ, x / flUlp p x = n := by
      rcases lt_or_eq_of_le hle with hlt | heq
      · obtain ⟨q, hq⟩ : ∃ q : ℕ, Int.log 2 |x| - p + 1 = k - q := by
          refine ⟨(k - (Int.log 2 |x| - p + 1)).toNat, ?_⟩
          omega
        obtain ⟨n, hn⟩ := key q
        refine ⟨n, ?_⟩
        rw [flUlp, hq, ← hn, hx]; ring
      · have hxe : |x| = 2 ^ (p + k : ℤ) := le_antisymm hax (heq ▸ hlog)
        have hu : flUlp p x = 2 ^ (k + 1) := by rw [flUlp, heq]; congr 1; ring
        rcases p with _ | p
        · exact absurd hp (by norm_num)
        · rcases abs_choice x with hc | hc
          · refine ⟨2 ^ p, ?_⟩
            rw [hu, ← hc, hxe]; push_cast
            rw [← zpow_natCast, ← zpow_sub₀ (by norm_num)]; congr 1; push_cast; ring
          · refine ⟨-2 ^ p, ?_⟩
            have : x = - 2 ^ ((p + 1 : ℕ) + k : ℤ) := by linarith [hxe]
            rw [hu, this, neg_div]; push_cast
            rw [← zpow_natCast, ← zpow_sub₀ (by norm_num)]; congr 2; push_cast; ring
    obtain ⟨n, hn⟩ := hint
    rw [flRound_of_ne p h0, hn, rintEven_int, ← hn]
    have := flUlp_pos p x
    field_simp

theorem flRound_two_pow (p : ℕ) (hp : 1 ≤ p) (k : ℤ) : flRound p ((2 : ℚ) ^ k) = 2 ^ k := by
  have := flRound_exact p hp 1 k (by rw [abs_one]; exact one_le_pow₀ (by norm_num))
  simpa using this

theorem flRound_int (p : ℕ) (hp : 1 ≤ p) (m : ℤ) (hm : |m| ≤ 2 ^ p) :
    flRound p (m : ℚ) = m := by
  have := flRound_exact p hp m 0 hm
  simpa using this

theorem flRound_nonneg (p : ℕ) {x : ℚ} (h : 0 ≤ x) : 0 ≤ flRound p x := by
  by_cases h0 : x = 0
  · rw [h0, flRound_zero]
  · rw [flRound_of_ne p h0]
    have hu := flUlp_pos p x
    have : 0 ≤ rintEven (x / flUlp p x) := by
      have := rintEven_mono (x := ((0 : ℤ) : ℚ)) (y := x / flUlp p x) (by push_cast; positivity)
      rwa [rintEven_int] at this
    have : (0 : ℚ) ≤ rintEven (x / flUlp p x) := by exact_mod_cast this
    positivity

theorem flRound_mono_pos (p : ℕ) (hp : 1 ≤ p) {x y : ℚ} (hx : 0 < x) (h : x ≤ y) :
    flRound p x ≤ flRound p y := by
  have hy : 0 < y := lt_of_lt_of_le hx h
  have hx0 := ne_of_gt hx
  have hy0 := ne_of_gt hy
  have hax := abs_of_pos hx
  have hay := abs_of_pos hy
  have hlog : Int.log 2 |x| ≤ Int.log 2 |y| := by
    rw [hax, hay]; exact Int.log_mono_right hx h
  have ux := flUlp_pos p x
  rcases eq_or_lt_of_le hlog with he | hlt
  · have hu : flUlp p x = flUlp p y := by unfold flUlp; rw [he]
    rw [flRound_of_ne p hx0, flRound_of_ne p hy0, ← hu]
    have : rintEven (x / flUlp p x) ≤ rintEven (y / flUlp p x) := rintEven_mono (by gcongr)
    have : (rintEven (x / flUlp p x) : ℚ) ≤ rintEven (y / flUlp p x) := by exact_mod_cast this
    gcongr
  · -- a power of two separates them
    obtain ⟨p, rfl⟩ : ∃ q, p = q + 1 := ⟨p - 1, by omega⟩
    have e1 : flRound (p + 1) x ≤ 2 ^ (Int.log 2 |x| + 1) := by
      have hd : (2 : ℚ) ^ (Int.log 2 |x| + 1) / flUlp (p + 1) x = ((2 ^ (p + 1) : ℤ) : ℚ) := by
        unfold flUlp
        rw [← zpow_sub₀ (by norm_num)]
        push_cast
        rw [← zpow_natCast]; congr 1; push_cast; ring
      have : rintEven (x / flUlp (p + 1) x) ≤ 2 ^ (p + 1) := by
        have := rintEven_mono (x := x / flUlp (p + 1) x) (y := ((2 ^ (p + 1) : ℤ) : ℚ)) (by
          rw [← hd]; have := abs_lt_log x; rw [hax] at this ⊢; gcongr)
        rwa [rintEven_int] at this
      have : (rintEven (x / flUlp (p + 1) x) : ℚ) ≤ ((2 ^ (p + 1) : ℤ) : ℚ) := by exact_mod_cast this
      rw [flRound_of_ne _ hx0]
      calc _ ≤ ((2 ^ (p + 1) : ℤ) : ℚ) * flUlp (p + 1) x := by gcongr
        _ = _ := by rw [← hd]; field_simp
    have e2 : (2 : ℚ) ^ Int.log 2 |y| ≤ flRound (p + 1) y := by
      have uy := flUlp_pos (p + 1) y
      have hd : (2 : ℚ) ^ Int.log 2 |y| / flUlp (p + 1) y = ((2 ^ p : ℤ) : ℚ) := by
        unfold flUlp
        rw [← zpow_sub₀ (by norm_num)]
        push_cast
        rw [← zpow_natCast]; congr 1; push_cast; ring
      have : 2 ^ p ≤ rintEven (y / flUlp (p + 1) y) := by
        have := rintEven_mono (x := ((2 ^ p : ℤ) : ℚ)) (y := y / flUlp (p + 1) y) (by
          rw [← hd]; have := log_le_abs hy0; rw [hay] at this ⊢; gcongr)
        rwa [rintEven_int] at this
      have : ((2 ^ p : ℤ) : ℚ) ≤ (rintEven (y / flUlp (p + 1) y) : ℚ) := by exact_mod_cast this
      rw [flRound_of_ne _ hy0]
      calc (2 : ℚ) ^ Int.log 2 |y| = ((2 ^ p : ℤ) : ℚ) * flUlp (p + 1) y := by
            rw [← hd]; field_simp
        _ ≤ _ := by gcongr
    have e3 : (2 : ℚ) ^ (Int.log 2 |x| + 1) ≤ 2 ^ Int.log 2 |y| :=
      zpow_le_zpow_right₀ (by norm_num) (by omega)
    linarith

/-- Rounding keeps the order. -/
theorem flRound_mono (p : ℕ) (hp : 1 ≤ p) {x y : ℚ} (h : x ≤ y) : flRound p x ≤ flRound p y := by
  rcases lt_trichotomy 0 x with hx | hx | hx
  · exact flRound_mono_pos p hp hx h
  · rw [← hx, flRound_zero]; exact flRound_nonneg p (hx ▸ h)
  · rcases le_or_gt 0 y with hy | hy
    · have := flRound_nonneg p (x := -x) (by linarith)
      rw [flRound_neg] at this
      linarith [flRound_nonneg p hy]
    · have := flRound_mono_pos p hp (x := -y) (y := -x) (by linarith) (by linarith)
      rw [flRound_neg, flRound_neg] at this
      linarith

/-- What is held afterwards has at most `p` bits. -/
theorem flRound_form (p : ℕ) (hp : 1 ≤ p) (x : ℚ) :
    ∃ m k : ℤ, |m| ≤ 2 ^ p ∧ flRound p x = m * 2 ^ k := by
  by_cases h : x = 0
  · exact ⟨0, 0, by simp, by rw [h, flRound_zero]; simp⟩
  · refine ⟨rintEven (x / flUlp p x), Int.log 2 |x| - p + 1, ?_, by rw [flRound_of_ne p h]; rfl⟩
    have hu := flUlp_pos p x
    have hd : (2 : ℚ) ^ (Int.log 2 |x| + 1) / flUlp p x = ((2 ^ p : ℤ) : ℚ) := by
      unfold flUlp
      rw [← zpow_sub₀ (by norm_num)]
      push_cast
      rw [← zpow_natCast]; congr 1; ring
    have hb := abs_lt_log x
    rw [abs_lt] at hb
    rw [abs_le]
    constructor
    · have := rintEven_mono (x := ((-2 ^ p : ℤ) : ℚ)) (y := x / flUlp p x) (by
        rw [Int.cast_neg, ← hd, ← neg_div]; gcongr; linarith [hb.1])
      rwa [rintEven_int] at this
    · have := rintEven_mono (x := x / flUlp p x) (y := ((2 ^ p : ℤ) : ℚ)) (by
        rw [← hd]; gcongr; exact hb.2.le)
      rwa [rintEven_int] at this

theorem flRound_idem (p : ℕ) (hp : 1 ≤ p) (x : ℚ) : flRound p (flRound p x) = flRound p x := by
  obtain ⟨m, k, hm, h⟩ := flRound_form p hp x
  rw [h, flRound_exact p hp m k hm]

end Verif
