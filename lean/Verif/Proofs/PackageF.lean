import Verif.Spec.PackageF
import Verif.Proofs.MapPackage
import Verif.Proofs.Seconds
import Verif.Proofs.PlaceFloat
import Mathlib.Tactic.Linarith
import Mathlib.Tactic.NormNum
import Mathlib.Tactic.Positivity
import Mathlib.Tactic.Ring
import Mathlib.Tactic.GCongr
/- Proofs about map packages with the number types of the code. -/
namespace Verif
open Spec

/-- Rounding in an absolute form. -/
theorem toF64_near {x B : ℚ} (h : |x| ≤ B) : x - B / 2 ^ 53 ≤ toF64 x ∧ toF64 x ≤ x + B / 2 ^ 53 := by
  have h1 := toF64_err x
  have h2 : |x| / 2 ^ 53 ≤ B / 2 ^ 53 := by gcongr
  have := abs_le.1 (le_trans h1 h2)
  constructor <;> linarith [this.1, this.2]

/-- The number of steps covers the range. -/
theorem pkgStepsF_spec {lo hi half A : ℚ} {n : ℕ} (hh : 0 < half) (hlh : lo ≤ hi) (hlo : |lo| ≤ A) (hhi : |hi| ≤ A)
    (hs : pkgStepsF lo hi half = .ok (some n)) :
    1 ≤ n ∧ (n = 1 ∨ (n : ℚ) * half ≤ 3 * A) ∧ hi - lo ≤ ((n : ℚ) + 1) * half + 2 * A / 2 ^ 53 := by
  have hA : 0 ≤ A := le_trans (abs_nonneg _) hlo
  have hd : |hi - lo| ≤ 2 * A := by
    have := abs_le.1 hlo; have := abs_le.1 hhi
    rw [abs_le]; constructor <;> linarith
  obtain ⟨d1, d2⟩ := toF64_near hd
  have d0 : 0 ≤ toF64 (hi - lo) := toF64_nonneg (by linarith)
  set D := toF64 (hi - lo) with hD
  have q0 : 0 ≤ D / half := div_nonneg d0 hh.le
  have t0 : 0 ≤ toF64 (D / half) := toF64_nonneg q0
  unfold pkgStepsF at hs
  rw [if_neg hh.ne'] at hs
  dsimp only at hs
  rw [← hD] at hs
  have htr : truncInt (toF64 (D / half)) = ⌊toF64 (D / half)⌋ := by unfold truncInt; rw [if_pos t0]
  rw [htr] at hs
  have hf0 : 0 ≤ ⌊toF64 (D / half)⌋ := Int.floor_nonneg.2 t0
  have hup : toF64 (D / half) < ⌊toF64 (D / half)⌋ + 1 := Int.lt_floor_add_one _
  have hlow : (⌊toF64 (D / half)⌋ : ℚ) ≤ toF64 (D / half) := Int.floor_le _
  split at hs
  · cases hs
  · rename_i hb
    set k := ⌊toF64 (D / half)⌋ with hk
    have hkb : k ≤ 2147483647 := by omega
    -- the quotient itself is below k + 1
    have hq : D / half < k + 1 := by
      by_contra hc
      have hc := not_lt.1 hc
      have := toF64_mono hc
      have hint : toF64 ((k : ℚ) + 1) = (k : ℚ) + 1 := by
        have := toF64_nat (k.toNat + 1) (by omega)
        have e : ((k.toNat + 1 : ℕ) : ℚ) = (k : ℚ) + 1 := by
          push_cast
          congr 1
          exact_mod_cast Int.toNat_of_nonneg hf0
        rw [← e]; exact this
      rw [hint] at this
      linarith
    have hq' : D < (k + 1) * half := by rwa [div_lt_iff₀ hh] at hq
    split at hs
    · omega
    · split at hs
      · rename_i h0
        cases hs
        refine ⟨le_refl _, Or.inl rfl, ?_⟩
        rw [h0] at hq'
        push_cast at hq' ⊢
        linarith
      · rename_i h0
        cases hs
        have e : ((k.toNat : ℕ) : ℚ) = (k : ℚ) := by exact_mod_cast Int.toNat_of_nonneg hf0
        refine ⟨by omega, Or.inr ?_, ?_⟩
        · rw [e]
          -- k ≤ fl(D/half) ≤ D/half (1 + 2^-53)
          have h1 := (abs_le.1 (toF64_err (D / half))).2
          rw [abs_of_nonneg q0] at h1
          have h2 : (k : ℚ) ≤ D / half * (1 + 1 / 2 ^ 53) := by
            have : D / half * (1 + 1 / 2 ^ 53) = D / half + D / half / 2 ^ 53 := by ring
            rw [this]; linarith
          have h3 : (k : ℚ) * half ≤ D * (1 + 1 / 2 ^ 53) := by
            have := mul_le_mul_of_nonneg_right h2 hh.le
            have e2 : D / half * (1 + 1 / 2 ^ 53) * half = D * (1 + 1 / 2 ^ 53) := by
              field_simp
            rwa [e2] at this
          have h4 : hi - lo ≤ 2 * A := (abs_le.1 hd).2
          have h5 : D ≤ 2 * A + 2 * A / 2 ^ 53 := by linarith
          have h6 : D * (1 + 1 / 2 ^ 53) ≤ (2 * A + 2 * A / 2 ^ 53) * (1 + 1 / 2 ^ 53) := by gcongr
          have h7 : (2 * A + 2 * A / 2 ^ 53) * (1 + 1 / 2 ^ 53) ≤ 3 * A := by
            have : (2 * A + 2 * A / 2 ^ 53) * (1 + 1 / 2 ^ 53) = A * (2 * (1 + 1 / 2 ^ 53) ^ 2) := by ring
            rw [this]
            have : (2 * (1 + 1 / 2 ^ 53) ^ 2 : ℚ) ≤ 3 := by norm_num
            nlinarith
          linarith
        · rw [e]
          linarith

/-- The centres are where they should be, up to the rounding. -/
theorem pkgCentreF_near {lo half A : ℚ} {x : ℕ} (hlo : |lo| ≤ A) (hh : 0 < half) (hhA : half ≤ A)
    (hx : ((x : ℚ) + 1) * half ≤ 3 * A) :
    |pkgCentreF lo half x - (lo + ((x : ℚ) + 1) * half)| ≤ 8 * A / 2 ^ 53 := by
  have hA : 0 ≤ A := le_trans (abs_nonneg _) hlo
  have p0 : 0 ≤ ((x : ℚ) + 1) * half := by positivity
  obtain ⟨a1, a2⟩ := toF64_near (x := ((x : ℚ) + 1) * half) (B := 3 * A) (by rw [abs_of_nonneg p0]; exact hx)
  set P := toF64 (((x : ℚ) + 1) * half) with hP
  have hl := abs_le.1 hlo
  have s1 : |lo + P| ≤ 5 * A := by
    have : 3 * A / 2 ^ 53 ≤ A := by
      rw [div_le_iff₀ (by positivity)]; nlinarith
    rw [abs_le]; constructor <;> linarith
  obtain ⟨b1, b2⟩ := toF64_near s1
  unfold pkgCentreF
  rw [← hP, abs_le]
  constructor <;> linarith

/-- The pieces cover the range but for its ends. -/
theorem pkgF_axis_cover {lo hi half A v : ℚ} {n : ℕ} (hh : 0 < half) (hhA : half ≤ A) (hlo : |lo| ≤ A)
    (hhi : |hi| ≤ A) (hfine : A / 2 ^ 48 ≤ half / 2) (hs : pkgStepsF lo hi half = .ok (some n))
    (h1 : lo + A / 2 ^ 48 ≤ v) (h2 : v ≤ hi - A / 2 ^ 48) :
    ∃ x, x < n ∧ pkgLowF lo hi half x ≤ v ∧ v ≤ pkgHighF lo hi half x ∧
      |v - pkgCentreF lo half x| ≤ half := by
  have hA : 0 < A := lt_of_lt_of_le hh hhA
  have hd0 : 0 < A / 2 ^ 48 := by positivity
  have hlh : lo ≤ hi := by linarith
  obtain ⟨n1, n2, n3⟩ := pkgStepsF_spec hh hlh hlo hhi hs
  have hn : (n : ℚ) * half ≤ 3 * A := by
    rcases n2 with rfl | n2
    · push_cast; linarith
    · exact n2
  -- a piece whose exact centre is near enough
  have key : ∃ x : ℕ, x < n ∧ |v - (lo + ((x : ℚ) + 1) * half)| ≤ half - 15 * A / 2 ^ 53 := by
    have eB : A / 2 ^ 48 = 32 * (A / 2 ^ 53) := by ring
    rw [eB] at hfine h1 h2 hd0
    have e15 : 15 * A / 2 ^ 53 = 15 * (A / 2 ^ 53) := by ring
    have e2 : 2 * A / 2 ^ 53 = 2 * (A / 2 ^ 53) := by ring
    rw [e2] at n3
    rw [e15]
    set u := A / 2 ^ 53 with hu
    have t0 : 0 ≤ (v - lo) / half := div_nonneg (by linarith) hh.le
    have tl := Int.floor_le ((v - lo) / half)
    have tu := Int.lt_floor_add_one ((v - lo) / half)
    have tf : 0 ≤ ⌊(v - lo) / half⌋ := Int.floor_nonneg.2 t0
    set m := ⌊(v - lo) / half⌋ with hm
    rw [le_div_iff₀ hh] at tl
    rw [div_lt_iff₀ hh] at tu
    obtain ⟨k, hk⟩ := Int.eq_ofNat_of_zero_le tf
    rw [hk] at tl tu
    push_cast at tl tu
    by_cases hk0 : k = 0
    · subst hk0
      refine ⟨0, by omega, ?_⟩
      push_cast at tl tu ⊢
      rw [abs_le]; constructor <;> linarith
    · by_cases hkn : n ≤ k
      · refine ⟨n - 1, by omega, ?_⟩
        have e : ((n - 1 : ℕ) : ℚ) + 1 = n := by
          rw [Nat.cast_sub n1]; push_cast; ring
        rw [e]
        have hkn' : (n : ℚ) ≤ k := by exact_mod_cast hkn
        have : (n : ℚ) * half ≤ k * half := by gcongr
        rw [abs_le]; constructor <;> linarith
      · -- the nearer of the two centres around
        by_cases hmid : v - lo - k * half ≤ half / 2
        · refine ⟨k - 1, by omega, ?_⟩
          have e : ((k - 1 : ℕ) : ℚ) + 1 = k := by
            rw [Nat.cast_sub (by omega)]; push_cast; ring
          rw [e, abs_le]; constructor <;> linarith
        · refine ⟨k, by omega, ?_⟩
          rw [abs_le]; constructor <;> linarith
  obtain ⟨x, hxn, hx⟩ := key
  refine ⟨x, hxn, ?_⟩
  have hxn' : (x : ℚ) + 1 ≤ n := by exact_mod_cast hxn
  have hxh : ((x : ℚ) + 1) * half ≤ 3 * A := le_trans (by gcongr) hn
  have hc := abs_le.1 (pkgCentreF_near hlo hh hhA hxh)
  have hx' := abs_le.1 hx
  have p0 : 0 ≤ ((x : ℚ) + 1) * half := by positivity
  have hl := abs_le.1 hlo
  set c := pkgCentreF lo half x with hcd
  have eu : (8 * A / 2 ^ 53 : ℚ) = 8 * (A / 2 ^ 53) := by ring
  have e15 : (15 * A / 2 ^ 53 : ℚ) = 15 * (A / 2 ^ 53) := by ring
  have hsm : 8 * A / 2 ^ 53 ≤ A / 2 := by
    rw [div_le_iff₀ (by positivity)]; nlinarith
  have b1 : |c - half| ≤ 7 * A := by rw [abs_le]; constructor <;> linarith
  have b2 : |c + half| ≤ 7 * A := by rw [abs_le]; constructor <;> linarith
  obtain ⟨l1, l2⟩ := toF64_near b1
  obtain ⟨r1, r2⟩ := toF64_near b2
  have e7 : (7 * A / 2 ^ 53 : ℚ) = 7 * (A / 2 ^ 53) := by ring
  rw [eu] at hc
  rw [e7] at l1 l2 r1 r2
  rw [e15] at hx'
  have hv1 : lo ≤ v := by linarith
  have hv2 : v ≤ hi := by linarith
  have u0 : 0 < A / 2 ^ 53 := by positivity
  refine ⟨?_, ?_, ?_⟩
  · exact (pkgClamp_spec hlh).2.2.1 v hv1 (by linarith [hc.1, hc.2, hx'.1, hx'.2])
  · exact (pkgClamp_spec hlh).2.2.2 v hv2 (by linarith [hc.1, hc.2, hx'.1, hx'.2])
  · rw [abs_le]
    constructor <;> linarith [hc.1, hc.2, hx'.1, hx'.2]

/-! ### Cutting and joining -/

/-- The relative error of a conversion through `double` to `float`. -/
theorem fl6432_err (x : ℚ) : |toF32 (toF64 x) - x| ≤ (1 / 2 ^ 24 + 1 / 2 ^ 52) * |x| := by
  have h1 := toF64_err x
  have h2 := toF32_err (toF64 x)
  unfold u32 at h2
  have h3 : |toF64 x| ≤ |x| + |x| / 2 ^ 53 := by
    have := abs_sub_abs_le_abs_sub (toF64 x) x
    linarith
  calc |toF32 (toF64 x) - x| ≤ |toF32 (toF64 x) - toF64 x| + |toF64 x - x| := abs_sub_le _ _ _
    _ ≤ 1 / 2 ^ 24 * (|x| + |x| / 2 ^ 53) + |x| / 2 ^ 53 := by
        have : 1 / 2 ^ 24 * |toF64 x| ≤ 1 / 2 ^ 24 * (|x| + |x| / 2 ^ 53) := by gcongr
        linarith
    _ = (1 / 2 ^ 24 * (1 + 1 / 2 ^ 53) + 1 / 2 ^ 53) * |x| := by ring
    _ ≤ (1 / 2 ^ 24 + 1 / 2 ^ 52) * |x| := by
        apply mul_le_mul_of_nonneg_right _ (abs_nonneg _)
        norm_num

/-- A point cut out and joined again. -/
theorem joinF_err (p c : ℚ) :
    |pkgJoinF (pkgCutF p c) c - p| ≤ (1001 / 1000 * |p - c| + 1001 / 1000 * |p|) / 2 ^ 24 := by
  unfold pkgJoinF pkgCutF
  have h1 := fl6432_err (p - c)
  set q := toF32 (toF64 (p - c)) with hq
  have h2 := fl6432_err (q + c)
  set r := toF32 (toF64 (q + c)) with hr
  have h3 : |q + c| ≤ |p| + (1 / 2 ^ 24 + 1 / 2 ^ 52) * |p - c| := by
    have e : q + c = p + (q - (p - c)) := by ring
    rw [e]
    exact le_trans (abs_add_le _ _) (by linarith)
  have h4 : |r - p| ≤ |r - (q + c)| + |q - (p - c)| := by
    have e : r - p = (r - (q + c)) + (q - (p - c)) := by ring
    rw [e]; exact abs_add_le _ _
  have h5 : (1 / 2 ^ 24 + 1 / 2 ^ 52 : ℚ) * |q + c| ≤
      (1 / 2 ^ 24 + 1 / 2 ^ 52) * (|p| + (1 / 2 ^ 24 + 1 / 2 ^ 52) * |p - c|) := by gcongr
  have h6 : (1 / 2 ^ 24 + 1 / 2 ^ 52) * (|p| + (1 / 2 ^ 24 + 1 / 2 ^ 52) * |p - c|) +
      (1 / 2 ^ 24 + 1 / 2 ^ 52) * |p - c| ≤ (1001 / 1000 * |p - c| + 1001 / 1000 * |p|) / 2 ^ 24 := by
    have a := abs_nonneg p
    have b := abs_nonneg (p - c)
    have k1 : (1 / 2 ^ 24 + 1 / 2 ^ 52 : ℚ) ≤ 1001 / 1000 / 2 ^ 24 := by norm_num
    have k2 : ((1 / 2 ^ 24 + 1 / 2 ^ 52) * (1 / 2 ^ 24 + 1 / 2 ^ 52) + (1 / 2 ^ 24 + 1 / 2 ^ 52) : ℚ) ≤
        1001 / 1000 / 2 ^ 24 := by norm_num
    have := mul_le_mul_of_nonneg_right k1 a
    have := mul_le_mul_of_nonneg_right k2 b
    linarith
  linarith

theorem rintEven_near {z : ℚ} {k : ℤ} (h : |z - k| < 1 / 2) : rintEven z = k := by
  have h1 := rintEven_le z
  have h2 := le_rintEven z
  have := abs_lt.1 h
  have a : (rintEven z : ℚ) < k + 1 := by linarith
  have b : (k : ℚ) - 1 < rintEven z := by linarith
  have a' : rintEven z < k + 1 := by exact_mod_cast a
  have b' : k - 1 < rintEven z := by exact_mod_cast b
  omega

/-- Rounding something very near a number that needs no rounding gives that number. -/
theorem flRound_recover (p : ℕ) (hp : 2 ≤ p) {x y : ℚ} (hy0 : y ≠ 0) (hy : flRound p y = y)
    (h : |x - y| < flUlp p y / 4) : flRound p x = y := by
  have hu := flUlp_pos p y
  -- y is a whole number of steps
  obtain ⟨m, hm⟩ : ∃ m : ℤ, y = m * flUlp p y := by
    rw [flRound_of_ne p hy0] at hy
    exact ⟨_, hy.symm⟩
  have hlog1 := log_le_abs hy0
  have hlog2 := abs_lt_log y
  set e := Int.log 2 |y| with he
  have hue : flUlp p y = (2 : ℚ) ^ (e - p + 1) := rfl
  have htop : (2 : ℚ) ^ (e + 1) = 2 ^ p * flUlp p y := by
    rw [hue, ← zpow_natCast, ← zpow_add₀ (by norm_num)]
    congr 1; ring
  have hbot : (2 : ℚ) ^ e = 2 ^ (p - 1 : ℤ) * flUlp p y := by
    rw [hue, ← zpow_add₀ (by norm_num)]
    congr 1; ring
  have hmabs : |y| = (|m| : ℤ) * flUlp p y := by
    conv_lhs => rw [hm]
    rw [abs_mul, abs_of_pos hu]; push_cast; rfl
  have hmlt : |m| < 2 ^ p := by
    rw [hmabs, htop] at hlog2
    have := lt_of_mul_lt_mul_right hlog2 hu.le
    exact_mod_cast this
  have hmle : |m| + 1 ≤ 2 ^ p := hmlt
  -- |x| is in the same binade or, below a power of two, in the one before
  have hx1 : |x| < (2 : ℚ) ^ (e + 1) := by
    have h1 := abs_sub_abs_le_abs_sub x y
    rw [htop]
    have h2 : ((|m| : ℤ) : ℚ) + 1 ≤ 2 ^ p := by exact_mod_cast hmle
    have h3 : (((|m| : ℤ) : ℚ) + 1) * flUlp p y ≤ 2 ^ p * flUlp p y := mul_le_mul_of_nonneg_right h2 hu.le
    rw [add_mul, ← hmabs, one_mul] at h3
    linarith
  have hx2 : (2 : ℚ) ^ (e - 1) ≤ |x| := by
    have h1 := abs_sub_abs_le_abs_sub y x
    rw [abs_sub_comm] at h1
    have h2 : flUlp p y ≤ (2 : ℚ) ^ e := by
      rw [hue]
      exact zpow_le_zpow_right₀ (by norm_num) (by omega)
    have h3 : (2 : ℚ) ^ (e - 1) = 2 ^ e / 2 := by
      rw [zpow_sub₀ (by norm_num), zpow_one]
    rw [h3]
    linarith
  have hx0 : x ≠ 0 := by
    rintro rfl
    rw [abs_zero] at hx2
    have : (0 : ℚ) < 2 ^ (e - 1) := by positivity
    linarith
  have hl1 : Int.log 2 |x| ≤ e := by
    have := log_le_abs hx0
    have h2 : (2 : ℚ) ^ Int.log 2 |x| < 2 ^ (e + 1) := lt_of_le_of_lt this hx1
    have := (zpow_lt_zpow_iff_right₀ (by norm_num : (1 : ℚ) < 2)).1 h2
    omega
  have hl2 : e - 1 ≤ Int.log 2 |x| := by
    have := abs_lt_log x
    have h2 : (2 : ℚ) ^ (e - 1) < 2 ^ (Int.log 2 |x| + 1) := lt_of_le_of_lt hx2 this
    have := (zpow_lt_zpow_iff_right₀ (by norm_num : (1 : ℚ) < 2)).1 h2
    omega
  have hxu : flUlp p x = flUlp p y ∨ flUlp p y = 2 * flUlp p x := by
    rcases eq_or_lt_of_le hl1 with h1 | h1
    · left; unfold flUlp; rw [h1]
    · right
      have h2 : Int.log 2 |x| = e - 1 := by omega
      unfold flUlp
      rw [h2, ← he, ← zpow_one_add₀ (by norm_num)]
      congr 1; ring
  have hux := flUlp_pos p x
  rw [flRound_of_ne p hx0]
  rcases hxu with h1 | h1
  · rw [rintEven_near (k := m), h1, ← hm]
    rw [h1]
    have e1 : x / flUlp p y - m = (x - y) / flUlp p y := by
      rw [eq_div_iff hu.ne', sub_mul, div_mul_cancel₀ _ hu.ne', ← hm]
    rw [e1, abs_div, abs_of_pos hu, div_lt_iff₀ hu]
    linarith
  · rw [rintEven_near (k := 2 * m)]
    · push_cast
      rw [hm, h1]; ring
    · have e1 : x / flUlp p x - ((2 * m : ℤ) : ℚ) = (x - y) / flUlp p x := by
        rw [eq_div_iff hux.ne', sub_mul, div_mul_cancel₀ _ hux.ne']
        push_cast
        rw [show (2 : ℚ) * m * flUlp p x = m * (2 * flUlp p x) by ring, ← h1, ← hm]
      rw [e1, abs_div, abs_of_pos hux, div_lt_iff₀ hux]
      linarith

/-- The step near a number. -/
theorem flUlp_gt (p : ℕ) (y : ℚ) : |y| / 2 ^ p < flUlp p y := by
  have h := abs_lt_log y
  rw [div_lt_iff₀ (by positivity)]
  have : flUlp p y * 2 ^ p = (2 : ℚ) ^ (Int.log 2 |y| + 1) := by
    unfold flUlp
    rw [← zpow_natCast, ← zpow_add₀ (by norm_num)]
    congr 1; ring
  rw [this]; exact h

/-- A `float` that is much farther from zero than from the centre comes back unchanged. -/
theorem joinF_exact {p c : ℚ} (hp : toF32 p = p) (hc : 5 * |p - c| ≤ |p|) : pkgJoinF (pkgCutF p c) c = p := by
  by_cases hp0 : p = 0
  · subst hp0
    rw [abs_zero] at hc
    have : |0 - c| = 0 := le_antisymm (by linarith) (abs_nonneg _)
    have hc0 : c = 0 := by
      have := abs_eq_zero.1 this; linarith
    subst hc0
    unfold pkgJoinF pkgCutF toF32 toF64
    simp [flRound_zero]
  · unfold pkgJoinF pkgCutF
    have h1 := fl6432_err (p - c)
    set q := toF32 (toF64 (p - c)) with hq
    have h2 := toF64_err (q + c)
    have hb : |q - (p - c)| ≤ (1 / 2 ^ 24 + 1 / 2 ^ 52) * (|p| / 5) := by
      refine le_trans h1 ?_
      have : |p - c| ≤ |p| / 5 := by linarith
      gcongr
    have h3 : |q + c| ≤ |p| + (1 / 2 ^ 24 + 1 / 2 ^ 52) * (|p| / 5) := by
      have e : q + c = p + (q - (p - c)) := by ring
      rw [e]
      exact le_trans (abs_add_le _ _) (by linarith)
    refine flRound_recover 24 (by norm_num) hp0 hp ?_
    have h4 : |toF64 (q + c) - p| ≤ |toF64 (q + c) - (q + c)| + |q - (p - c)| := by
      have e : toF64 (q + c) - p = (toF64 (q + c) - (q + c)) + (q - (p - c)) := by ring
      rw [e]; exact abs_add_le _ _
    have h5 := flUlp_gt 24 p
    have h6 : |q + c| / 2 ^ 53 ≤ (|p| + (1 / 2 ^ 24 + 1 / 2 ^ 52) * (|p| / 5)) / 2 ^ 53 := by gcongr
    have hpos : 0 < |p| := abs_pos.2 hp0
    have h7 : (|p| + (1 / 2 ^ 24 + 1 / 2 ^ 52) * (|p| / 5)) / 2 ^ 53 + (1 / 2 ^ 24 + 1 / 2 ^ 52) * (|p| / 5) ≤
        |p| / 2 ^ 24 / 4 := by
      have e : (|p| + (1 / 2 ^ 24 + 1 / 2 ^ 52) * (|p| / 5)) / 2 ^ 53 + (1 / 2 ^ 24 + 1 / 2 ^ 52) * (|p| / 5) =
        |p| * ((1 + (1 / 2 ^ 24 + 1 / 2 ^ 52) / 5) / 2 ^ 53 + (1 / 2 ^ 24 + 1 / 2 ^ 52) / 5) := by ring
      have e' : |p| / 2 ^ 24 / 4 = |p| * (1 / 2 ^ 24 / 4) := by ring
      rw [e, e']
      apply mul_le_mul_of_nonneg_left _ hpos.le
      norm_num
    linarith

/-! ### Whole packages -/

/-- What a written package looks like. -/
theorem savePackageF_ok {vm : List (Vec3 Rat × List (Vec3 Rat)) → List (Vec3 Rat)} {eo : Bool} {stack : Nat}
    {o : PkgOptions} {submaps : List PkgSubmap} {pkg : Package}
    (h : savePackageF vm eo stack o submaps = .ok (some pkg)) :
    ∃ nx ny lx hx ly hy hf, lx = toF64 (pkgMin (submaps.map fun s => s.pos.x) - o.border) ∧
      hx = toF64 (pkgMax (submaps.map fun s => s.pos.x) + o.border) ∧
      ly = toF64 (pkgMin (submaps.map fun s => s.pos.y) - o.border) ∧
      hy = toF64 (pkgMax (submaps.map fun s => s.pos.y) + o.border) ∧ hf = toF64 (o.width * (1 / 2)) ∧
      pkgStepsF lx hx hf = .ok (some nx) ∧ pkgStepsF ly hy hf = .ok (some ny) ∧ nx * ny ≤ stack ∧
      pkg.pieces = ((List.range nx).flatMap fun x => (List.range ny).map fun y =>
        pkgPieceF vm o submaps lx hx ly hy hf x y) ∧
      pkg.description = pkg.pieces.map (fun p => (p.cx, p.cy, p.file)) := by
  unfold savePackageF at h
  rw [Outcome.bind_eq_ok] at h
  obtain ⟨nx, h1, h⟩ := h
  rw [Outcome.bind_eq_ok] at h
  obtain ⟨ny, h2, h⟩ := h
  cases nx with
  | none => simp at h
  | some nx =>
    cases ny with
    | none => simp at h
    | some ny =>
      dsimp only at h
      split at h
      · cases h
      · rename_i hst
        rw [Outcome.bind_eq_ok] at h
        obtain ⟨_, _, h⟩ := h
        simp only [Outcome.pure_eq, Outcome.ok.injEq, Option.some.injEq] at h
        subst h
        exact ⟨nx, ny, _, _, _, _, _, rfl, rfl, rfl, rfl, rfl, h1, h2, not_lt.1 hst, rfl, rfl⟩

theorem mem_piecesF {vm : List (Vec3 Rat × List (Vec3 Rat)) → List (Vec3 Rat)}
    {o : PkgOptions} {submaps : List PkgSubmap} {a b c d e : Rat} {nx ny : Nat} {pc : PkgPiece} :
    pc ∈ ((List.range nx).flatMap fun x => (List.range ny).map fun y =>
        pkgPieceF vm o submaps a b c d e x y) ↔
      ∃ x y, x < nx ∧ y < ny ∧ pc = pkgPieceF vm o submaps a b c d e x y := by
  simp only [List.mem_flatMap, List.mem_range, List.mem_map]
  constructor
  · rintro ⟨x, hx, y, hy, rfl⟩; exact ⟨x, y, hx, hy, rfl⟩
  · rintro ⟨x, y, hx, hy, rfl⟩; exact ⟨x, hx, y, hy, rfl⟩

theorem piecesF_nodup {vm : List (Vec3 Rat × List (Vec3 Rat)) → List (Vec3 Rat)}
    {o : PkgOptions} {submaps : List PkgSubmap} {a b c d e : Rat} (nx ny : Nat) :
    (((List.range nx).flatMap fun x => (List.range ny).map fun y =>
        pkgPieceF vm o submaps a b c d e x y).map (·.file)).Nodup := by
  have := pieces_files_nodup (vm := vm) (o := o) (submaps := submaps) (a := a) (b := b) (c := c) (d := d) (e := e)
    nx ny
  rw [List.map_flatMap] at this ⊢
  simp only [List.map_map] at this ⊢
  exact this

theorem mem_joinPiecesF {pkg : Package} (hn : (pkg.pieces.map (·.file)).Nodup)
    (hd : pkg.description = pkg.pieces.map (fun p => (p.cx, p.cy, p.file))) (q : Vec3 Rat) :
    q ∈ joinPiecesF pkg ↔
      ∃ pc ∈ pkg.pieces, ∃ p ∈ pc.cloud, q = { x := pkgJoinF p.x pc.cx, y := pkgJoinF p.y pc.cy, z := p.z } := by
  simp only [joinPiecesF, hd, List.mem_flatMap, List.mem_map, Package.read]
  constructor
  · rintro ⟨e, ⟨pc, hpc, rfl⟩, hq⟩
    simp only at hq
    rw [find_reverse_nodup hn hpc] at hq
    simp only [Option.map_some, List.mem_map] at hq
    obtain ⟨p, hp, rfl⟩ := hq
    exact ⟨pc, hpc, p, hp, rfl⟩
  · rintro ⟨pc, hpc, p, hp, rfl⟩
    refine ⟨_, ⟨pc, hpc, rfl⟩, ?_⟩
    simp only
    rw [find_reverse_nodup hn hpc]
    simp only [Option.map_some, List.mem_map]
    exact ⟨p, hp, rfl⟩

theorem half_exact {w : ℚ} (h : IsDouble w) : toF64 (w * (1 / 2)) = w / 2 := by
  obtain ⟨m, k, hm, rfl⟩ := h
  have : IsDouble (m * 2 ^ k * (1 / 2) : ℚ) := ⟨m, k - 1, hm, by
    rw [zpow_sub₀ (by norm_num), zpow_one]; ring⟩
  rw [toF64_of_isDouble this]; ring

/-- One coordinate of a point well inside the area. -/
theorem pkgF_axis {l : List Rat} {b w A v : ℚ} {n : ℕ} {lo hi hf : ℚ} (hlo : lo = toF64 (pkgMin l - b))
    (hhi : hi = toF64 (pkgMax l + b)) (hhf : hf = toF64 (w * (1 / 2))) (hpos : ∀ u ∈ l, |u| + b ≤ A) (hb : 0 ≤ b)
    (hw : IsDouble w) (hw0 : 0 < w) (hwA : w ≤ A) (hfine : A ≤ 2 ^ 40 * w) (hmax : A ≤ 10 ^ 50)
    (hs : pkgStepsF lo hi hf = .ok (some n))
    (h1 : ∃ u ∈ l, u - (b - A / 2 ^ 46) ≤ v) (h2 : ∃ u ∈ l, v ≤ u + (b - A / 2 ^ 46)) :
    ∃ x, x < n ∧ pkgLowF lo hi hf x ≤ v ∧
      v ≤ pkgHighF lo hi hf x ∧
      |v - pkgCentreF lo hf x| ≤ w / 2 ∧
      (∀ s ∈ l, |v - s| ≤ b - A / 2 ^ 46 →
        toF64 (pkgLowF lo hi hf x - b) ≤ s ∧
        s ≤ toF64 (pkgHighF lo hi hf x + b)) := by
  have hA : 0 < A := lt_of_lt_of_le hw0 hwA
  rw [half_exact hw] at hhf
  subst hhf
  obtain ⟨u, hu, h1⟩ := h1
  obtain ⟨u', hu', h2⟩ := h2
  have hne : l ≠ [] := List.ne_nil_of_mem hu
  have hbd : ∀ v ∈ l, |v| ≤ A - b := fun v hv => by linarith [hpos v hv]
  obtain ⟨m1, m2⟩ := pkgMin_spec hne (fun v hv => by
    have := (abs_le.1 (hbd v hv)).2; linarith)
  obtain ⟨M1, M2⟩ := pkgMax_spec hne (fun v hv => by
    have := (abs_le.1 (hbd v hv)).1; linarith)
  have hbA : b ≤ A := by
    have := hpos u hu
    have := abs_nonneg u
    linarith
  have a1 := abs_le.1 (hbd _ m1)
  have a2 := abs_le.1 (hbd _ M1)
  obtain ⟨l1, l2⟩ := toF64_near (x := pkgMin l - b) (B := A) (by rw [abs_le]; constructor <;> linarith)
  obtain ⟨r1, r2⟩ := toF64_near (x := pkgMax l + b) (B := A) (by rw [abs_le]; constructor <;> linarith)
  rw [← hlo] at l1 l2
  rw [← hhi] at r1 r2
  have e46 : A / 2 ^ 46 = 128 * (A / 2 ^ 53) := by ring
  have hu53 : 0 < A / 2 ^ 53 := by positivity
  have hu53A : A / 2 ^ 53 ≤ A / 100 := by
    rw [div_le_div_iff₀ (by positivity) (by norm_num)]; nlinarith
  rw [e46] at h1 h2
  have c1 : |lo| ≤ 2 * A := by rw [abs_le]; constructor <;> linarith
  have c2 : |hi| ≤ 2 * A := by rw [abs_le]; constructor <;> linarith
  have c3 : (2 * A) / 2 ^ 48 ≤ w / 2 / 2 := by
    rw [div_le_iff₀ (by positivity)]
    have : (2 : ℚ) ^ 48 = 256 * 2 ^ 40 := by norm_num
    rw [this]
    nlinarith
  have hmu := m2 u hu
  have hMu := M2 u' hu'
  have e48 : (2 * A) / 2 ^ 48 = 64 * (A / 2 ^ 53) := by ring
  obtain ⟨x, hx, x1, x2, x3⟩ := pkgF_axis_cover (A := 2 * A) (v := v) (by linarith) (by linarith) c1 c2 c3 hs
    (by rw [e48]; linarith) (by rw [e48]; linarith)
  refine ⟨x, hx, x1, x2, x3, ?_⟩
  intro s hs' hd
  rw [e46] at hd
  have hd' := abs_le.1 hd
  have hlh : lo ≤ hi := by
    have := m2 _ M1
    rw [hlo, hhi]
    exact toF64_mono (by linarith)
  have k1 := pkgClamp_spec (v := toF64 (pkgCentreF lo (w / 2) x - w / 2)) hlh
  have k2 := pkgClamp_spec (v := toF64 (pkgCentreF lo (w / 2) x + w / 2)) hlh
  have d1 := abs_le.1 c1
  have d2 := abs_le.1 c2
  obtain ⟨p1, p2⟩ := toF64_near (x := pkgLowF lo hi (w / 2) x - b) (B := 4 * A) (by
    have q1 : lo ≤ pkgLowF lo hi (w / 2) x := k1.1
    have q2 : pkgLowF lo hi (w / 2) x ≤ hi := k1.2.1
    rw [abs_le]; constructor <;> linarith)
  obtain ⟨p3, p4⟩ := toF64_near (x := pkgHighF lo hi (w / 2) x + b) (B := 4 * A) (by
    have q1 : lo ≤ pkgHighF lo hi (w / 2) x := k2.1
    have q2 : pkgHighF lo hi (w / 2) x ≤ hi := k2.2.1
    rw [abs_le]; constructor <;> linarith)
  have e4 : 4 * A / 2 ^ 53 = 4 * (A / 2 ^ 53) := by ring
  rw [e4] at p2 p3
  constructor <;> linarith

/-- A point of a listed submap inside the rectangle is inserted. -/
theorem mem_pkgInsert {x0 x1 y0 y1 : ℚ} {s : PkgSubmap} {p : Vec3 Rat} (hp : p ∈ s.cloud)
    (hin : insideBox x0 x1 y0 y1 p = true) : ∃ e ∈ pkgInsert x0 x1 y0 y1 s, e.1 = s.pos ∧ p ∈ e.2 := by
  unfold pkgInsert
  split
  · exact ⟨_, List.mem_singleton.mpr rfl, rfl, hp⟩
  · have hf : p ∈ s.cloud.filter (insideBox x0 x1 y0 y1) := List.mem_filter.mpr ⟨hp, hin⟩
    dsimp only
    split
    · rename_i hempty
      rw [List.isEmpty_iff] at hempty
      rw [hempty] at hf; cases hf
    · exact ⟨_, List.mem_singleton.mpr rfl, rfl, hf⟩

/-- A point inside a piece that its voxel map keeps is in the joined map, cut and moved back. -/
theorem mem_join_of_vm {vm : List (Vec3 Rat × List (Vec3 Rat)) → List (Vec3 Rat)} {o : PkgOptions}
    {submaps : List PkgSubmap} {pkg : Package} {a b c d e : ℚ} {x y : ℕ}
    (hn : (pkg.pieces.map (·.file)).Nodup)
    (hd : pkg.description = pkg.pieces.map (fun p => (p.cx, p.cy, p.file)))
    (hpc : pkgPieceF vm o submaps a b c d e x y ∈ pkg.pieces) {p : Vec3 Rat}
    (hbox : insideBox (pkgLowF a b e x) (pkgHighF a b e x) (pkgLowF c d e y) (pkgHighF c d e y) p = true)
    (hv : p ∈ vm (pkgPieceF vm o submaps a b c d e x y).inserted) :
    ({ x := pkgJoinF (pkgCutF p.x (pkgCentreF a e x)) (pkgCentreF a e x)
       y := pkgJoinF (pkgCutF p.y (pkgCentreF c e y)) (pkgCentreF c e y), z := p.z } : Vec3 Rat) ∈ joinPiecesF pkg := by
  refine (mem_joinPiecesF hn hd _).2 ⟨_, hpc, ⟨pkgCutF p.x (pkgCentreF a e x), pkgCutF p.y (pkgCentreF c e y), p.z⟩,
    ?_, rfl⟩
  exact List.mem_map.2 ⟨p, List.mem_filter.2 ⟨hv, hbox⟩, rfl⟩

theorem joinF_err_in {p c w : ℚ} (h : |p - c| ≤ w / 2) :
    |pkgJoinF (pkgCutF p c) c - p| ≤ 1001 / 1000 * (w / 2 + |p|) / 2 ^ 24 := by
  refine le_trans (joinF_err _ _) ?_
  have e : 1001 / 1000 * (w / 2 + |p|) / 2 ^ 24 = (1001 / 1000 * (w / 2) + 1001 / 1000 * |p|) / 2 ^ 24 := by ring
  rw [e]
  exact div_le_div_of_nonneg_right (by linarith) (by positivity)

theorem piecesF_result {vm : List (Vec3 Rat × List (Vec3 Rat)) → List (Vec3 Rat)} {o : PkgOptions}
    {submaps : List PkgSubmap} {pkg : Package} {a b c d e : ℚ} {nx ny x y : ℕ} {s : PkgSubmap} {p : Vec3 Rat}
    (h3 : pkg.pieces = ((List.range nx).flatMap fun x => (List.range ny).map fun y =>
        pkgPieceF vm o submaps a b c d e x y))
    (hn : (pkg.pieces.map (·.file)).Nodup)
    (hd : pkg.description = pkg.pieces.map (fun p => (p.cx, p.cy, p.file)))
    (hs : s ∈ submaps) (hp : p ∈ s.cloud) (hx : x < nx) (hy : y < ny)
    (hx' : pkgLowF a b e x ≤ p.x ∧ p.x ≤ pkgHighF a b e x) (hy' : pkgLowF c d e y ≤ p.y ∧ p.y ≤ pkgHighF c d e y)
    (l1 : toF64 (pkgLowF a b e x - o.border) ≤ s.pos.x ∧ s.pos.x ≤ toF64 (pkgHighF a b e x + o.border))
    (l2 : toF64 (pkgLowF c d e y - o.border) ≤ s.pos.y ∧ s.pos.y ≤ toF64 (pkgHighF c d e y + o.border))
    (x3 : |p.x - pkgCentreF a e x| ≤ o.width / 2) (y3 : |p.y - pkgCentreF c e y| ≤ o.width / 2) :
    ∃ pc ∈ pkg.pieces, InPiece pc p ∧ (∃ e ∈ pc.inserted, e.1 = s.pos ∧ p ∈ e.2) ∧
      (p ∈ vm pc.inserted → ∃ q ∈ joinPiecesF pkg, q.z = p.z ∧
        |q.x - p.x| ≤ 1001 / 1000 * (o.width / 2 + |p.x|) / 2 ^ 24 ∧
        |q.y - p.y| ≤ 1001 / 1000 * (o.width / 2 + |p.y|) / 2 ^ 24) := by
  have hpc : pkgPieceF vm o submaps a b c d e x y ∈ pkg.pieces := by
    rw [h3]; exact mem_piecesF.2 ⟨x, y, hx, hy, rfl⟩
  have hbox := (insideBox_iff _ _ _ _ p).2 ⟨hx'.1, hx'.2, hy'.1, hy'.2⟩
  refine ⟨_, hpc, ⟨hx'.1, hx'.2, hy'.1, hy'.2⟩, ?_, ?_⟩
  · obtain ⟨e, he, he'⟩ := mem_pkgInsert hp hbox
    refine ⟨e, List.mem_flatMap.mpr ⟨s, List.mem_filter.mpr ⟨hs, ?_⟩, he⟩, he'⟩
    rw [insideBox_iff]
    exact ⟨l1.1, l1.2, l2.1, l2.2⟩
  · intro hv
    exact ⟨_, mem_join_of_vm hn hd hpc hbox hv, rfl, joinF_err_in x3, joinF_err_in y3⟩

end Verif
