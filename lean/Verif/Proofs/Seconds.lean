import Verif.Model.Seconds
import Verif.Spec.Seconds
import Verif.Proofs.Floats
import Verif.Proofs.Time
/-! Lemmas about times as seconds. -/
namespace Verif
open Spec

theorem toF64_err (x : ℚ) : |toF64 x - x| ≤ |x| / 2 ^ 53 := flRound_err 53 x
theorem toF64_mono {x y : ℚ} (h : x ≤ y) : toF64 x ≤ toF64 y := flRound_mono 53 (by norm_num) h
theorem toF64_nonneg {x : ℚ} (h : 0 ≤ x) : 0 ≤ toF64 x := flRound_nonneg 53 h
theorem toF64_nat (n : ℕ) (h : n ≤ 2 ^ 53) : toF64 (n : ℚ) = n := by
  have := flRound_int 53 (by norm_num) (n : ℤ) (by rw [abs_of_nonneg (by positivity)]; exact_mod_cast h)
  simpa [toF64] using this

theorem toF64_isDouble (x : ℚ) : IsDouble (toF64 x) := flRound_form 53 (by norm_num) x

theorem toF64_of_isDouble {x : ℚ} (h : IsDouble x) : toF64 x = x := by
  obtain ⟨m, k, hm, rfl⟩ := h
  exact flRound_exact 53 (by norm_num) m k hm

/-- The part below a second. -/
def fracF (n : ℕ) : ℚ := toF64 ((n : ℚ) * toF64 (1 / 1000000000))

theorem fracF_nonneg (n : ℕ) : 0 ≤ fracF n :=
  toF64_nonneg (mul_nonneg (by positivity) (toF64_nonneg (by norm_num)))

theorem fracF_mono {n k : ℕ} (h : n ≤ k) : fracF n ≤ fracF k := by
  unfold fracF
  apply toF64_mono
  have : (0 : ℚ) ≤ toF64 (1 / 1000000000) := toF64_nonneg (by norm_num)
  have : (n : ℚ) ≤ k := by exact_mod_cast h
  gcongr

theorem fracF_max : fracF 999999999 ≤ 1 := by
  unfold fracF; decide +kernel

theorem fracF_le_one {n : ℕ} (h : n < 1000000000) : fracF n ≤ 1 :=
  le_trans (fracF_mono (by omega)) fracF_max

theorem fracF_err (n : ℕ) : |fracF n - (n : ℚ) / 1000000000| ≤ (n : ℚ) / 1000000000 * (3 / 2 ^ 53) := by
  unfold fracF
  have h1 := toF64_err (1 / 1000000000)
  have h2 := toF64_err ((n : ℚ) * toF64 (1 / 1000000000))
  set c := toF64 (1 / 1000000000)
  have hc : 0 ≤ c := toF64_nonneg (by norm_num)
  have hn : (0 : ℚ) ≤ n := by positivity
  rw [abs_of_nonneg (by norm_num : (0 : ℚ) ≤ 1 / 1000000000)] at h1
  rw [abs_of_nonneg (by positivity : 0 ≤ (n : ℚ) * c)] at h2
  rw [abs_le] at h1 h2 ⊢
  have hcu : c ≤ 1 / 1000000000 * (1 + 1 / 2 ^ 53) := by
    have := h1.2; norm_num at this ⊢; linarith
  have hcl : 1 / 1000000000 * (1 - 1 / 2 ^ 53) ≤ c := by
    have := h1.1; norm_num at this ⊢; linarith
  have hnu : (n : ℚ) * c ≤ n * (1 / 1000000000 * (1 + 1 / 2 ^ 53)) := by gcongr
  have hnl : (n : ℚ) * (1 / 1000000000 * (1 - 1 / 2 ^ 53)) ≤ n * c := by gcongr
  constructor
  · have := h2.1
    norm_num at *
    nlinarith
  · have := h2.2
    norm_num at *
    nlinarith

theorem toSecF_eq (t : SimpleTime) :
    t.toSecF = toF64 ((t.secs.toNat : ℚ) + fracF t.nsecs.toNat) := rfl

theorem exactSec_eq (t : SimpleTime) :
    exactSec t = (t.secs.toNat : ℚ) + (t.nsecs.toNat : ℚ) / 1000000000 := by
  unfold exactSec ns; push_cast; ring

theorem toSecF_nonneg (t : SimpleTime) : 0 ≤ t.toSecF := by
  rw [toSecF_eq]
  exact toF64_nonneg (add_nonneg (by positivity) (fracF_nonneg _))

theorem toSecF_bound (t : SimpleTime) :
    |t.toSecF - exactSec t| ≤
      ((t.secs.toNat : ℚ) + 5 * ((t.nsecs.toNat : ℚ) / 1000000000)) / 2 ^ 53 := by
  rw [toSecF_eq, exactSec_eq]
  have h1 := fracF_err t.nsecs.toNat
  have h2 := toF64_err ((t.secs.toNat : ℚ) + fracF t.nsecs.toNat)
  have h0 := fracF_nonneg t.nsecs.toNat
  set f := fracF t.nsecs.toNat
  have hs : (0 : ℚ) ≤ (t.secs.toNat : ℚ) := by positivity
  have hn : (0 : ℚ) ≤ (t.nsecs.toNat : ℚ) / 1000000000 := by positivity
  set S : ℚ := (t.secs.toNat : ℚ)
  set F : ℚ := (t.nsecs.toNat : ℚ) / 1000000000
  rw [abs_of_nonneg (add_nonneg hs h0)] at h2
  rw [abs_le] at h1 h2 ⊢
  norm_num at *
  constructor <;> linarith [h1.1, h1.2, h2.1, h2.2]

theorem toSecF_mono {a b : SimpleTime} (ha : Normalised a) (hb : Normalised b) (h : ns a ≤ ns b) :
    a.toSecF ≤ b.toSecF := by
  unfold Normalised at ha hb
  unfold ns at h
  rw [toSecF_eq, toSecF_eq]
  apply toF64_mono
  rcases Nat.lt_trichotomy a.secs.toNat b.secs.toNat with hl | he | hg
  · have h1 := fracF_le_one ha
    have h2 := fracF_nonneg b.nsecs.toNat
    have : (a.secs.toNat : ℚ) + 1 ≤ b.secs.toNat := by exact_mod_cast hl
    linarith
  · have : fracF a.nsecs.toNat ≤ fracF b.nsecs.toNat := fracF_mono (by omega)
    rw [he]; linarith
  · omega

/-- The part of a `double` below one is a `double`, and is not within `2 ^ -53` of one. -/
theorem fract_double {x : ℚ} (h : IsDouble x) (h0 : 0 ≤ x) :
    IsDouble (x - ⌊x⌋) ∧ x - ⌊x⌋ ≤ 1 - 1 / 2 ^ 53 := by
  obtain ⟨m, k, hm, rfl⟩ := h
  have hk : (0 : ℚ) < 2 ^ k := by positivity
  have hm0 : 0 ≤ m := by
    by_contra hc
    push Not at hc
    have : (m : ℚ) < 0 := by exact_mod_cast hc
    nlinarith
  rcases le_or_gt 0 k with hk0 | hk0
  · obtain ⟨j, rfl⟩ := Int.eq_ofNat_of_zero_le hk0
    have e : (m : ℚ) * 2 ^ (j : ℤ) = ((m * 2 ^ j : ℤ) : ℚ) := by push_cast; rw [zpow_natCast]
    rw [e, Int.floor_intCast, sub_self]
    exact ⟨⟨0, 0, by norm_num, by norm_num⟩, by norm_num⟩
  · obtain ⟨j, hj⟩ : ∃ j : ℕ, k = -(j : ℤ) := ⟨k.natAbs, by omega⟩
    have hj1 : 1 ≤ j := by omega
    have hpj : (0 : ℚ) < 2 ^ j := by positivity
    have e : (m : ℚ) * 2 ^ k = (m : ℚ) / ((2 ^ j : ℕ) : ℚ) := by
      rw [hj, zpow_neg, zpow_natCast]; push_cast; rw [div_eq_mul_inv]
    have hfl : ⌊(m : ℚ) / ((2 ^ j : ℕ) : ℚ)⌋ = m / ((2 ^ j : ℕ) : ℤ) :=
      Rat.floor_intCast_div_natCast m (2 ^ j)
    have hr : (m : ℚ) * 2 ^ k - ⌊(m : ℚ) * 2 ^ k⌋ = ((m % (2 ^ j : ℕ) : ℤ) : ℚ) * 2 ^ k := by
      have hdm := Int.emod_add_mul_ediv m ((2 ^ j : ℕ) : ℤ)
      have hdm' : ((m % (2 ^ j : ℕ) : ℤ) : ℚ) + (2 : ℚ) ^ j * ((m / ((2 ^ j : ℕ) : ℤ) : ℤ) : ℚ) = m := by
        exact_mod_cast hdm
      rw [e, hfl, hj, zpow_neg, zpow_natCast]
      push_cast at hdm' ⊢
      rw [← hdm']
      field_simp
      push_cast
      ring_nf
    have hr0 : 0 ≤ m % ((2 ^ j : ℕ) : ℤ) := Int.emod_nonneg _ (by positivity)
    have hr1 : m % ((2 ^ j : ℕ) : ℤ) < ((2 ^ j : ℕ) : ℤ) := Int.emod_lt_of_pos _ (by positivity)
    have hr2 : m % ((2 ^ j : ℕ) : ℤ) ≤ m := by
      have hq : 0 ≤ m / ((2 ^ j : ℕ) : ℤ) := Int.ediv_nonneg hm0 (by positivity)
      have := Int.emod_add_mul_ediv m ((2 ^ j : ℕ) : ℤ)
      have hp : (0 : ℤ) ≤ ((2 ^ j : ℕ) : ℤ) := by positivity
      nlinarith
    have hr3 : m % ((2 ^ j : ℕ) : ℤ) ≤ 2 ^ 53 := by
      rw [abs_of_nonneg hm0] at hm; omega
    rw [hr]
    refine ⟨⟨_, k, by rw [abs_of_nonneg hr0]; exact hr3, rfl⟩, ?_⟩
    rw [hj, zpow_neg, zpow_natCast, ← div_eq_mul_inv, div_le_iff₀ hpj]
    rcases le_or_gt j 53 with hj5 | hj5
    · have : ((m % ((2 ^ j : ℕ) : ℤ) : ℤ) : ℚ) + 1 ≤ 2 ^ j := by exact_mod_cast hr1
      have h53 : (2 : ℚ) ^ j ≤ 2 ^ 53 := pow_le_pow_right₀ (by norm_num) hj5
      have : (1 / 2 ^ 53 : ℚ) * 2 ^ j ≤ 1 := by
        rw [div_mul_eq_mul_div, one_mul, div_le_one (by positivity)]; exact h53
      linarith
    · have : ((m % ((2 ^ j : ℕ) : ℤ) : ℤ) : ℚ) ≤ 2 ^ 53 := by exact_mod_cast hr3
      have h54 : (2 : ℚ) ^ 54 ≤ 2 ^ j := pow_le_pow_right₀ (by norm_num) hj5
      norm_num at *
      linarith

theorem nanos_max : toF64 ((1 - 1 / 2 ^ 53) * 1000000000) < 1000000000 := by decide +kernel

theorem fromSecF_spec {x : ℚ} (h : IsDouble x) (h0 : 0 ≤ x) (h1 : x < 4294967296) :
    ∃ t, SimpleTime.fromSecF x = .ok t ∧ Normalised t ∧
      x * 1000000000 - 1 - 1 / 1000000 < (ns t : ℚ) ∧ (ns t : ℚ) ≤ x * 1000000000 + 1 / 1000000 := by
  obtain ⟨hd, hmax⟩ := fract_double h h0
  have hfl : (0 : ℤ) ≤ ⌊x⌋ := Int.floor_nonneg.mpr h0
  have hcast : ((⌊x⌋.toNat : ℕ) : ℚ) = ⌊x⌋ := by
    have : ((⌊x⌋.toNat : ℕ) : ℤ) = ⌊x⌋ := Int.toNat_of_nonneg hfl
    exact_mod_cast this
  have hfr0 : 0 ≤ x - ⌊x⌋ := by linarith [Int.floor_le x]
  have hflt : ⌊x⌋.toNat < 4294967296 := by
    have : (⌊x⌋ : ℚ) < 4294967296 := lt_of_le_of_lt (Int.floor_le x) h1
    have : ⌊x⌋ < 4294967296 := by exact_mod_cast this
    omega
  set n := toF64 ((x - ⌊x⌋) * 1000000000) with hn
  have hn0 : 0 ≤ n := toF64_nonneg (by positivity)
  have hnlt : n < 1000000000 := lt_of_le_of_lt (toF64_mono (by gcongr)) nanos_max
  have hne := toF64_err ((x - ⌊x⌋) * 1000000000)
  rw [abs_of_nonneg (by positivity : 0 ≤ (x - ⌊x⌋) * 1000000000), ← hn] at hne
  have hfn0 : 0 ≤ ⌊n⌋ := Int.floor_nonneg.mpr hn0
  have hfnl : ⌊n⌋.toNat < 1000000000 := by
    have : (⌊n⌋ : ℚ) < 1000000000 := lt_of_le_of_lt (Int.floor_le n) hnlt
    have : ⌊n⌋ < 1000000000 := by exact_mod_cast this
    omega
  have hfnc : ((⌊n⌋.toNat : ℕ) : ℚ) = ⌊n⌋ := by
    have : ((⌊n⌋.toNat : ℕ) : ℤ) = ⌊n⌋ := Int.toNat_of_nonneg hfn0
    exact_mod_cast this
  have e1 : (UInt32.ofNat ⌊x⌋.toNat).toNat = ⌊x⌋.toNat := by
    rw [UInt32.toNat_ofNat']; exact Nat.mod_eq_of_lt hflt
  have e2 : (UInt32.ofNat ⌊n⌋.toNat).toNat = ⌊n⌋.toNat := by
    rw [UInt32.toNat_ofNat']; exact Nat.mod_eq_of_lt (lt_trans hfnl (by norm_num))
  refine ⟨⟨UInt32.ofNat ⌊x⌋.toNat, UInt32.ofNat ⌊n⌋.toNat⟩, ?_, ?_, ?_⟩
  · unfold SimpleTime.fromSecF
    rw [if_neg (not_lt.mpr h0), if_neg (not_le.mpr h1)]
    dsimp only
    rw [hcast, toF64_of_isDouble hd, ← hn, if_neg (by linarith)]
  · unfold Normalised; dsimp only; rw [e2]; exact hfnl
  · unfold ns; dsimp only; rw [e1, e2]; push_cast
    rw [hcast, hfnc]
    have a := Int.floor_le n
    have b := Int.lt_floor_add_one n
    have c : (x - ⌊x⌋) * 1000000000 / 2 ^ 53 ≤ 1 / 1000000 := by
      norm_num at *
      linarith
    rw [abs_le] at hne
    constructor <;> linarith [hne.1, hne.2]

end Verif
