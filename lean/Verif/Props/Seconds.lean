import Verif.Proofs.Seconds
import Verif.Props.Time
/-!
# C86: times are the same in seconds as in nanoseconds

`ToSec` gives the nearest second count a `double` can tell apart, it keeps the order, and durations
are told apart to the nanosecond for 48 days.  `FromSec` gives a normalised stamp less than two
nanoseconds from its argument.  The share of an interval used to interpolate between two readings is
in `[0, 1]` and right to fourteen digits, for all stamps.  What fails: stamps of today that differ by
a hundred nanoseconds have the same seconds, so a stamp does not survive the way to seconds and back.
-/
namespace Verif
open Spec

/-! ## Seconds of a stamp -/

/-- C86: the seconds are a `double` within half a step of the exact value; both an absolute and a
relative bound. -/
theorem C86_seconds (t : SimpleTime) (h : Normalised t) :
    IsDouble t.toSecF ∧
    |t.toSecF - exactSec t| ≤ (exactSec t + 4) / 2 ^ 53 ∧
    |t.toSecF - exactSec t| ≤ exactSec t * (5 / 2 ^ 53) := by
  have hb := toSecF_bound t
  refine ⟨toF64_isDouble _, le_trans hb ?_, le_trans hb ?_⟩
  · have hn : (t.nsecs.toNat : ℚ) / 1000000000 ≤ 1 := by
      rw [div_le_one (by norm_num)]
      have : (t.nsecs.toNat : ℚ) < 1000000000 := by exact_mod_cast h
      linarith
    rw [exactSec_eq]
    exact div_le_div_of_nonneg_right (by linarith) (by positivity)
  · rw [exactSec_eq]
    have hs : (0 : ℚ) ≤ (t.secs.toNat : ℚ) := by positivity
    norm_num
    linarith

/-- C86: a later stamp never has fewer seconds. -/
theorem C86_order (a b : SimpleTime) (ha : Normalised a) (hb : Normalised b) (h : ns a ≤ ns b) :
    a.toSecF ≤ b.toSecF := toSecF_mono ha hb h

/-- C86: below 2^22 seconds (48 days: durations, not dates) different stamps have different
seconds. -/
theorem C86_durations (a b : SimpleTime) (ha : Normalised a) (hb : Normalised b)
    (hs : b.secs.toNat < 2 ^ 22) (h : ns a < ns b) : a.toSecF < b.toSecF := by
  have h1 := (C86_seconds a ha).2.1
  have h2 := (C86_seconds b hb).2.1
  have hlt : exactSec a + 1 / 1000000000 ≤ exactSec b := by
    unfold exactSec
    have : (ns a : ℚ) + 1 ≤ ns b := by exact_mod_cast h
    linarith
  have hbb : exactSec b < 2 ^ 22 := by
    unfold exactSec
    rw [div_lt_iff₀ (by norm_num)]
    unfold Normalised at hb
    unfold ns
    have : b.secs.toNat * 1000000000 + b.nsecs.toNat < 2 ^ 22 * 1000000000 := by omega
    exact_mod_cast this
  rw [abs_le] at h1 h2
  norm_num at *
  linarith [h1.2, h2.1]

/-- C86: the full property fails for dates: two stamps of 2020 a hundred nanoseconds apart are the
same in seconds. -/
theorem C86_dates_fails :
    ∃ a b : SimpleTime, Normalised a ∧ Normalised b ∧ ns b = ns a + 100 ∧ a.toSecF = b.toSecF := by
  refine ⟨⟨1600000000, 0⟩, ⟨1600000000, 100⟩, ?_, ?_, ?_, ?_⟩
  · unfold Normalised; decide
  · unfold Normalised; decide
  · decide
  · decide +kernel

/-- C86: comparing two dates in seconds with a threshold of `d` seconds is right up to a
microsecond. -/
theorem C86_dates_partial (a b : SimpleTime) (ha : Normalised a) (hb : Normalised b) (d : ℚ) :
    (|toF64 (a.toSecF - b.toSecF)| ≤ d → |exactSec a - exactSec b| ≤ d + 1 / 1000000 + d / 2 ^ 52) ∧
    (|exactSec a - exactSec b| + 1 / 1000000 + |exactSec a - exactSec b| / 2 ^ 52 ≤ d →
      |toF64 (a.toSecF - b.toSecF)| ≤ d) := by
  have bound : ∀ t : SimpleTime, Normalised t → exactSec t < 2 ^ 32 := by
    intro t ht
    unfold exactSec
    rw [div_lt_iff₀ (by norm_num)]
    unfold Normalised at ht
    have := t.secs.toNat_lt
    unfold ns
    have : t.secs.toNat * 1000000000 + t.nsecs.toNat < 2 ^ 32 * 1000000000 := by omega
    exact_mod_cast this
  have h1 := (C86_seconds a ha).2.1
  have h2 := (C86_seconds b hb).2.1
  have b1 := bound a ha
  have b2 := bound b hb
  have h3 := toF64_err (a.toSecF - b.toSecF)
  set x := a.toSecF - b.toSecF with hx
  have e1 : |x - (exactSec a - exactSec b)| ≤ 96 / 100000000 := by
    rw [abs_le] at h1 h2 ⊢
    norm_num at *
    constructor <;> linarith [h1.1, h1.2, h2.1, h2.2]
  generalize exactSec a - exactSec b = y at *
  constructor
  · intro h
    have t1 : |x| ≤ |toF64 x| + |toF64 x - x| := by
      have := abs_sub_abs_le_abs_sub x (toF64 x)
      rw [abs_sub_comm x (toF64 x)] at this; linarith
    have t2 : |y| ≤ |x| + |x - y| := by
      have := abs_sub_abs_le_abs_sub y x
      rw [abs_sub_comm y x] at this; linarith
    norm_num at *
    linarith [abs_nonneg (toF64 x)]
  · intro h
    have t1 : |toF64 x| ≤ |x| + |toF64 x - x| := by
      have := abs_sub_abs_le_abs_sub (toF64 x) x
      linarith
    have t2 : |x| ≤ |y| + |x - y| := by
      have := abs_sub_abs_le_abs_sub x y
      linarith
    norm_num at *
    linarith [abs_nonneg y]

/-! ## Interpolation between two readings -/

/-- C86: at a time between two readings the share of the interval is in `[0, 1]`, so the check on it
never stops the program, and it is right to fourteen digits. -/
theorem C86_share (a b t : SimpleTime) (ha : Normalised a) (hb : Normalised b) (ht : Normalised t)
    (hab : ns a < ns b) (h1 : ns a ≤ ns t) (h2 : ns t ≤ ns b) :
    0 ≤ SimpleTime.shareF a b t ∧ SimpleTime.shareF a b t ≤ 1 ∧
    |SimpleTime.shareF a b t - ((ns t : ℚ) - ns a) / ((ns b : ℚ) - ns a)| ≤ 1 / 2 ^ 49 := by
  have nd : ∀ u : SimpleTime, Normalised (u.sub a) := fun u => normalised_fromNanoSec _
  have e1 : ns (t.sub a) = ns t - ns a := C02_sub t a ht
  have e2 : ns (b.sub a) = ns b - ns a := C02_sub b a hb
  have m := toSecF_mono (nd t) (nd b) (by rw [e1, e2]; omega)
  have r1 := (C86_seconds (t.sub a) (nd t)).2.2
  have r2 := (C86_seconds (b.sub a) (nd b)).2.2
  have x0 := toSecF_nonneg (t.sub a)
  have q1 : exactSec (t.sub a) = ((ns t : ℚ) - ns a) / 1000000000 := by
    unfold exactSec; rw [e1, Nat.cast_sub h1]
  have q2 : exactSec (b.sub a) = ((ns b : ℚ) - ns a) / 1000000000 := by
    unfold exactSec; rw [e2, Nat.cast_sub hab.le]
  have qr : ((ns t : ℚ) - ns a) / ((ns b : ℚ) - ns a) = exactSec (t.sub a) / exactSec (b.sub a) := by
    rw [q1, q2]; field_simp
  have hab' : (ns a : ℚ) < ns b := by exact_mod_cast hab
  have h1' : (ns a : ℚ) ≤ ns t := by exact_mod_cast h1
  have h2' : (ns t : ℚ) ≤ ns b := by exact_mod_cast h2
  have y0 : 0 < exactSec (b.sub a) := by rw [q2]; apply div_pos <;> linarith
  have xe0 : 0 ≤ exactSec (t.sub a) := by rw [q1]; apply div_nonneg <;> linarith
  have xy : exactSec (t.sub a) ≤ exactSec (b.sub a) := by
    rw [q1, q2]; gcongr
  rw [qr]
  unfold SimpleTime.shareF
  generalize (t.sub a).toSecF = x' at *
  generalize (b.sub a).toSecF = y' at *
  generalize exactSec (t.sub a) = x at *
  generalize exactSec (b.sub a) = y at *
  rw [abs_le] at r1 r2
  have y'0 : y / 2 ≤ y' := by norm_num at *; linarith [r2.1]
  have y'p : 0 < y' := by linarith
  have s0 : 0 ≤ x' / y' := by positivity
  have s1 : x' / y' ≤ 1 := by rw [div_le_one y'p]; exact m
  refine ⟨toF64_nonneg s0, ?_, ?_⟩
  · have := toF64_mono s1
    have one : toF64 1 = 1 := by simpa using toF64_nat 1 (by norm_num)
    rwa [one] at this
  · have f := toF64_err (x' / y')
    rw [abs_of_nonneg s0, abs_le] at f
    have hq : |x' / y' - x / y| ≤ 11 / 2 ^ 53 := by
      have ex : x' / y' - x / y = (x' * y - x * y') / (y' * y) := by field_simp
      rw [ex, abs_div, abs_of_pos (by positivity : 0 < y' * y), div_le_iff₀ (by positivity), abs_le]
      have p1 : x' * y ≤ (x * (1 + 5 / 2 ^ 53)) * y := by
        apply mul_le_mul_of_nonneg_right _ y0.le; linarith [r1.2]
      have p2 : (x * (1 - 5 / 2 ^ 53)) * y ≤ x' * y := by
        apply mul_le_mul_of_nonneg_right _ y0.le; linarith [r1.1]
      have p3 : x * y' ≤ x * (y * (1 + 5 / 2 ^ 53)) := by
        apply mul_le_mul_of_nonneg_left _ xe0; linarith [r2.2]
      have p4 : x * (y * (1 - 5 / 2 ^ 53)) ≤ x * y' := by
        apply mul_le_mul_of_nonneg_left _ xe0; linarith [r2.1]
      have p5 : y * (1 - 5 / 2 ^ 53) * y ≤ y' * y := by
        apply mul_le_mul_of_nonneg_right _ y0.le; linarith [r2.1]
      have p6 : x * y ≤ y * y := by gcongr
      norm_num at *
      constructor <;> nlinarith
    rw [abs_le] at hq ⊢
    norm_num at *
    constructor <;> linarith [hq.1, hq.2, f.1, f.2]

/-! ## Stamps from seconds -/

/-- C86: `FromSec` of a `double` that fits is a normalised stamp, at most a nanosecond (and a
rounding) below it; a negative number gives zero. -/
theorem C86_from (x : ℚ) (hd : IsDouble x) :
    (x < 0 → SimpleTime.fromSecF x = .ok ⟨0, 0⟩) ∧
    (0 ≤ x → x < 2 ^ 32 → ∃ t, SimpleTime.fromSecF x = .ok t ∧ Normalised t ∧
      x - (1 + 1 / 1000000) / 1000000000 < exactSec t ∧
      exactSec t ≤ x + 1 / 1000000 / 1000000000) := by
  constructor
  · intro h; unfold SimpleTime.fromSecF; rw [if_pos h]
  · intro h0 h1
    obtain ⟨t, ht, hn, hl, hu⟩ := fromSecF_spec hd h0 (by norm_num at h1; linarith)
    refine ⟨t, ht, hn, ?_, ?_⟩ <;> unfold exactSec
    · rw [lt_div_iff₀ (by norm_num)]; linarith
    · rw [div_le_iff₀ (by norm_num)]; linarith

/-- C86: the full property fails: 2.3 seconds are not 2300000000 nanoseconds. -/
theorem C86_decimal_fails :
    SimpleTime.fromSecF (toF64 (23 / 10)) = .ok ⟨2, 299999999⟩ := by decide +kernel

/-- The waiting times and the minimal duration used by the program are exact. -/
example : SimpleTime.fromSecF (toF64 (1 / 1000)) = .ok ⟨0, 1000000⟩ ∧
    SimpleTime.fromSecF (toF64 (5 / 1000)) = .ok ⟨0, 5000000⟩ ∧
    SimpleTime.fromSecF (toF64 (1 / 100)) = .ok ⟨0, 10000000⟩ ∧
    SimpleTime.fromSecF (toF64 (1 / 10)) = .ok ⟨0, 100000000⟩ ∧
    SimpleTime.fromSecF (toF64 (1 / 2)) = .ok ⟨0, 500000000⟩ := by decide +kernel

/-- C86: to seconds and back changes a stamp by less than half a microsecond. -/
theorem C86_round_trip_partial (t : SimpleTime) (h : Normalised t) (hs : t.secs.toNat + 1 < 2 ^ 32) :
    ∃ r, SimpleTime.fromSecF t.toSecF = .ok r ∧ Normalised r ∧
      ns t ≤ ns r + 478 ∧ ns r ≤ ns t + 478 := by
  have hb := (C86_seconds t h).2.1
  have hd := (C86_seconds t h).1
  have hlt : exactSec t < 2 ^ 32 - 1 := by
    unfold exactSec
    rw [div_lt_iff₀ (by norm_num)]
    unfold Normalised at h
    unfold ns
    have : t.secs.toNat * 1000000000 + t.nsecs.toNat < (2 ^ 32 - 1) * 1000000000 := by omega
    have : ((t.secs.toNat * 1000000000 + t.nsecs.toNat : ℕ) : ℚ) < (((2 ^ 32 - 1) * 1000000000 : ℕ) : ℚ) := by
      exact_mod_cast this
    norm_num at this ⊢
    exact this
  rw [abs_le] at hb
  have hlt' : t.toSecF < 4294967296 := by norm_num at *; linarith [hb.2]
  obtain ⟨r, hr, hn, hl, hu⟩ := fromSecF_spec hd (toSecF_nonneg t) hlt'
  have e : exactSec t * 1000000000 = ns t := by unfold exactSec; field_simp
  refine ⟨r, hr, hn, ?_, ?_⟩
  · have : (ns t : ℚ) ≤ ns r + 478 := by rw [← e]; norm_num at *; linarith [hb.1]
    exact_mod_cast this
  · have : (ns r : ℚ) ≤ ns t + 478 := by rw [← e]; norm_num at *; linarith [hb.2]
    exact_mod_cast this

/-- C86: the full property fails: a stamp of 2020 does not come back, and the last stamp has seconds
that do not fit, which is undefined behaviour. -/
theorem C86_round_trip_fails :
    (∃ t r : SimpleTime, Normalised t ∧ SimpleTime.fromSecF t.toSecF = .ok r ∧ ns r + 81 = ns t) ∧
    SimpleTime.fromSecF SimpleTime.timeMax.toSecF = .ub := by
  refine ⟨⟨⟨1600000000, 81⟩, ⟨1600000000, 0⟩, ?_, ?_, ?_⟩, ?_⟩
  · unfold Normalised; decide
  · decide +kernel
  · decide
  · decide +kernel

/-! Non-vacuity -/

/-- A duration of a tenth of a second: its seconds are the nearest `double`. -/
example : Normalised ⟨0, 100000000⟩ ∧ (SimpleTime.mk 0 100000000).toSecF = toF64 (1 / 10) := by
  constructor
  · unfold Normalised; decide
  · decide +kernel

/-- Readings at 0 and 100 ms, asked at 25 ms. -/
example : SimpleTime.shareF ⟨1600000000, 0⟩ ⟨1600000000, 100000000⟩ ⟨1600000000, 25000000⟩ = 1 / 4 := by
  decide +kernel

example : IsDouble (5 / 2) ∧ SimpleTime.fromSecF (5 / 2) = .ok ⟨2, 500000000⟩ :=
  ⟨⟨5, -1, by norm_num, by norm_num⟩, by decide +kernel⟩

end Verif
