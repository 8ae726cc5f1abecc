import Verif.Spec.InterpF
import Verif.Props.Seconds
import Verif.Proofs.Odom
import Verif.Proofs.AverageF
import Verif.Proofs.Tools
namespace Verif
open Spec

/-! ### seconds against the literals -/

theorem overMicro (s : SimpleTime) (h : Normalised s) : s.toSecF > toF64 (1 / 1000000) ↔ 1000 ≤ ns s := by
  constructor
  · intro hg
    by_contra hn
    have m := toSecF_mono h (b := ⟨0, 999⟩) (by unfold Normalised; decide)
      (by have : ns (⟨0, 999⟩ : SimpleTime) = 999 := by decide
          omega)
    have w : (⟨0, 999⟩ : SimpleTime).toSecF ≤ toF64 (1 / 1000000) := by decide +kernel
    exact absurd (lt_of_lt_of_le hg (le_trans m w)) (lt_irrefl _)
  · intro hn
    have m := toSecF_mono (a := ⟨0, 1000⟩) (by unfold Normalised; decide) h
      (by have : ns (⟨0, 1000⟩ : SimpleTime) = 1000 := by decide
          omega)
    have w : toF64 (1 / 1000000) < (⟨0, 1000⟩ : SimpleTime).toSecF := by decide +kernel
    exact lt_of_lt_of_le w m

theorem overFifth (s : SimpleTime) (h : Normalised s) :
    s.toSecF > toF64 (2 / 10) ↔ 200000000 < ns s := by
  constructor
  · intro hg
    by_contra hn
    have m := toSecF_mono h (b := ⟨0, 200000000⟩) (by unfold Normalised; decide)
      (by have : ns (⟨0, 200000000⟩ : SimpleTime) = 200000000 := by decide
          omega)
    have w : (⟨0, 200000000⟩ : SimpleTime).toSecF ≤ toF64 (2 / 10) := by decide +kernel
    exact absurd (lt_of_lt_of_le hg (le_trans m w)) (lt_irrefl _)
  · intro hn
    have m := toSecF_mono (a := ⟨0, 200000001⟩) (by unfold Normalised; decide) h
      (by have : ns (⟨0, 200000001⟩ : SimpleTime) = 200000001 := by decide
          omega)
    have w : toF64 (2 / 10) < (⟨0, 200000001⟩ : SimpleTime).toSecF := by decide +kernel
    exact lt_of_lt_of_le w m

theorem overSecond (s : SimpleTime) (h : Normalised s) : s.toSecF > 1 ↔ 1000000000 < ns s := by
  constructor
  · intro hg
    by_contra hn
    have m := toSecF_mono h (b := ⟨1, 0⟩) (by unfold Normalised; decide)
      (by have : ns (⟨1, 0⟩ : SimpleTime) = 1000000000 := by decide
          omega)
    have w : (⟨1, 0⟩ : SimpleTime).toSecF ≤ 1 := by decide +kernel
    exact absurd (lt_of_lt_of_le hg (le_trans m w)) (lt_irrefl _)
  · intro hn
    have m := toSecF_mono (a := ⟨1, 1⟩) (by unfold Normalised; decide) h
      (by have : ns (⟨1, 1⟩ : SimpleTime) = 1000000001 := by decide
          omega)
    have w : 1 < (⟨1, 1⟩ : SimpleTime).toSecF := by decide +kernel
    exact lt_of_lt_of_le w m

theorem norm_sub (a b : SimpleTime) : Normalised (b.sub a) := normalised_fromNanoSec _

/-! ### one coordinate -/

theorem toF64_abs_bound (x : ℚ) : |toF64 x| ≤ |x| * (1 + 1 / 2 ^ 53) := by
  have h := toF64_err x
  have h2 := abs_add_le (toF64 x - x) x
  rw [sub_add_cancel] at h2
  linarith

theorem lerpF_near {f f' e a b : ℚ} (h0 : 0 ≤ f) (h1 : f ≤ 1) (g0 : 0 ≤ f') (g1 : f' ≤ 1)
    (he : |f - f'| ≤ e) (he1 : e ≤ 1 / 4) :
    |lerpF f a b - (a + f' * (b - a))| ≤ e * |b - a| + (|a| + |b|) / 2 ^ 50 := by
  unfold lerpF
  obtain ⟨D, hD⟩ : ∃ D, D = |b - a| := ⟨_, rfl⟩
  obtain ⟨d, hd⟩ : ∃ d, d = toF64 (b - a) := ⟨_, rfl⟩
  obtain ⟨m, hm⟩ : ∃ m, m = toF64 (f * d) := ⟨_, rfl⟩
  have e0 : 0 ≤ e := le_trans (abs_nonneg _) he
  have D0 : 0 ≤ D := by rw [hD]; exact abs_nonneg _
  have DS : D ≤ |a| + |b| := by
    rw [hD]; have := abs_sub b a; linarith
  have r1 : |d - (b - a)| ≤ D / 2 ^ 53 := by rw [hd, hD]; exact toF64_err _
  have d1 : |d| ≤ D * (1 + 1 / 2 ^ 53) := by rw [hd, hD]; exact toF64_abs_bound _
  have r2 : |m - f * d| ≤ |d| / 2 ^ 53 := by
    have := toF64_err (f * d)
    rw [← hm, abs_mul, abs_of_nonneg h0] at this
    have q : f * |d| ≤ |d| := by
      have := mul_le_mul_of_nonneg_right h1 (abs_nonneg d); rwa [one_mul] at this
    calc |m - f * d| ≤ f * |d| / 2 ^ 53 := this
      _ ≤ |d| / 2 ^ 53 := by gcongr
  have r3 : |f * d - f * (b - a)| ≤ D / 2 ^ 53 := by
    rw [← mul_sub, abs_mul, abs_of_nonneg h0]
    have := mul_le_mul h1 r1 (abs_nonneg _) (by norm_num)
    rwa [one_mul] at this
  have r4 : |f * (b - a) - f' * (b - a)| ≤ e * D := by
    rw [← sub_mul, abs_mul, ← hD]
    exact mul_le_mul_of_nonneg_right he D0
  have r5 : |m - f' * (b - a)| ≤ e * D + 3 * D / 2 ^ 53 := by
    have t1 := abs_sub_le m (f * d) (f' * (b - a))
    have t2 := abs_sub_le (f * d) (f * (b - a)) (f' * (b - a))
    norm_num at *
    linarith
  have r6 : |a + f' * (b - a)| ≤ |a| + |b| := by
    have : a + f' * (b - a) = (1 - f') * a + f' * b := by ring
    rw [this]
    have t := abs_add_le ((1 - f') * a) (f' * b)
    rw [abs_mul, abs_mul, abs_of_nonneg g0, abs_of_nonneg (by linarith : (0 : ℚ) ≤ 1 - f')] at t
    have u1 : (1 - f') * |a| ≤ 1 * |a| := by gcongr; linarith
    have u2 : f' * |b| ≤ 1 * |b| := by gcongr
    linarith
  have r7 := toF64_err (a + m)
  have r8 : |a + m| ≤ |a| + |b| + (e * D + 3 * D / 2 ^ 53) := by
    have t := abs_add_le (a + f' * (b - a)) (m - f' * (b - a))
    have : a + f' * (b - a) + (m - f' * (b - a)) = a + m := by ring
    rw [this] at t
    linarith
  have r9 : e * D ≤ D / 4 := by
    have := mul_le_mul_of_nonneg_right he1 D0; linarith
  rw [← hd, ← hm, ← hD]
  have t := abs_sub_le (toF64 (a + m)) (a + m) (a + f' * (b - a))
  have : a + m - (a + f' * (b - a)) = m - f' * (b - a) := by ring
  rw [this] at t
  norm_num at *
  linarith

theorem lerpF_mono {f f' a b : ℚ} (h : f ≤ f') (hab : a ≤ b) : lerpF f a b ≤ lerpF f' a b := by
  unfold lerpF
  have : 0 ≤ toF64 (b - a) := toF64_nonneg (by linarith)
  apply toF64_mono
  have := toF64_mono (mul_le_mul_of_nonneg_right h this)
  linarith

theorem lerpF_zero {a b : ℚ} (ha : IsDouble a) : lerpF 0 a b = a := by
  unfold lerpF
  have : toF64 0 = 0 := by simpa using toF64_nat 0 (by norm_num)
  rw [zero_mul, this, add_zero, toF64_of_isDouble ha]

theorem lerpF_one (a b : ℚ) : lerpF 1 a b = toF64 (a + toF64 (b - a)) := by
  unfold lerpF
  rw [one_mul, toF64_of_isDouble (toF64_isDouble (b - a))]

/-! ### the share -/

theorem shareF_mono {a b t t' : SimpleTime} (ht : Normalised t) (ht' : Normalised t')
    (h : ns t ≤ ns t') : SimpleTime.shareF a b t ≤ SimpleTime.shareF a b t' := by
  unfold SimpleTime.shareF
  apply toF64_mono
  have := toSecF_mono (norm_sub a t) (norm_sub a t')
    (by rw [C02_sub t a ht, C02_sub t' a ht']; omega)
  exact div_le_div_of_nonneg_right this (toSecF_nonneg (b.sub a))

theorem shareF_left (a b : SimpleTime) (ha : Normalised a) : SimpleTime.shareF a b a = 0 := by
  unfold SimpleTime.shareF
  have e : ns (a.sub a) = ns (⟨0, 0⟩ : SimpleTime) := by
    rw [C02_sub a a ha]; simp [ns]
  have z : (a.sub a).toSecF = 0 := by
    have m := toSecF_mono (norm_sub a a) (b := ⟨0, 0⟩) (by unfold Normalised; decide) e.le
    have w : (⟨0, 0⟩ : SimpleTime).toSecF = 0 := by decide +kernel
    exact le_antisymm (by rw [w] at m; exact m) (toSecF_nonneg _)
  rw [z, zero_div]
  simpa using toF64_nat 0 (by norm_num)

theorem shareF_right (a b : SimpleTime) (hb : Normalised b) (h : ns a + 1000 ≤ ns b) :
    SimpleTime.shareF a b b = 1 := by
  unfold SimpleTime.shareF
  have p : 0 < (b.sub a).toSecF := by
    have := (overMicro (b.sub a) (norm_sub a b)).2 (by rw [C02_sub b a hb]; omega)
    exact lt_of_le_of_lt (toF64_nonneg (by norm_num)) this
  rw [div_self p.ne']
  simpa using toF64_nat 1 (by norm_num)

theorem ratio01 {x y z : Nat} (h1 : x ≤ z) (h2 : z ≤ y) (h : x < y) :
    0 ≤ ((z : ℚ) - x) / ((y : ℚ) - x) ∧ ((z : ℚ) - x) / ((y : ℚ) - x) ≤ 1 := by
  have h1' : (x : ℚ) ≤ z := by exact_mod_cast h1
  have h2' : (z : ℚ) ≤ y := by exact_mod_cast h2
  have h' : (x : ℚ) < y := by exact_mod_cast h
  refine ⟨div_nonneg (by linarith) (by linarith), ?_⟩
  rw [div_le_one (by linarith)]; linarith

/-! ### GPS -/

section between
variable (t : SimpleTime) (a b : GpsData) (hb : Normalised b.time)
    (h1 : ns a.time ≤ ns t) (h2 : ns t ≤ ns b.time)
include hb h1 h2

theorem gpsBetweenF_close (hg : ns b.time < ns a.time + 1000) : gpsBetweenF t a b = .abort := by
  unfold gpsBetweenF
  dsimp only
  rw [Outcome.check_pos ⟨(ge_iff' _ _).2 h1, (le_iff _ _).2 h2⟩, Outcome.bind_ok]
  rw [Outcome.check_neg (by
    rw [overMicro _ (norm_sub _ _), C02_sub _ _ hb]; omega), Outcome.bind_abort]

theorem gpsBetweenF_bad (hg : ns a.time + 1000 ≤ ns b.time)
    (hbad : ns a.time + 200000000 < ns b.time ∨ a.fixed = false ∨ b.fixed = false) :
    gpsBetweenF t a b = .ok none := by
  unfold gpsBetweenF
  dsimp only
  rw [Outcome.check_pos ⟨(ge_iff' _ _).2 h1, (le_iff _ _).2 h2⟩, Outcome.bind_ok]
  rw [Outcome.check_pos (by
    rw [overMicro _ (norm_sub _ _), C02_sub _ _ hb]; omega), Outcome.bind_ok]
  rw [if_pos (by
    rw [overFifth _ (norm_sub _ _), C02_sub _ _ hb]
    rcases hbad with h | h
    · left; omega
    · exact Or.inr h), Outcome.pure_eq]

theorem gpsBetweenF_good (ha : Normalised a.time) (ht : Normalised t)
    (hg : ns a.time + 1000 ≤ ns b.time)
    (hbad : ¬ (ns a.time + 200000000 < ns b.time ∨ a.fixed = false ∨ b.fixed = false)) :
    gpsBetweenF t a b = .ok (some
      ⟨lerpF (SimpleTime.shareF a.time b.time t) a.enu.x b.enu.x,
       lerpF (SimpleTime.shareF a.time b.time t) a.enu.y b.enu.y,
       lerpF (SimpleTime.shareF a.time b.time t) a.enu.z b.enu.z⟩) := by
  have hs := C86_share a.time b.time t ha hb ht (by omega) h1 h2
  unfold gpsBetweenF
  dsimp only
  rw [Outcome.check_pos ⟨(ge_iff' _ _).2 h1, (le_iff _ _).2 h2⟩, Outcome.bind_ok]
  rw [Outcome.check_pos (by
    rw [overMicro _ (norm_sub _ _), C02_sub _ _ hb]; omega), Outcome.bind_ok]
  rw [if_neg (by
    rw [overFifth _ (norm_sub _ _), C02_sub _ _ hb]
    intro h
    apply hbad
    rcases h with h | h
    · left; omega
    · exact Or.inr h)]
  rw [Outcome.check_pos ⟨hs.1, hs.2.1⟩, Outcome.bind_ok, Outcome.pure_eq]

end between

theorem interpolateF_cases (l : List GpsData) (t : SimpleTime) (th : Rat) (trim : Bool)
    (first last : GpsData) (hth : th ≤ 1 / 2) (h2 : 2 ≤ l.length) (hf : l.head? = some first)
    (hl : l.getLast? = some last) :
    ((ns t < ns first.time ∨ ns last.time < ns t) ∧ interpolateGpsF l t th trim = .ok (none, l)) ∨
    (ns first.time ≤ ns t ∧ ns t ≤ ns last.time ∧ ∃ i a b, IsBracket l t i a b ∧
      interpolateGpsF l t th trim =
        gpsBetweenF t a b >>= fun r => .ok (r, if trim then l.drop i else l)) := by
  obtain ⟨x, y, rest, rfl⟩ : ∃ x y rest, l = x :: y :: rest := by
    match l, h2 with
    | x :: y :: rest, _ => exact ⟨x, y, rest, rfl⟩
  have hx : x = first := by simpa using hf
  subst hx
  have hlast : (y :: rest).getLast (by simp) = last := by
    rw [List.getLast?_eq_getLast_of_ne_nil (by simp)] at hl
    simpa using hl
  have hbody : interpolateGpsF (x :: y :: rest) t th trim =
      gpsManyF (x :: y :: rest) x last t trim := by
    unfold interpolateGpsF
    rw [Outcome.check_pos hth, Outcome.bind_ok]
    show gpsManyF _ _ ((y :: rest).getLast _) _ _ = _
    rw [hlast]
  rw [hbody]
  unfold gpsManyF
  by_cases hout : ns t < ns x.time ∨ ns last.time < ns t
  · left
    refine ⟨hout, ?_⟩
    have : (t.lt x.time || t.gt last.time) = true := by
      simp only [Bool.or_eq_true, lt_iff, gt_iff']; exact hout
    rw [if_pos this]
  · right
    rw [not_or, Nat.not_lt, Nat.not_lt] at hout
    obtain ⟨i, a, b, hs, hb⟩ := search_bracket (x :: y :: rest) t x last h2 (by simp) hl hout.1 hout.2
    refine ⟨hout.1, hout.2, i, a, b, hb, ?_⟩
    have : ¬ (t.lt x.time || t.gt last.time) = true := by
      simp only [Bool.or_eq_true, lt_iff, gt_iff']; omega
    rw [if_neg this, hs]
    have e1 : ((i : Int)).toNat = i := by omega
    have e2 : ((i : Int) + 1).toNat = i + 1 := by omega
    simp only [Outcome.bind_ok, e1, e2, hb.1, hb.2.1, Outcome.pure_eq]

/-! ### odometry -/

section between
variable (slerp : Slerp) (t : SimpleTime) (a b : OdomSample) (hb : Normalised b.time)
    (h1 : ns a.time ≤ ns t) (h2 : ns t ≤ ns b.time)
include hb h1 h2

theorem odomBetweenF_close (hg : ns b.time < ns a.time + 1000) :
    odomBetweenF slerp t a b = .abort := by
  unfold odomBetweenF
  dsimp only
  rw [Outcome.check_neg (by
    rw [overMicro _ (norm_sub _ _), C02_sub _ _ hb]; omega), Outcome.bind_abort]

theorem odomBetweenF_far (hg : ns a.time + 1000000000 < ns b.time) :
    odomBetweenF slerp t a b = .ok none := by
  unfold odomBetweenF
  dsimp only
  rw [Outcome.check_pos (by
    rw [overMicro _ (norm_sub _ _), C02_sub _ _ hb]; omega), Outcome.bind_ok]
  rw [if_pos (by rw [overSecond _ (norm_sub _ _), C02_sub _ _ hb]; omega), Outcome.pure_eq]

theorem odomBetweenF_good (ha : Normalised a.time) (ht : Normalised t)
    (hg : ns a.time + 1000 ≤ ns b.time) (hbad : ns b.time ≤ ns a.time + 1000000000) :
    odomBetweenF slerp t a b = .ok (some
      { rot := slerp a.pose.rot b.pose.rot (toF32 (SimpleTime.shareF a.time b.time t))
        trans := fun i => lerpF (toF32 (SimpleTime.shareF a.time b.time t)) (a.pose.trans i)
          (b.pose.trans i) }) := by
  have hs := C86_share a.time b.time t ha hb ht (by omega) h1 h2
  have one : toF32 1 = 1 := by simpa using toF32_int (n := 1) (by norm_num)
  have s1 : toF32 (SimpleTime.shareF a.time b.time t) ≤ 1 := by
    have := toF32_mono hs.2.1; rwa [one] at this
  unfold odomBetweenF interpolateTransformF
  dsimp only
  rw [Outcome.check_pos (by
    rw [overMicro _ (norm_sub _ _), C02_sub _ _ hb]; omega), Outcome.bind_ok]
  rw [if_neg (by rw [overSecond _ (norm_sub _ _), C02_sub _ _ hb]; omega)]
  rw [Outcome.check_pos ⟨(ge_iff' _ _).2 h1, (le_iff _ _).2 h2⟩, Outcome.bind_ok,
    Outcome.check_pos ⟨hs.1, hs.2.1⟩, Outcome.bind_ok,
    Outcome.check_pos ⟨toF32_nonneg hs.1, s1⟩, Outcome.bind_ok, Outcome.pure_eq, Outcome.bind_ok,
    Outcome.pure_eq]

end between

theorem odomF_cases (slerp : Slerp) (l : List OdomSample) (t : SimpleTime) (th : Rat) (trim : Bool)
    (first last : OdomSample) (hth : th ≤ 1 / 2) (h2 : 2 ≤ l.length) (hf : l.head? = some first)
    (hl : l.getLast? = some last) :
    ((ns t < ns first.time ∨ ns last.time < ns t) ∧
      interpolateOdomF slerp l t th trim = .ok (none, l)) ∨
    (ns first.time ≤ ns t ∧ ns t ≤ ns last.time ∧ ∃ i a b, OdomBracket l t i a b ∧
      interpolateOdomF slerp l t th trim =
        odomBetweenF slerp t a b >>= fun r => .ok (r, if trim then l.drop i else l)) := by
  obtain ⟨x, y, rest, rfl⟩ : ∃ x y rest, l = x :: y :: rest := by
    match l, h2 with
    | x :: y :: rest, _ => exact ⟨x, y, rest, rfl⟩
  have hx : x = first := by simpa using hf
  subst hx
  have hlast : (y :: rest).getLast (by simp) = last := by
    rw [List.getLast?_eq_getLast_of_ne_nil (by simp)] at hl
    simpa using hl
  have hbody : interpolateOdomF slerp (x :: y :: rest) t th trim =
      odomManyF slerp (x :: y :: rest) x last t trim := by
    unfold interpolateOdomF
    rw [Outcome.check_pos hth, Outcome.bind_ok]
    show odomManyF _ _ _ ((y :: rest).getLast _) _ _ = _
    rw [hlast]
  rw [hbody]
  unfold odomManyF
  by_cases hout : ns t < ns x.time ∨ ns last.time < ns t
  · left
    refine ⟨hout, ?_⟩
    have : (t.lt x.time || t.gt last.time) = true := by
      simp only [Bool.or_eq_true, lt_iff, gt_iff']; exact hout
    rw [if_pos this]
  · right
    rw [not_or, Nat.not_lt, Nat.not_lt] at hout
    obtain ⟨i, a, b, hs, hb⟩ := odom_search (x :: y :: rest) t x last h2 (by simp) hl hout.1 hout.2
    refine ⟨hout.1, hout.2, i, a, b, hb, ?_⟩
    have : ¬ (t.lt x.time || t.gt last.time) = true := by
      simp only [Bool.or_eq_true, lt_iff, gt_iff']; omega
    rw [if_neg this, hs]
    have e1 : ((i : Int)).toNat = i := by omega
    have e2 : ((i : Int) + 1).toNat = i + 1 := by omega
    simp only [Outcome.bind_ok, e1, e2, hb.1, hb.2.1, Outcome.pure_eq]

theorem shareF32_near {a b t : SimpleTime} (ha : Normalised a) (hb : Normalised b) (ht : Normalised t)
    (hab : ns a < ns b) (h1 : ns a ≤ ns t) (h2 : ns t ≤ ns b) :
    0 ≤ toF32 (SimpleTime.shareF a b t) ∧ toF32 (SimpleTime.shareF a b t) ≤ 1 ∧
    |toF32 (SimpleTime.shareF a b t) - ((ns t : ℚ) - ns a) / ((ns b : ℚ) - ns a)| ≤ 1 / 2 ^ 23 := by
  obtain ⟨s0, s1, s2⟩ := C86_share a b t ha hb ht hab h1 h2
  have one : toF32 1 = 1 := by simpa using toF32_int (n := 1) (by norm_num)
  refine ⟨toF32_nonneg s0, by have := toF32_mono s1; rwa [one] at this, ?_⟩
  have e := flRound_err 24 (SimpleTime.shareF a b t)
  change |toF32 _ - _| ≤ _ at e
  rw [abs_of_nonneg s0] at e
  have t1 := abs_sub_le (toF32 (SimpleTime.shareF a b t)) (SimpleTime.shareF a b t)
    (((ns t : ℚ) - ns a) / ((ns b : ℚ) - ns a))
  norm_num at *
  linarith

end Verif
