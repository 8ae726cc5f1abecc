import Verif.Model.NdtLoop
import Verif.Spec.NextStep
import Mathlib.Tactic.FieldSimp
import Mathlib.Tactic.Linarith
import Mathlib.Tactic.LinearCombination
/-! Property theorems C142: the next trial of the step search of the normal distributions transform. -/
namespace Verif
open Spec

/-! ### around a valley -/

theorem slope_around (c : Poly3) (m x : ℝ) (h : c.slope m = 0) :
    c.slope x = (x - m) * (3 * c.p * (x - m) + c.bend m) := by
  unfold Poly3.slope Poly3.bend at *
  linear_combination h

theorem value_around (c : Poly3) (m x y : ℝ) (h : c.slope m = 0) :
    c.value y - c.value x = (y - x) * (c.p * ((y - m) ^ 2 + (y - m) * (x - m) + (x - m) ^ 2) + c.bend m / 2 * ((y - m) + (x - m))) := by
  unfold Poly3.value
  unfold Poly3.slope at h
  unfold Poly3.bend
  linear_combination (y - x) * h

theorem steep_of_leads (c : Poly3) (m x : ℝ) (hm : c.Valley m) (h : c.LeadsTo m x) : 0 < 3 * c.p * (x - m) + c.bend m := by
  rcases h with h | h
  · subst h
    have := hm.2
    simpa using this
  · rw [slope_around c m x hm.1] at h
    by_contra hn
    have h1 : (x - m) * ((x - m) * (3 * c.p * (x - m) + c.bend m)) = (x - m) ^ 2 * (3 * c.p * (x - m) + c.bend m) := by ring
    rw [h1] at h
    have h2 : (x - m) ^ 2 * (3 * c.p * (x - m) + c.bend m) ≤ 0 := mul_nonpos_of_nonneg_of_nonpos (sq_nonneg _) (not_lt.mp hn)
    linarith

theorem root_around (c : Poly3) (m a b : ℝ) (hm : c.Valley m) (hab : a ≠ b) :
    3 * (c.value b - c.value a) / (b - a) - c.slope b - c.slope a =
      3 * c.p * (a - m) * (b - m) + c.bend m / 2 * ((a - m) + (b - m)) := by
  have h0 : b - a ≠ 0 := sub_ne_zero.mpr (Ne.symm hab)
  rw [value_around c m a b hm.1, slope_around c m a hm.1, slope_around c m b hm.1]
  field_simp
  ring

theorem under_root (c : Poly3) (m a b : ℝ) (hm : c.Valley m) :
    (3 * c.p * (a - m) * (b - m) + c.bend m / 2 * ((a - m) + (b - m))) *
      (3 * c.p * (a - m) * (b - m) + c.bend m / 2 * ((a - m) + (b - m))) - c.slope b * c.slope a = (c.bend m / 2 * (b - a)) ^ 2 := by
  rw [slope_around c m a hm.1, slope_around c m b hm.1]
  ring

/-- C142, going up: between two points from which one goes downhill towards a valley of a polynomial of degree three, given in rising
order with the values and slopes of the polynomial, the step computed is that valley. -/
theorem C142_valley (c : Poly3) (m a b : ℝ) (hab : a < b) (hm : c.Valley m) (ha : c.LeadsTo m a) (hb : c.LeadsTo m b) :
    cubicMin a (c.value a) (c.slope a) b (c.value b) (c.slope b) = m := by
  have sa := steep_of_leads c m a hm ha
  have sb := steep_of_leads c m b hm hb
  unfold cubicMin
  dsimp only
  rw [root_around c m a b hm hab.ne, under_root c m a b hm,
    Real.sqrt_sq (mul_nonneg (by have := hm.2; linarith) (by linarith)), slope_around c m a hm.1, slope_around c m b hm.1]
  have hd : (b - m) * (3 * c.p * (b - m) + c.bend m) - (a - m) * (3 * c.p * (a - m) + c.bend m) + 2 * (c.bend m / 2 * (b - a)) =
      (b - a) * ((3 * c.p * (a - m) + c.bend m) + (3 * c.p * (b - m) + c.bend m)) := by ring
  rw [hd]
  have h1 : b - a ≠ 0 := (sub_pos.mpr hab).ne'
  have h2 : (3 * c.p * (a - m) + c.bend m) + (3 * c.p * (b - m) + c.bend m) ≠ 0 := (add_pos sa sb).ne'
  have hn : (b - a) * (c.bend m / 2 * (b - a) - (a - m) * (3 * c.p * (a - m) + c.bend m) -
      (3 * c.p * (a - m) * (b - m) + c.bend m / 2 * (a - m + (b - m)))) =
      (m - a) * ((b - a) * ((3 * c.p * (a - m) + c.bend m) + (3 * c.p * (b - m) + c.bend m))) := by ring
  rw [hn, mul_div_assoc, div_self (mul_ne_zero h1 h2)]
  ring

theorem cubic_down (c : Poly3) (m a b : ℝ) (hab : b < a) (hm : c.Valley m) (hp : c.p ≠ 0) (hs : a + b ≠ 2 * m) :
    cubicMin a (c.value a) (c.slope a) b (c.value b) (c.slope b) = m - c.bend m / (3 * c.p) := by
  unfold cubicMin
  dsimp only
  rw [root_around c m a b hm hab.ne', under_root c m a b hm,
    show (c.bend m / 2 * (b - a)) ^ 2 = (c.bend m / 2 * (a - b)) ^ 2 by ring,
    Real.sqrt_sq (mul_nonneg (by have := hm.2; linarith) (by linarith)), slope_around c m a hm.1, slope_around c m b hm.1]
  have hd : (b - m) * (3 * c.p * (b - m) + c.bend m) - (a - m) * (3 * c.p * (a - m) + c.bend m) + 2 * (c.bend m / 2 * (a - b)) =
      (b - a) * (3 * c.p * (a + b - 2 * m)) := by ring
  rw [hd]
  have h1 : b - a ≠ 0 := (sub_neg.mpr hab).ne
  have h2 : a + b - 2 * m ≠ 0 := sub_ne_zero.mpr hs
  field_simp
  ring

/-- C142 fails going down: with the same two points in falling order the step computed is the hill of the polynomial, whatever the
polynomial. -/
theorem C142_down_fails (c : Poly3) (m a b : ℝ) (hab : b < a) (hm : c.Valley m) (hp : c.p ≠ 0) (hs : a + b ≠ 2 * m) :
    c.Hill (cubicMin a (c.value a) (c.slope a) b (c.value b) (c.slope b)) := by
  have hx := cubic_down c m a b hab hm hp hs
  rw [hx]
  constructor
  · rw [slope_around c m _ hm.1]
    field_simp
    ring
  · have : c.bend (m - c.bend m / (3 * c.p)) = - c.bend m := by
      have h3 : c.bend (m - c.bend m / (3 * c.p)) = c.bend m - 6 * c.p * (c.bend m / (3 * c.p)) := by
        unfold Poly3.bend
        ring
      rw [h3]
      field_simp
      ring
    rw [this]
    have := hm.2
    linarith

/-! ### the four cases -/

theorem pow_pos_of_ne {x y : ℝ} (h : y ≠ x) : 0 < (y - x) ^ 2 := lt_of_le_of_ne (sq_nonneg _) (Ne.symm (pow_ne_zero 2 (sub_ne_zero.mpr h)))

theorem parabola_value (d : Poly3) (x a b : ℝ) (hp : d.p = 0) (hx : d.Valley x) (hab : a ≠ b) :
    a - 0.5 * (a - b) * d.slope a / (d.slope a - (d.value a - d.value b) / (a - b)) = x := by
  have h0 : a - b ≠ 0 := sub_ne_zero.mpr hab
  have hq := hx.2
  have h1 : (d.value a - d.value b) / (a - b) = d.bend x / 2 * ((a - x) + (b - x)) := by
    rw [value_around d x b a hx.1, hp]
    field_simp
    ring
  rw [h1, slope_around d x a hx.1, hp]
  have h2 : (a - x) * (3 * 0 * (a - x) + d.bend x) - d.bend x / 2 * (a - x + (b - x)) = d.bend x / 2 * (a - b) := by ring
  rw [h2]
  have h3 : d.bend x ≠ 0 := hq.ne'
  field_simp
  ring

theorem parabola_slope (d : Poly3) (x a b : ℝ) (hp : d.p = 0) (hx : d.Valley x) (hab : a ≠ b) :
    a - (a - b) / (d.slope a - d.slope b) * d.slope a = x := by
  have h0 : a - b ≠ 0 := sub_ne_zero.mpr hab
  have h3 : d.bend x ≠ 0 := hx.2.ne'
  rw [slope_around d x a hx.1, slope_around d x b hx.1, hp]
  have h2 : (a - x) * (3 * 0 * (a - x) + d.bend x) - (b - x) * (3 * 0 * (b - x) + d.bend x) = d.bend x * (a - b) := by ring
  rw [h2]
  field_simp
  ring

/-- C142, the trial is higher: of the valley of the polynomial of degree three and that of the parabola with the lower end's value and
slope and the trial's value, the former if it is nearer to the lower end, else the middle of both. -/
theorem C142_higher (c d : Poly3) (m x : ℝ) (v : MtInterval) (t : ℝ) (hab : v.al < t)
    (hfl : v.fl = c.value v.al) (hgl : v.gl = c.slope v.al)
    (hm : c.Valley m) (ha : c.LeadsTo m v.al) (hb : c.LeadsTo m t)
    (hd : d.p = 0) (hx : d.Valley x) (hd1 : d.value v.al = v.fl) (hd2 : d.slope v.al = v.gl) (hd3 : d.value t = c.value t)
    (hup : v.fl < c.value t) :
    trialValueMT v t (c.value t) (c.slope t) = if |m - v.al| < |x - v.al| then m else (m + x) / 2 := by
  unfold trialValueMT
  rw [if_pos hup]
  dsimp only
  have h1 : cubicMin v.al v.fl v.gl t (c.value t) (c.slope t) = m := by
    rw [hfl, hgl]; exact C142_valley c m v.al t hab hm ha hb
  have h2 : v.al - 0.5 * (v.al - t) * v.gl / (v.gl - (v.fl - c.value t) / (v.al - t)) = x := by
    rw [← hd1, ← hd2, ← hd3]; exact parabola_value d x v.al t hd hx hab.ne
  rw [h1, h2]
  by_cases h : |m - v.al| < |x - v.al|
  · rw [if_pos h, if_pos h]
  · rw [if_neg h, if_neg h]; ring

/-- C142, the trial is not higher and its slope is of the other sign: of the valley of the polynomial of degree three and that of the
parabola with the slopes at both ends, the one farther from the trial; it lies between the lower end and the trial. -/
theorem C142_crossed (c d : Poly3) (m x : ℝ) (v : MtInterval) (t : ℝ) (hab : v.al < t)
    (hfl : v.fl = c.value v.al) (hgl : v.gl = c.slope v.al)
    (hm : c.Valley m) (ha : c.LeadsTo m v.al) (hb : c.LeadsTo m t)
    (hd : d.p = 0) (hx : d.Valley x) (hd1 : d.slope v.al = v.gl) (hd2 : d.slope t = c.slope t)
    (hup : c.value t ≤ v.fl) (hs : c.slope t * v.gl < 0) :
    (trialValueMT v t (c.value t) (c.slope t) = if |x - t| ≤ |m - t| then m else x) ∧
    v.al < trialValueMT v t (c.value t) (c.slope t) ∧ trialValueMT v t (c.value t) (c.slope t) < t := by
  have h1 : cubicMin v.al v.fl v.gl t (c.value t) (c.slope t) = m := by
    rw [hfl, hgl]; exact C142_valley c m v.al t hab hm ha hb
  have h2 : v.al - (v.al - t) / (v.gl - c.slope t) * v.gl = x := by
    rw [← hd1, ← hd2]; exact parabola_slope d x v.al t hd hx hab.ne
  have hv : trialValueMT v t (c.value t) (c.slope t) = if |x - t| ≤ |m - t| then m else x := by
    unfold trialValueMT
    rw [if_neg (not_lt.mpr hup), if_pos hs]
    dsimp only
    rw [h1, h2]
  have between : ∀ (e : Poly3) (y : ℝ), e.Valley y → e.LeadsTo y v.al → e.LeadsTo y t → e.slope t * e.slope v.al < 0 →
      v.al < y ∧ y < t := by
    intro e y hy la lt hneg
    have s1 := steep_of_leads e y v.al hy la
    have s2 := steep_of_leads e y t hy lt
    rw [slope_around e y t hy.1, slope_around e y v.al hy.1] at hneg
    have hprod : ((t - y) * (v.al - y)) * ((3 * e.p * (t - y) + e.bend y) * (3 * e.p * (v.al - y) + e.bend y)) < 0 := by
      calc _ = _ := by ring
        _ < 0 := hneg
    have h3 : (t - y) * (v.al - y) < 0 := by
      by_contra hn
      have := mul_nonneg (not_lt.mp hn) (mul_pos s2 s1).le
      linarith
    rcases mul_neg_iff.mp h3 with ⟨p1, p2⟩ | ⟨p1, p2⟩
    · constructor <;> linarith
    · linarith
  have bm := between c m hm ha hb (by rw [← hgl]; exact hs)
  have leadsP : ∀ y : ℝ, d.LeadsTo x y := by
    intro y
    by_cases hyx : y = x
    · exact Or.inl hyx
    · right
      rw [slope_around d x y hx.1, hd]
      have h4 : (y - x) * ((y - x) * (3 * 0 * (y - x) + d.bend x)) = (y - x) ^ 2 * d.bend x := by ring
      rw [h4]
      exact mul_pos (pow_pos_of_ne hyx) hx.2
  have bx := between d x hx (leadsP _) (leadsP _) (by rw [hd1, hd2]; exact hs)
  refine ⟨hv, ?_⟩
  rw [hv]
  by_cases h : |x - t| ≤ |m - t|
  · rw [if_pos h]; exact bm
  · rw [if_neg h]; exact bx

/-- C142, the trial is not higher, its slope is of the same sign and not steeper: of the two valleys the one nearer to the trial, but
no farther than 66 hundredths of the way to the other end. -/
theorem C142_flatter (c d : Poly3) (m x : ℝ) (v : MtInterval) (t : ℝ) (hab : v.al < t)
    (hfl : v.fl = c.value v.al) (hgl : v.gl = c.slope v.al)
    (hm : c.Valley m) (ha : c.LeadsTo m v.al) (hb : c.LeadsTo m t)
    (hd : d.p = 0) (hx : d.Valley x) (hd1 : d.slope v.al = v.gl) (hd2 : d.slope t = c.slope t)
    (hup : c.value t ≤ v.fl) (hs : 0 ≤ c.slope t * v.gl) (hf : |c.slope t| ≤ |v.gl|) :
    trialValueMT v t (c.value t) (c.slope t) =
      min (t + 66 / 100 * (v.au - t)) (if |m - t| < |x - t| then m else x) := by
  have h1 : cubicMin v.al v.fl v.gl t (c.value t) (c.slope t) = m := by
    rw [hfl, hgl]; exact C142_valley c m v.al t hab hm ha hb
  have h2 : v.al - (v.al - t) / (v.gl - c.slope t) * v.gl = x := by
    rw [← hd1, ← hd2]; exact parabola_slope d x v.al t hd hx hab.ne
  unfold trialValueMT
  rw [if_neg (not_lt.mpr hup), if_neg (not_lt.mpr hs), if_pos hf]
  dsimp only
  rw [h1, h2, if_pos hab, show (0.66 : ℝ) = 66 / 100 by norm_num]

/-- C142, the trial is not higher and steeper: the valley of the polynomial of degree three between the other end and the trial. -/
theorem C142_steeper (c : Poly3) (m : ℝ) (v : MtInterval) (t : ℝ) (hab : v.au < t)
    (hfu : v.fu = c.value v.au) (hgu : v.gu = c.slope v.au)
    (hm : c.Valley m) (ha : c.LeadsTo m v.au) (hb : c.LeadsTo m t)
    (hup : c.value t ≤ v.fl) (hs : 0 ≤ c.slope t * v.gl) (hf : |v.gl| < |c.slope t|) :
    trialValueMT v t (c.value t) (c.slope t) = m := by
  unfold trialValueMT
  rw [if_neg (not_lt.mpr hup), if_neg (not_lt.mpr hs), if_neg (not_le.mpr hf), hfu, hgu]
  exact C142_valley c m v.au t hab hm ha hb

/-- C142: a trial lower than the near end and flatter, with a slope of the same sign, is never followed by one beyond 66
hundredths of the way to the far end, on whichever side of the near end it lies.  (Where the code's
minimiser is `NaN`, `std::min` and `std::max` return their first argument, so the bound holds there too.) -/
theorem C142_no_leap (v : MtInterval) (t ft gt : ℝ) (hup : ft ≤ v.fl) (hs : 0 ≤ gt * v.gl) (hf : |gt| ≤ |v.gl|) :
    (v.al < t → trialValueMT v t ft gt ≤ t + 66 / 100 * (v.au - t)) ∧
    (t ≤ v.al → t + 66 / 100 * (v.au - t) ≤ trialValueMT v t ft gt) := by
  have h66 : (0.66 : ℝ) = 66 / 100 := by norm_num
  unfold trialValueMT
  rw [if_neg (not_lt.mpr hup), if_neg (not_lt.mpr hs), if_pos hf]
  dsimp only
  constructor
  · intro h
    rw [if_pos h, h66]
    exact min_le_left _ _
  · intro h
    rw [if_neg (not_lt.mpr h), h66]
    exact le_max_left _ _

-- searching downwards from 2 to 0 on the square of the step, with a trial at 1
example : (1 : ℝ) ≤ 4 ∧ (0 : ℝ) ≤ 2 * 4 ∧ |(2 : ℝ)| ≤ |(4 : ℝ)| ∧ (1 : ℝ) ≤ (⟨2, 4, 4, 0, 0, 0⟩ : MtInterval).al := by
  refine ⟨by norm_num, by norm_num, by norm_num, by norm_num⟩

/-- C142, a parabola: a trial beyond the lower end that is higher than it, or past the minimum, is followed by the minimum itself; one
that has not reached it, by the minimum unless that lies beyond 66 hundredths of the way to the other end. -/
theorem C142_parabola (d : Poly3) (x : ℝ) (v : MtInterval) (t : ℝ) (hab : v.al < t) (hd : d.p = 0) (hx : d.Valley x)
    (hfl : v.fl = d.value v.al) (hgl : v.gl = d.slope v.al) :
    ((v.fl < d.value t ∨ d.slope t * v.gl < 0) → trialValueMT v t (d.value t) (d.slope t) = x) ∧
    (d.value t ≤ v.fl → 0 ≤ d.slope t * v.gl →
      trialValueMT v t (d.value t) (d.slope t) = min (t + 66 / 100 * (v.au - t)) x) := by
  have leadsP : ∀ y : ℝ, d.LeadsTo x y := by
    intro y
    by_cases hyx : y = x
    · exact Or.inl hyx
    · right
      rw [slope_around d x y hx.1, hd]
      have h4 : (y - x) * ((y - x) * (3 * 0 * (y - x) + d.bend x)) = (y - x) ^ 2 * d.bend x := by ring
      rw [h4]
      exact mul_pos (pow_pos_of_ne hyx) hx.2
  refine ⟨fun h => ?_, fun hup hs => ?_⟩
  · by_cases hup : v.fl < d.value t
    · rw [C142_higher d d x x v t hab hfl hgl hx (leadsP _) (leadsP _) hd hx hfl.symm hgl.symm rfl hup, if_neg (lt_irrefl _)]
      ring
    · have hs : d.slope t * v.gl < 0 := h.resolve_left hup
      rw [(C142_crossed d d x x v t hab hfl hgl hx (leadsP _) (leadsP _) hd hx hgl.symm rfl (not_lt.mp hup) hs).1, if_pos le_rfl]
  · have hf : |d.slope t| ≤ |v.gl| := by
      have hb := hx.2
      rw [hfl] at hup
      have hv := value_around d x v.al t hx.1
      rw [hd] at hv
      have h5 : (t - v.al) * (d.bend x / 2 * ((t - x) + (v.al - x))) ≤ 0 := by
        have : d.value t - d.value v.al ≤ 0 := by linarith
        rw [hv] at this
        calc _ = _ := by ring
          _ ≤ 0 := this
      have h6 : (t - x) + (v.al - x) ≤ 0 := by
        by_contra hn
        have : 0 < (t - v.al) * (d.bend x / 2 * ((t - x) + (v.al - x))) :=
          mul_pos (by linarith) (mul_pos (by linarith) (not_le.mp hn))
        linarith
      rw [hgl, slope_around d x t hx.1, slope_around d x v.al hx.1, hd]
      have e : ∀ y : ℝ, |(y - x) * (3 * 0 * (y - x) + d.bend x)| = |y - x| * d.bend x := by
        intro y
        rw [show (y - x) * (3 * 0 * (y - x) + d.bend x) = (y - x) * d.bend x by ring, abs_mul, abs_of_pos hb]
      rw [e, e]
      refine mul_le_mul_of_nonneg_right ?_ hb.le
      rw [abs_of_nonpos (show v.al - x ≤ 0 by linarith)]
      exact abs_le.mpr ⟨by linarith, by linarith⟩
    rw [C142_flatter d d x x v t hab hfl hgl hx (leadsP _) (leadsP _) hd hx hgl.symm rfl hup hs hf, if_neg (lt_irrefl _)]

/-- The polynomial `x³ - 3 x`: a valley at 1, a hill at -1. -/
def waveCubic : Poly3 := ⟨1, 0, -3, 0⟩

theorem wave_valley : waveCubic.Valley 1 := by
  constructor <;> norm_num [waveCubic, Poly3.slope, Poly3.bend]

/-- C142 fails for a search that goes down: the lower end is 2, the trial before it is 1/2 and both lie in the valley at 1, where the
function is lowest between 0 and 2; the next trial is the hill at -1. -/
theorem C142_trial_fails :
    ∃ (c : Poly3) (m : ℝ) (v : MtInterval) (t : ℝ), c.Valley m ∧ c.LeadsTo m v.al ∧ c.LeadsTo m t ∧
      v.fl = c.value v.al ∧ v.gl = c.slope v.al ∧ c.value t ≤ v.fl ∧ c.slope t * v.gl < 0 ∧
      t < m ∧ m < v.al ∧ trialValueMT v t (c.value t) (c.slope t) < t := by
  have hc : cubicMin (2 : ℝ) (waveCubic.value 2) (waveCubic.slope 2) (1 / 2) (waveCubic.value (1 / 2)) (waveCubic.slope (1 / 2)) = -1 := by
    rw [cubic_down waveCubic 1 2 (1 / 2) (by norm_num) wave_valley (by norm_num [waveCubic]) (by norm_num)]
    norm_num [waveCubic, Poly3.bend]
  refine ⟨waveCubic, 1, ⟨2, waveCubic.value 2, waveCubic.slope 2, 0, 0, -3⟩, 1 / 2, wave_valley, ?_, ?_, rfl, rfl, ?_, ?_, ?_, ?_, ?_⟩
  · right; norm_num [waveCubic, Poly3.slope]
  · right; norm_num [waveCubic, Poly3.slope]
  · norm_num [waveCubic, Poly3.value]
  · norm_num [waveCubic, Poly3.slope]
  · norm_num
  · norm_num
  · unfold trialValueMT
    rw [if_neg (by norm_num [waveCubic, Poly3.value]), if_pos (by norm_num [waveCubic, Poly3.slope])]
    dsimp only
    rw [hc]
    norm_num [waveCubic, Poly3.slope]

/-- Non-vacuity: the points 0 and 2 both lead to the valley of `x³ - 3 x`. -/
example : cubicMin 0 (waveCubic.value 0) (waveCubic.slope 0) 2 (waveCubic.value 2) (waveCubic.slope 2) = 1 :=
  C142_valley waveCubic 1 0 2 (by norm_num) wave_valley (Or.inr (by norm_num [waveCubic, Poly3.slope]))
    (Or.inr (by norm_num [waveCubic, Poly3.slope]))

/-- Non-vacuity: the parabola `(x - 3)²` from 0, tried at 4. -/
example : trialValueMT ⟨0, 9, -6, 0, 9, -6⟩ 4 1 2 = 3 := by
  have h := (C142_parabola ⟨0, 1, -6, 9⟩ 3 ⟨0, 9, -6, 0, 9, -6⟩ 4 (by norm_num) rfl
    (by constructor <;> norm_num [Poly3.slope, Poly3.bend]) (by norm_num [Poly3.value]) (by norm_num [Poly3.slope])).1
    (Or.inr (by norm_num [Poly3.slope]))
  norm_num [Poly3.value, Poly3.slope] at h
  exact h

end Verif
