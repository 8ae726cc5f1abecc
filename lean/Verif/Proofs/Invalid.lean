import Verif.Spec.Invalid
import Verif.Proofs.PlaceFloat
import Mathlib.Tactic.Linarith
import Mathlib.Tactic.FieldSimp
import Mathlib.Tactic.Positivity
import Mathlib.Tactic.GCongr
/-! Lemmas for C96. -/
namespace Verif
open Spec

theorem ofRat_eq_num {q r : ℚ} (h : Fl.ofRat q = .num r) : r = toF32 q := by
  unfold Fl.ofRat at h
  split at h
  · cases h
  · cases h; rfl

theorem ofRat_small {q : ℚ} (h : |q| ≤ 2 ^ 127) : Fl.ofRat q = .num (toF32 q) := by
  unfold Fl.ofRat
  rw [if_neg]
  push Not
  have h1 := abs_toF32_le q
  have h2 : (1 + u32) * |q| ≤ (1 + u32) * 2 ^ 127 := mul_le_mul_of_nonneg_left h (by linarith [u32_nonneg])
  have h3 : (1 + u32) * 2 ^ 127 < 2 ^ 128 := by unfold u32; norm_num
  linarith

theorem add_eq_num {a b : Fl} {r : ℚ} (h : a.add b = .num r) : ∃ x y, a = .num x ∧ b = .num y ∧ r = toF32 (x + y) := by
  cases a <;> cases b <;> simp only [Fl.add] at h <;> try cases h
  · split at h <;> cases h
  · exact ⟨_, _, rfl, rfl, ofRat_eq_num h⟩

theorem mul_eq_num {a b : Fl} {r : ℚ} (h : a.mul b = .num r) : ∃ x y, a = .num x ∧ b = .num y ∧ r = toF32 (x * y) := by
  cases a <;> cases b <;> simp only [Fl.mul] at h <;> try cases h
  · split at h <;> cases h
  · split at h <;> cases h
  · exact ⟨_, _, rfl, rfl, ofRat_eq_num h⟩

theorem madd_eq_num {fma : Bool} {c a b : Fl} {r : ℚ} (h : Fl.madd fma c a b = .num r) :
    ∃ z x y, c = .num z ∧ a = .num x ∧ b = .num y ∧ r = maddF fma z x y := by
  have key : ∀ {c a b : Fl} {r : ℚ}, c.add (a.mul b) = .num r →
      ∃ z x y, c = .num z ∧ a = .num x ∧ b = .num y ∧ r = maddF false z x y := by
    intro c a b r h
    obtain ⟨z, w, hc, hw, hr⟩ := add_eq_num h
    obtain ⟨x, y, ha, hb, hw'⟩ := mul_eq_num hw
    refine ⟨z, x, y, hc, ha, hb, ?_⟩
    rw [hr, hw']
    rfl
  cases fma with
  | false =>
    have e : Fl.madd false c a b = c.add (a.mul b) := by cases c <;> cases a <;> cases b <;> rfl
    rw [e] at h
    exact key h
  | true =>
    cases c with
    | num c =>
      cases a with
      | num a =>
        cases b with
        | num b => exact ⟨c, a, b, rfl, rfl, rfl, by rw [ofRat_eq_num h]; rfl⟩
        | nan => obtain ⟨_, _, _, _, _, hb, _⟩ := key (c := .num c) (a := .num a) (b := .nan) h; cases hb
        | inf n => obtain ⟨_, _, _, _, _, hb, _⟩ := key (c := .num c) (a := .num a) (b := .inf n) h; cases hb
      | nan => obtain ⟨_, _, _, _, ha, _⟩ := key (c := .num c) (a := .nan) (b := b) h; cases ha
      | inf n => obtain ⟨_, _, _, _, ha, _⟩ := key (c := .num c) (a := .inf n) (b := b) h; cases ha
    | nan => obtain ⟨_, _, _, hc, _⟩ := key (c := .nan) (a := a) (b := b) h; cases hc
    | inf n => obtain ⟨_, _, _, hc, _⟩ := key (c := .inf n) (a := a) (b := b) h; cases hc

theorem maddF_abs (fma : Bool) (c a b : ℚ) : |maddF fma c a b| ≤ (1 + u32) ^ 2 * (|c| + |a * b|) := by
  have hu := u32_nonneg
  have h0 := abs_nonneg (a * b)
  have h1 := abs_nonneg c
  unfold maddF
  cases fma with
  | true =>
    rw [if_pos rfl]
    refine (abs_toF32_le _).trans ?_
    have := abs_add_le c (a * b)
    nlinarith [mul_nonneg hu (add_nonneg h1 h0), mul_nonneg (mul_nonneg hu hu) (add_nonneg h1 h0)]
  | false =>
    rw [if_neg (by simp)]
    refine (abs_toF32_le _).trans ?_
    have := abs_add_le c (toF32 (a * b))
    have h2 := abs_toF32_le (a * b)
    have h3 : (1 + u32) * |c + toF32 (a * b)| ≤ (1 + u32) * (|c| + (1 + u32) * |a * b|) :=
      mul_le_mul_of_nonneg_left (by linarith) (by linarith)
    nlinarith [mul_nonneg hu h1, mul_nonneg (mul_nonneg hu hu) h1]

theorem madd_small (fma : Bool) {c a b : ℚ} (hc : |c| ≤ 2 ^ 125) (hab : |a * b| ≤ 2 ^ 125) :
    Fl.madd fma (.num c) (.num a) (.num b) = .num (maddF fma c a b) := by
  have hs : |c + a * b| ≤ 2 ^ 127 := by
    have := abs_add_le c (a * b)
    have h : (2 : ℚ) ^ 125 + 2 ^ 125 ≤ 2 ^ 127 := by norm_num
    linarith
  cases fma with
  | true =>
    show Fl.ofRat (c + a * b) = _
    rw [ofRat_small hs]
    rfl
  | false =>
    show Fl.add (.num c) (Fl.ofRat (a * b)) = _
    rw [ofRat_small (hab.trans (by norm_num))]
    show Fl.ofRat (c + toF32 (a * b)) = _
    rw [ofRat_small]
    · rfl
    · have h1 := abs_add_le c (toF32 (a * b))
      have h2 := abs_toF32_le (a * b)
      have h3 : (1 + u32) * |a * b| ≤ (1 + u32) * 2 ^ 125 := mul_le_mul_of_nonneg_left hab (by linarith [u32_nonneg])
      have h4 : (2 : ℚ) ^ 125 + (1 + u32) * 2 ^ 125 ≤ 2 ^ 127 := by unfold u32; norm_num
      linarith

/-- The sum of squares as computed. -/
def sumSqF (fma : Bool) (x y z : ℚ) : ℚ := maddF fma (maddF fma (toF32 (x * x)) y y) z z

theorem sumSq_eq_num {fma : Bool} {p : FlPoint} {s : ℚ} (h : sumSq fma p = .num s) :
    ∃ x y z, PointAt p x y z ∧ s = sumSqF fma x y z := by
  obtain ⟨w, z, z', hw, hz, hz', hs⟩ := madd_eq_num h
  obtain ⟨v, y, y', hv, hy, hy', hs'⟩ := madd_eq_num hw
  obtain ⟨x, x', hx, hx', hs''⟩ := mul_eq_num hv
  have e1 : z' = z := by rw [hz] at hz'; cases hz'; rfl
  have e2 : y' = y := by rw [hy] at hy'; cases hy'; rfl
  have e3 : x' = x := by rw [hx] at hx'; cases hx'; rfl
  refine ⟨x, y, z, ?_, ?_⟩
  · obtain ⟨a, b, c⟩ := p
    simp only at hx hy hz
    rw [hx, hy, hz]
    rfl
  · rw [hs, hs', hs'', e1, e2, e3]
    rfl

theorem maddF_sq_err (fma : Bool) {c' c b K : ℚ} (hK : 1 + u32 ≤ K) (hc0 : 0 ≤ c) (hc : |c' - c| ≤ (K - 1) * c) :
    |maddF fma c' b b - (c + b * b)| ≤ (K * (1 + u32) - 1) * (c + b * b) := by
  have hu := u32_nonneg
  have hb : 0 ≤ b * b := mul_self_nonneg b
  obtain ⟨p, hp, e⟩ : ∃ p, |p - b * b| ≤ (K - 1) * (b * b) ∧ maddF fma c' b b = toF32 (c' + p) := by
    cases fma
    · refine ⟨toF32 (b * b), ?_, by simp [maddF]⟩
      have := toF32_err (b * b)
      rw [abs_of_nonneg hb] at this
      nlinarith
    · refine ⟨b * b, ?_, by simp [maddF]⟩
      rw [sub_self, abs_zero]
      exact mul_nonneg (by linarith) hb
  rw [e]
  have h1 := toF32_err (c' + p)
  have h2 : |c' + p - (c + b * b)| ≤ (K - 1) * (c + b * b) := by
    have := abs_add_le (c' - c) (p - b * b)
    rw [show c' - c + (p - b * b) = c' + p - (c + b * b) by ring] at this
    linarith
  have h3 : |c' + p| ≤ K * (c + b * b) := by
    have h4 := abs_add_le (c' + p - (c + b * b)) (c + b * b)
    rw [sub_add_cancel, abs_of_nonneg (add_nonneg hc0 hb)] at h4
    linarith
  have h5 := abs_add_le (toF32 (c' + p) - (c' + p)) (c' + p - (c + b * b))
  rw [sub_add_sub_cancel] at h5
  have h6 : u32 * |c' + p| ≤ u32 * (K * (c + b * b)) := mul_le_mul_of_nonneg_left h3 hu
  linarith

theorem sumSqF_err (fma : Bool) (x y z : ℚ) :
    |sumSqF fma x y z - (x ^ 2 + y ^ 2 + z ^ 2)| ≤ 1 / 2 ^ 22 * (x ^ 2 + y ^ 2 + z ^ 2) := by
  have hu := u32_nonneg
  have h1 := toF32_err (x * x)
  rw [abs_of_nonneg (mul_self_nonneg x)] at h1
  have h2 := maddF_sq_err fma (b := y) (K := 1 + u32) le_rfl (mul_self_nonneg x) (by linarith)
  have h3 := maddF_sq_err fma (b := z) (K := (1 + u32) * (1 + u32)) (by nlinarith)
    (add_nonneg (mul_self_nonneg x) (mul_self_nonneg y)) h2
  have h4 : (1 + u32) * (1 + u32) * (1 + u32) - 1 ≤ 1 / 2 ^ 22 := by unfold u32; norm_num
  have h5 : 0 ≤ x * x + y * y + z * z := add_nonneg (add_nonneg (mul_self_nonneg x) (mul_self_nonneg y)) (mul_self_nonneg z)
  unfold sumSqF
  rw [show x ^ 2 + y ^ 2 + z ^ 2 = x * x + y * y + z * z by ring]
  exact h3.trans (mul_le_mul_of_nonneg_right h4 h5)

theorem sumSq_small (fma : Bool) {p : FlPoint} {x y z : ℚ} (h : PointAt p x y z) (hb : x ^ 2 + y ^ 2 + z ^ 2 ≤ 2 ^ 124) :
    sumSq fma p = .num (sumSqF fma x y z) := by
  unfold PointAt at h
  subst h
  have hx := sq_nonneg x
  have hy := sq_nonneg y
  have hz := sq_nonneg z
  have ex : |x * x| ≤ 2 ^ 124 := by rw [abs_of_nonneg (mul_self_nonneg x)]; nlinarith
  have ey : |y * y| ≤ 2 ^ 124 := by rw [abs_of_nonneg (mul_self_nonneg y)]; nlinarith
  have ez : |z * z| ≤ 2 ^ 124 := by rw [abs_of_nonneg (mul_self_nonneg z)]; nlinarith
  unfold sumSq
  dsimp only
  have e1 : Fl.mul (.num x) (.num x) = .num (toF32 (x * x)) := ofRat_small (ex.trans (by norm_num))
  have b1 : |toF32 (x * x)| ≤ 2 ^ 125 := by
    have h1 := abs_toF32_le (x * x)
    have h2 : (1 + u32) * |x * x| ≤ (1 + u32) * 2 ^ 124 := mul_le_mul_of_nonneg_left ex (by linarith [u32_nonneg])
    have h3 : (1 + u32) * 2 ^ 124 ≤ 2 ^ 125 := by unfold u32; norm_num
    linarith
  rw [e1, madd_small fma b1 (ey.trans (by norm_num)), madd_small fma _ (ez.trans (by norm_num))]
  · rfl
  · have h1 := toF32_err (x * x)
    rw [abs_of_nonneg (mul_self_nonneg x)] at h1
    have h2 := maddF_sq_err fma (b := y) (K := 1 + u32) le_rfl (mul_self_nonneg x) (by linarith)
    have h3 := abs_add_le (maddF fma (toF32 (x * x)) y y - (x * x + y * y)) (x * x + y * y)
    rw [sub_add_cancel, abs_of_nonneg (add_nonneg (mul_self_nonneg x) (mul_self_nonneg y))] at h3
    have h4 : x * x + y * y ≤ 2 ^ 124 := by nlinarith
    have h5 : ((1 + u32) * (1 + u32)) * (x * x + y * y) ≤ ((1 + u32) * (1 + u32)) * 2 ^ 124 :=
      mul_le_mul_of_nonneg_left h4 (by have := u32_nonneg; positivity)
    have h6 : ((1 + u32) * (1 + u32)) * 2 ^ 124 ≤ 2 ^ 125 := by unfold u32; norm_num
    linarith

/-- What correct rounding of a square root means: the result is within half a step of the root. -/
theorem sqrtF_spec (p : ℕ) (hp : 1 ≤ p) {s : ℚ} (hs : 0 < s) : ∃ u, 0 < u ∧ u * 2 ^ p ≤ 2 * sqrtF p s ∧
    (sqrtF p s - u / 2) ^ 2 ≤ s ∧ s ≤ (sqrtF p s + u / 2) ^ 2 ∧ u / 2 ≤ sqrtF p s := by
  have hlog : (2 : ℚ) ^ Int.log 2 s ≤ s := Int.zpow_log_le_self (by norm_num) hs
  obtain ⟨u, hu⟩ : ∃ u : ℚ, u = 2 ^ (Int.log 2 s / 2 - p + 1) := ⟨_, rfl⟩
  have hu0 : 0 < u := by rw [hu]; positivity
  have hbase : (u * (2 ^ p / 2)) ^ 2 ≤ s := by
    have e : u * (2 ^ p / 2) = 2 ^ (Int.log 2 s / 2) := by
      rw [hu, zpow_add₀ (by norm_num), zpow_sub₀ (by norm_num)]
      field_simp
      simp
    rw [e, ← zpow_natCast, ← zpow_mul]
    refine le_trans (zpow_le_zpow_right₀ (by norm_num) ?_) hlog
    push_cast
    omega
  obtain ⟨N, hN⟩ : ∃ N : ℕ, N = ⌊s / u ^ 2⌋.toNat := ⟨_, rfl⟩
  have hq0 : 0 ≤ s / u ^ 2 := by positivity
  have hNf : (N : ℚ) = (⌊s / u ^ 2⌋ : ℚ) := by
    have h : (N : ℤ) = ⌊s / u ^ 2⌋ := by rw [hN, Int.toNat_of_nonneg (Int.floor_nonneg.2 hq0)]
    exact_mod_cast h
  have hN1 : (N : ℚ) ≤ s / u ^ 2 := by rw [hNf]; exact Int.floor_le _
  have hN2 : s / u ^ 2 < N + 1 := by rw [hNf]; exact Int.lt_floor_add_one _
  obtain ⟨n, hn⟩ : ∃ n : ℕ, n = Nat.sqrt N := ⟨_, rfl⟩
  have hn1 : n * n ≤ N := by rw [hn]; exact Nat.sqrt_le N
  have hn2 : N < (n + 1) * (n + 1) := by rw [hn]; exact Nat.lt_succ_sqrt N
  have hs1 : (n * u) ^ 2 ≤ s := by
    have : ((n * n : ℕ) : ℚ) ≤ N := by exact_mod_cast hn1
    push_cast at this
    have h := le_trans this hN1
    rw [le_div_iff₀ (by positivity)] at h
    nlinarith
  have hs2 : s < ((n + 1) * u) ^ 2 := by
    have : ((N + 1 : ℕ) : ℚ) ≤ (((n + 1) * (n + 1) : ℕ) : ℚ) := by exact_mod_cast hn2
    push_cast at this
    have h := lt_of_lt_of_le hN2 this
    rw [div_lt_iff₀ (by positivity)] at h
    nlinarith
  have hbig : (2 : ℚ) ^ p / 2 < n + 1 := by
    have h := lt_of_le_of_lt hbase hs2
    have h2 := lt_of_pow_lt_pow_left₀ 2 (by positivity) h
    rw [mul_comm] at h2
    exact lt_of_mul_lt_mul_right h2 hu0.le
  obtain ⟨m, rfl⟩ : ∃ m, p = m + 1 := ⟨p - 1, by omega⟩
  have hge : 2 ^ m ≤ n := by
    have h : ((2 ^ m : ℕ) : ℚ) < ((n + 1 : ℕ) : ℚ) := by
      push_cast
      rw [pow_succ] at hbig
      linarith
    have h2 : 2 ^ m < n + 1 := by exact_mod_cast h
    omega
  have hgeq : (2 : ℚ) ^ m ≤ n := by exact_mod_cast hge
  have h1n : (1 : ℚ) ≤ n := by
    have : 1 ≤ 2 ^ m := Nat.one_le_two_pow
    exact_mod_cast this.trans hge
  have hval : sqrtF (m + 1) s = if s > ((n + 1 / 2) * u) ^ 2 then (n + 1) * u else n * u := by
    rw [hn, hN, hu]
    unfold sqrtF
    rw [if_neg (not_le.2 hs)]
  have hun : u * 2 ^ m ≤ n * u := by rw [mul_comm]; exact mul_le_mul_of_nonneg_right hgeq hu0.le
  have hun1 : u ≤ n * u := by nlinarith
  refine ⟨u, hu0, ?_⟩
  rw [hval, pow_succ]
  split_ifs with hc
  · refine ⟨by linarith, ?_, ?_, by linarith⟩
    · have : (n + 1) * u - u / 2 = (n + 1 / 2) * u := by ring
      rw [this]; exact hc.le
    · refine hs2.le.trans (pow_le_pow_left₀ (by positivity) (by linarith) 2)
  · push Not at hc
    refine ⟨by linarith, ?_, ?_, by linarith⟩
    · exact (pow_le_pow_left₀ (by linarith) (by linarith) 2).trans hs1
    · have : n * u + u / 2 = (n + 1 / 2) * u := by ring
      rw [this]; exact hc

theorem sqrtF_bounds {s : ℚ} (hs : 0 ≤ s) : 0 ≤ sqrtF 24 s ∧ (sqrtF 24 s * (1 - u32)) ^ 2 ≤ s ∧
    s ≤ (sqrtF 24 s * (1 + u32)) ^ 2 := by
  rcases eq_or_lt_of_le hs with h | h
  · subst h
    have : sqrtF 24 0 = 0 := by unfold sqrtF; rw [if_pos le_rfl]
    rw [this]; norm_num
  · obtain ⟨u, hu0, h1, h2, h3, h4⟩ := sqrtF_spec 24 (by norm_num) h
    generalize sqrtF 24 s = r at *
    have hr : 0 ≤ r := by linarith
    have hu : u / 2 ≤ r * u32 := by unfold u32; linarith
    have hu1 : u32 ≤ 1 := by unfold u32; norm_num
    refine ⟨hr, le_trans ?_ h2, le_trans h3 ?_⟩
    · exact pow_le_pow_left₀ (mul_nonneg hr (by linarith)) (by linarith) 2
    · exact pow_le_pow_left₀ (by linarith) (by linarith) 2

theorem sumSqF_nonneg (fma : Bool) (x y z : ℚ) : 0 ≤ sumSqF fma x y z := by
  have h := abs_le.1 (sumSqF_err fma x y z)
  have h2 : 0 ≤ x ^ 2 + y ^ 2 + z ^ 2 := by positivity
  have h3 : 1 / 2 ^ 22 * (x ^ 2 + y ^ 2 + z ^ 2) ≤ 1 * (x ^ 2 + y ^ 2 + z ^ 2) :=
    mul_le_mul_of_nonneg_right (by norm_num) h2
  linarith [h.1]

theorem le_of_sq_le_sq {a b : ℚ} (h : a ^ 2 ≤ b ^ 2) (hb : 0 ≤ b) : a ≤ b := by
  by_contra hc
  push Not at hc
  nlinarith

theorem sqrt_num {q : ℚ} (h : 0 ≤ q) : Fl.sqrt (.num q) = .num (sqrtF 24 q) := by
  show (if q < 0 then Fl.nan else .num (sqrtF 24 q)) = _
  rw [if_neg (not_lt.2 h)]

theorem rangeKeepFl_num {fma : Bool} {mn mx : ℚ} {p : FlPoint} (h : rangeKeepFl fma mn mx p = true) :
    ∃ x y z, PointAt p x y z ∧ mn ≤ sqrtF 24 (sumSqF fma x y z) ∧ sqrtF 24 (sumSqF fma x y z) ≤ mx := by
  unfold rangeKeepFl at h
  dsimp only at h
  rw [Bool.and_eq_true] at h
  obtain ⟨h1, h2⟩ := h
  cases hs : sumSq fma p with
  | nan => rw [hs] at h1; simp [Fl.sqrt, Fl.le] at h1
  | inf n =>
    rw [hs] at h1 h2
    cases n with
    | true => simp [Fl.sqrt, Fl.le] at h1
    | false => simp [Fl.sqrt, Fl.le] at h2
  | num s =>
    obtain ⟨x, y, z, hp, hv⟩ := sumSq_eq_num hs
    refine ⟨x, y, z, hp, ?_⟩
    rw [hs, hv, sqrt_num (sumSqF_nonneg fma x y z)] at h1 h2
    exact ⟨of_decide_eq_true h1, of_decide_eq_true h2⟩

theorem range_kept {fma : Bool} {mn mx : ℚ} (h0 : 0 ≤ mn) {p : FlPoint} (h : rangeKeepFl fma mn mx p = true) :
    ∃ x y z, PointAt p x y z ∧ mn ^ 2 * (1 - 1 / 2 ^ 21) ≤ x ^ 2 + y ^ 2 + z ^ 2 ∧
      x ^ 2 + y ^ 2 + z ^ 2 ≤ mx ^ 2 * (1 + 1 / 2 ^ 21) := by
  obtain ⟨x, y, z, hp, h1, h2⟩ := rangeKeepFl_num h
  refine ⟨x, y, z, hp, ?_⟩
  obtain ⟨hr, h3, h4⟩ := sqrtF_bounds (sumSqF_nonneg fma x y z)
  have he := abs_le.1 (sumSqF_err fma x y z)
  have hd : 0 ≤ x ^ 2 + y ^ 2 + z ^ 2 := by positivity
  generalize sqrtF 24 (sumSqF fma x y z) = r at *
  generalize sumSqF fma x y z = s at *
  generalize x ^ 2 + y ^ 2 + z ^ 2 = d at *
  have ha : mn ^ 2 ≤ r ^ 2 := pow_le_pow_left₀ h0 h1 2
  have hb : r ^ 2 ≤ mx ^ 2 := pow_le_pow_left₀ hr h2 2
  rw [mul_pow] at h3 h4
  have hA : 0 ≤ mn ^ 2 := sq_nonneg mn
  generalize mn ^ 2 = A at *
  generalize mx ^ 2 = B at *
  generalize r ^ 2 = R at *
  unfold u32 at h3 h4
  norm_num at *
  constructor <;> linarith

theorem range_keeps (fma : Bool) {mn mx : ℚ} (h0 : 0 ≤ mn) (hm : mn ≤ mx) (hx : mx ≤ 2 ^ 60) {p : FlPoint} {x y z : ℚ}
    (hp : PointAt p x y z) (h1 : mn ^ 2 * (1 + 1 / 2 ^ 21) ≤ x ^ 2 + y ^ 2 + z ^ 2)
    (h2 : x ^ 2 + y ^ 2 + z ^ 2 ≤ mx ^ 2 * (1 - 1 / 2 ^ 21)) : rangeKeepFl fma mn mx p = true := by
  have hmx : mx ^ 2 ≤ (2 ^ 60) ^ 2 := pow_le_pow_left₀ (h0.trans hm) hx 2
  have hs := sumSq_small fma hp (by norm_num at *; linarith)
  unfold rangeKeepFl
  dsimp only
  rw [hs, sqrt_num (sumSqF_nonneg fma x y z), Bool.and_eq_true]
  obtain ⟨hr, h3, h4⟩ := sqrtF_bounds (sumSqF_nonneg fma x y z)
  have he := abs_le.1 (sumSqF_err fma x y z)
  show decide (mn ≤ _) = true ∧ decide (_ ≤ mx) = true
  rw [decide_eq_true_iff, decide_eq_true_iff]
  have hd : 0 ≤ x ^ 2 + y ^ 2 + z ^ 2 := by positivity
  generalize sqrtF 24 (sumSqF fma x y z) = r at *
  generalize sumSqF fma x y z = s at *
  generalize x ^ 2 + y ^ 2 + z ^ 2 = d at *
  rw [mul_pow] at h3 h4
  have hA : 0 ≤ mn ^ 2 := sq_nonneg mn
  have hR : 0 ≤ r ^ 2 := sq_nonneg r
  constructor
  · refine le_of_sq_le_sq ?_ hr
    generalize mn ^ 2 = A at *
    generalize mx ^ 2 = B at *
    generalize r ^ 2 = R at *
    unfold u32 at h3 h4
    norm_num at *
    linarith
  · refine le_of_sq_le_sq ?_ (h0.trans hm)
    generalize mn ^ 2 = A at *
    generalize mx ^ 2 = B at *
    generalize r ^ 2 = R at *
    unfold u32 at h3 h4
    norm_num at *
    linarith

theorem rowFl_num {fma : Bool} {r0 r1 r2 r3 : ℚ} {p : FlPoint} {v : ℚ} (h : rowFl fma r0 r1 r2 r3 p = .num v) :
    IsNumber p := by
  unfold rowFl at h
  obtain ⟨c1, _, _, h1, _, _, _⟩ := madd_eq_num h
  obtain ⟨c2, _, z, h2, _, hz, _⟩ := madd_eq_num h1
  obtain ⟨c3, _, y, h3, _, hy, _⟩ := madd_eq_num h2
  obtain ⟨_, x, _, hx, _⟩ := mul_eq_num h3
  refine ⟨x, y, z, ?_⟩
  unfold PointAt
  rw [← hx, ← hy, ← hz]

theorem rowFl_small (fma : Bool) {r0 r1 r2 r3 x y z : ℚ} (h0 : |r0| ≤ 101 / 100) (h1 : |r1| ≤ 101 / 100)
    (h2 : |r2| ≤ 101 / 100) (h3 : |r3| ≤ 2 ^ 24) (hx : |x| ≤ 2 ^ 20 + 1) (hy : |y| ≤ 2 ^ 20 + 1) (hz : |z| ≤ 2 ^ 20 + 1) :
    rowFl fma r0 r1 r2 r3 ⟨.num x, .num y, .num z⟩ = .num (rowF fma r0 r1 r2 r3 x y z) ∧
      |rowF fma r0 r1 r2 r3 x y z| ≤ 20000000 := by
  have hr : ∀ {r : ℚ}, |r| ≤ 101 / 100 → Fl.ofRat r = .num (toF32 r) ∧ |toF32 r| ≤ 2 := by
    intro r h
    refine ⟨ofRat_small (h.trans (by norm_num)), ?_⟩
    have := abs_toF32_le r
    unfold u32 at this
    norm_num at *
    linarith
  obtain ⟨e0, b0⟩ := hr h0
  obtain ⟨e1, b1⟩ := hr h1
  obtain ⟨e2, b2⟩ := hr h2
  have e3 : Fl.ofRat r3 = .num (toF32 r3) := ofRat_small (h3.trans (by norm_num))
  have b3 : |toF32 r3 * 1| ≤ 2 ^ 25 := by
    have := abs_toF32_le r3
    rw [mul_one]
    unfold u32 at this
    norm_num at *
    linarith
  have hp : ∀ {a b : ℚ}, |a| ≤ 2 → |b| ≤ 2 ^ 20 + 1 → |a * b| ≤ 2 ^ 22 := by
    intro a b ha hb
    rw [abs_mul]
    have := mul_le_mul ha hb (abs_nonneg b) (by norm_num)
    norm_num at *
    linarith
  have hm : ∀ {c a b : ℚ} {C D : ℚ}, |c| ≤ C → |a * b| ≤ D → |maddF fma c a b| ≤ 11 / 10 * (C + D) := by
    intro c a b C D hc hab
    refine (maddF_abs fma c a b).trans ?_
    have hu : (1 + u32) ^ 2 ≤ 11 / 10 := by unfold u32; norm_num
    have := abs_nonneg c
    have := abs_nonneg (a * b)
    exact mul_le_mul hu (by linarith) (by linarith) (by norm_num)
  have c1 : |toF32 (toF32 r0 * x)| ≤ 2 ^ 23 := by
    have h := abs_toF32_le (toF32 r0 * x)
    have h' := hp b0 hx
    unfold u32 at h
    norm_num at *
    linarith
  have c2 := hm c1 (hp b1 hy)
  have c3 := hm c2 (hp b2 hz)
  constructor
  · unfold rowFl
    dsimp only
    rw [e0, e1, e2, e3]
    have e4 : Fl.mul (.num (toF32 r0)) (.num x) = .num (toF32 (toF32 r0 * x)) := ofRat_small ((hp b0 hx).trans (by norm_num))
    rw [e4, madd_small fma (c1.trans (by norm_num)) ((hp b1 hy).trans (by norm_num)),
      madd_small fma (c2.trans (by norm_num)) ((hp b2 hz).trans (by norm_num)),
      madd_small fma (c3.trans (by norm_num)) (b3.trans (by norm_num))]
    rfl
  · have he := rowF_err fma r0 r1 r2 r3 x y z
    have q : ∀ {r x : ℚ}, |r| ≤ 101 / 100 → |x| ≤ 2 ^ 20 + 1 → |r * x| ≤ 101 / 100 * (2 ^ 20 + 1) := by
      intro r x h h'
      rw [abs_mul]
      exact mul_le_mul h h' (abs_nonneg _) (by norm_num)
    have q0 := q h0 hx
    have q1 := q h1 hy
    have q2 := q h2 hz
    have t1 := abs_add_le (rowF fma r0 r1 r2 r3 x y z - (r0 * x + r1 * y + r2 * z + r3)) (r0 * x + r1 * y + r2 * z + r3)
    rw [sub_add_cancel] at t1
    have t2 := abs_add_le (r0 * x + r1 * y + r2 * z) r3
    have t3 := abs_add_le (r0 * x + r1 * y) (r2 * z)
    have t4 := abs_add_le (r0 * x) (r1 * y)
    norm_num at *
    linarith

theorem checkPoint_small (fma : Bool) {p : FlPoint} {x y z : ℚ} (hp : PointAt p x y z) (hx : |x| ≤ 20000000)
    (hy : |y| ≤ 20000000) (hz : |z| ≤ 20000000) : checkPointFl fma p = .ok () := by
  have sx : x ^ 2 ≤ 20000000 ^ 2 := by rw [← sq_abs]; exact pow_le_pow_left₀ (abs_nonneg _) hx 2
  have sy : y ^ 2 ≤ 20000000 ^ 2 := by rw [← sq_abs]; exact pow_le_pow_left₀ (abs_nonneg _) hy 2
  have sz : z ^ 2 ≤ 20000000 ^ 2 := by rw [← sq_abs]; exact pow_le_pow_left₀ (abs_nonneg _) hz 2
  have hs := sumSq_small fma hp (by norm_num at *; linarith)
  have he := abs_le.1 (sumSqF_err fma x y z)
  obtain ⟨hr, h3, h4⟩ := sqrtF_bounds (sumSqF_nonneg fma x y z)
  unfold checkPointFl
  dsimp only
  rw [hs, sqrt_num (sumSqF_nonneg fma x y z)]
  unfold PointAt at hp
  subst hp
  have hlt : sqrtF 24 (sumSqF fma x y z) < 100000000 := by
    by_contra hc
    push Not at hc
    have h5 := pow_le_pow_left₀ (by norm_num) hc 2
    rw [mul_pow] at h3
    have hR : 0 ≤ sqrtF 24 (sumSqF fma x y z) ^ 2 := sq_nonneg _
    generalize sqrtF 24 (sumSqF fma x y z) ^ 2 = R at *
    generalize sumSqF fma x y z = s at *
    unfold u32 at h3
    norm_num at *
    linarith
  have ck : ∀ q : ℚ, Outcome.check ((Fl.num q).isNum = true) = .ok () := fun q => Outcome.check_pos rfl
  dsimp only
  rw [ck, Outcome.bind_ok, ck, Outcome.bind_ok, ck, Outcome.bind_ok, ck, Outcome.bind_ok,
    Outcome.check_pos (by show decide _ = true; simpa using hlt)]

theorem checkPoint_ok {fma : Bool} {p : FlPoint} (h : checkPointFl fma p = .ok ()) :
    ∃ x y z, PointAt p x y z ∧ x ^ 2 + y ^ 2 + z ^ 2 ≤ (100000000 : ℚ) ^ 2 * (1 + 1 / 2 ^ 21) := by
  unfold checkPointFl at h
  obtain ⟨_, h⟩ := (Outcome.check_bind_eq_ok _ _ _).mp h
  obtain ⟨_, h⟩ := (Outcome.check_bind_eq_ok _ _ _).mp h
  obtain ⟨_, h⟩ := (Outcome.check_bind_eq_ok _ _ _).mp h
  obtain ⟨h1, h⟩ := (Outcome.check_bind_eq_ok _ _ _).mp h
  have h2 : Fl.lt (sumSq fma p).sqrt (.num 100000000) = true := by
    by_contra hc
    rw [Outcome.check_neg hc] at h
    cases h
  have hk : rangeKeepFl fma 0 100000000 p = true := by
    cases hs : sumSq fma p with
    | nan => rw [hs] at h1; cases h1
    | inf n => rw [hs] at h1; cases n <;> cases h1
    | num s =>
      obtain ⟨x, y, z, hp, hv⟩ := sumSq_eq_num hs
      unfold rangeKeepFl
      dsimp only
      rw [hs] at h2 ⊢
      rw [hv, sqrt_num (sumSqF_nonneg fma x y z)] at h2 ⊢
      have h3 := (sqrtF_bounds (sumSqF_nonneg fma x y z)).1
      have h4 := of_decide_eq_true h2
      rw [Bool.and_eq_true]
      exact ⟨decide_eq_true h3, decide_eq_true h4.le⟩
  obtain ⟨x, y, z, hp, _, h5⟩ := range_kept le_rfl hk
  exact ⟨x, y, z, hp, h5⟩

theorem checkCloud_ok_iff {fma : Bool} : ∀ {ps : List FlPoint}, checkCloudFl fma ps = .ok () ↔ ∀ p ∈ ps, checkPointFl fma p = .ok ()
  | [] => by simp [checkCloudFl]
  | p :: ps => by
    unfold checkCloudFl
    rw [Outcome.bind_eq_ok]
    constructor
    · rintro ⟨_, h1, h2⟩ q hq
      rcases List.mem_cons.1 hq with rfl | hq
      · exact h1
      · exact (checkCloud_ok_iff (ps := ps)).1 h2 q hq
    · intro h
      exact ⟨(), h p List.mem_cons_self, (checkCloud_ok_iff (ps := ps)).2 fun q hq => h q (List.mem_cons_of_mem _ hq)⟩

theorem checkPoint_or (fma : Bool) (p : FlPoint) : checkPointFl fma p = .ok () ∨ checkPointFl fma p = .abort := by
  unfold checkPointFl
  by_cases h1 : p.x.isNum = true
  · rw [Outcome.check_pos h1, Outcome.bind_ok]
    by_cases h2 : p.y.isNum = true
    · rw [Outcome.check_pos h2, Outcome.bind_ok]
      by_cases h3 : p.z.isNum = true
      · rw [Outcome.check_pos h3, Outcome.bind_ok]
        dsimp only
        by_cases h4 : ((sumSq fma p).sqrt).isNum = true
        · rw [Outcome.check_pos h4, Outcome.bind_ok]
          by_cases h5 : Fl.lt (sumSq fma p).sqrt (.num 100000000) = true
          · rw [Outcome.check_pos h5]; exact Or.inl rfl
          · rw [Outcome.check_neg h5]; exact Or.inr rfl
        · rw [Outcome.check_neg h4]; exact Or.inr rfl
      · rw [Outcome.check_neg h3]; exact Or.inr rfl
    · rw [Outcome.check_neg h2]; exact Or.inr rfl
  · rw [Outcome.check_neg h1]; exact Or.inr rfl

theorem checkCloud_or (fma : Bool) : ∀ ps : List FlPoint, checkCloudFl fma ps = .ok () ∨ checkCloudFl fma ps = .abort
  | [] => Or.inl rfl
  | p :: ps => by
    unfold checkCloudFl
    rcases checkPoint_or fma p with h | h
    · rw [h, Outcome.bind_ok]; exact checkCloud_or fma ps
    · rw [h]; exact Or.inr rfl

/-- All points of the submap: every frame moved by its pose, one after the other. -/
def movedAll (fma : Bool) (fs : List (Mat4 ℚ × List FlPoint)) : List FlPoint := fs.flatMap fun f => f.2.map (moveFl fma f.1)

theorem addFrames_ok (check fma : Bool) : ∀ (fs : List (Mat4 ℚ × List FlPoint)) (acc : List FlPoint),
    (check = true → ∀ p ∈ acc ++ movedAll fma fs, checkPointFl fma p = .ok ()) →
    addFrames check fma fs acc = .ok (acc ++ movedAll fma fs)
  | [], acc, _ => by simp [addFrames, movedAll]
  | (T, ps) :: fs, acc, h => by
    have hc : checkIfFl check fma acc = .ok () := by
      unfold checkIfFl
      cases check with
      | false => rfl
      | true =>
        rw [if_pos rfl, checkCloud_ok_iff]
        intro p hp
        exact h rfl p (List.mem_append_left _ hp)
    have e : acc ++ movedAll fma ((T, ps) :: fs) = (acc ++ ps.map (moveFl fma T)) ++ movedAll fma fs := by
      simp [movedAll]
    rw [e] at h ⊢
    show (checkIfFl check fma acc >>= fun _ => addFrames check fma fs (acc ++ ps.map (moveFl fma T))) = _
    rw [hc, Outcome.bind_ok]
    exact addFrames_ok check fma fs _ h

theorem addFrames_or (check fma : Bool) : ∀ (fs : List (Mat4 ℚ × List FlPoint)) (acc : List FlPoint),
    addFrames check fma fs acc = .ok (acc ++ movedAll fma fs) ∨ addFrames check fma fs acc = .abort
  | [], acc => Or.inl (by simp [addFrames, movedAll])
  | (T, ps) :: fs, acc => by
    have e : acc ++ movedAll fma ((T, ps) :: fs) = (acc ++ ps.map (moveFl fma T)) ++ movedAll fma fs := by
      simp [movedAll]
    have hc : checkIfFl check fma acc = .ok () ∨ checkIfFl check fma acc = .abort := by
      unfold checkIfFl
      cases check with
      | false => exact Or.inl rfl
      | true => exact checkCloud_or fma acc
    rw [e]
    show (checkIfFl check fma acc >>= fun _ => addFrames check fma fs (acc ++ ps.map (moveFl fma T))) = _ ∨ 
      (checkIfFl check fma acc >>= fun _ => addFrames check fma fs (acc ++ ps.map (moveFl fma T))) = _
    rcases hc with hc | hc
    · rw [hc, Outcome.bind_ok]; exact addFrames_or check fma fs _
    · rw [hc]; exact Or.inr rfl

theorem fillSubmap_ok {check fma : Bool} {fs : List (Mat4 ℚ × List FlPoint)}
    (h : check = true → ∀ p ∈ movedAll fma fs, checkPointFl fma p = .ok ()) :
    fillSubmap check fma fs = .ok (movedAll fma fs) := by
  unfold fillSubmap
  rw [addFrames_ok check fma fs [] (by simpa using h), Outcome.bind_ok]
  have hc : checkIfFl check fma ([] ++ movedAll fma fs) = .ok () := by
    unfold checkIfFl
    cases check with
    | false => rfl
    | true => rw [if_pos rfl, checkCloud_ok_iff]; simpa using h rfl
  rw [hc, Outcome.bind_ok]
  simp

theorem fillSubmap_bad {fma : Bool} {fs : List (Mat4 ℚ × List FlPoint)} {p : FlPoint} (hp : p ∈ movedAll fma fs)
    (h : checkPointFl fma p ≠ .ok ()) : fillSubmap true fma fs = .abort := by
  unfold fillSubmap
  rcases addFrames_or true fma fs [] with h1 | h1
  · rw [h1, Outcome.bind_ok, List.nil_append]
    unfold checkIfFl
    rw [if_pos rfl]
    rcases checkCloud_or fma (movedAll fma fs) with h2 | h2
    · exact absurd (checkCloud_ok_iff.1 h2 p hp) h
    · rw [h2]; rfl
  · rw [h1]; rfl

theorem filter_sub {fma : Bool} {stack : ℕ} {f : FlFilter} {ps qs : List FlPoint} (h : f.run fma stack ps = .ok qs) :
    ∀ p ∈ qs, p ∈ ps := by
  intro p hp
  cases f with
  | range mn mx =>
    simp only [FlFilter.run, rangeFl] at h
    split at h
    · cases h
    · cases h; exact (List.mem_filter.1 hp).1
  | axis mn mx a => simp only [FlFilter.run] at h; cases h; exact (List.mem_filter.1 hp).1
  | box mn mx => simp only [FlFilter.run] at h; cases h; exact (List.mem_filter.1 hp).1
  | random rate draws =>
    simp only [FlFilter.run, randomFl] at h
    cases h
    split at hp
    · exact hp
    · obtain ⟨q, hq, rfl⟩ := List.mem_map.1 hp
      have := (List.mem_filter.1 hq).1
      exact (List.mem_zipIdx this).2.2 ▸ List.getElem_mem _

theorem chain_sub {fma : Bool} {stack : ℕ} : ∀ {fs : List FlFilter} {ps qs : List FlPoint},
    chainFl fma stack fs ps = .ok qs → ∀ p ∈ qs, p ∈ ps
  | [], ps, qs, h => by cases h; exact fun p hp => hp
  | f :: fs, ps, qs, h => by
    obtain ⟨rs, h1, h2⟩ := (Outcome.bind_eq_ok _ _ _).mp h
    exact fun p hp => filter_sub h1 p (chain_sub h2 p hp)

theorem chain_range {fma : Bool} {stack : ℕ} {mn mx : ℚ} : ∀ {fs : List FlFilter} {ps qs : List FlPoint},
    .range mn mx ∈ fs → chainFl fma stack fs ps = .ok qs → ∀ p ∈ qs, rangeKeepFl fma mn mx p = true
  | f :: fs, ps, qs, hm, h => by
    obtain ⟨rs, h1, h2⟩ := (Outcome.bind_eq_ok _ _ _).mp h
    intro p hp
    rcases List.mem_cons.1 hm with rfl | hm
    · have := chain_sub h2 p hp
      simp only [FlFilter.run, rangeFl] at h1
      split at h1
      · cases h1
      · cases h1; exact (List.mem_filter.1 this).2
    · exact chain_range hm h2 p hp

theorem castInt_or (v : Fl) : (∃ i, castInt v = .ok i) ∨ castInt v = .ub := by
  cases v with
  | num q =>
    unfold castInt
    dsimp only
    split_ifs
    · exact Or.inl ⟨_, rfl⟩
    · exact Or.inr rfl
  | nan => exact Or.inr rfl
  | inf n => exact Or.inr rfl

theorem castInt_div {x leaf : ℚ} (h : |x / leaf| ≤ 2 ^ 30) : ∃ i, castInt (Fl.divBy (.num x) leaf) = .ok i := by
  have e : Fl.divBy (.num x) leaf = .num (toF32 (x / leaf)) := ofRat_small (h.trans (by norm_num))
  have hb : |toF32 (x / leaf)| ≤ 2147483000 := by
    have := abs_toF32_le (x / leaf)
    unfold u32 at this
    norm_num at *
    linarith
  rw [e]
  unfold castInt
  dsimp only
  obtain ⟨h1, h2⟩ := abs_le.1 hb
  have ht : -2147483648 ≤ truncInt (toF32 (x / leaf)) ∧ truncInt (toF32 (x / leaf)) ≤ 2147483647 := by
    unfold truncInt
    split_ifs with hc
    · have f1 := Int.floor_le (toF32 (x / leaf))
      have f2 := Int.lt_floor_add_one (toF32 (x / leaf))
      constructor
      · have : (0 : ℤ) ≤ ⌊toF32 (x / leaf)⌋ := Int.floor_nonneg.2 hc
        omega
      · have : ((⌊toF32 (x / leaf)⌋ : ℤ) : ℚ) ≤ ((2147483647 : ℤ) : ℚ) := by push_cast; linarith
        exact_mod_cast this
    · rw [← neg_neg (toF32 (x / leaf)), Int.ceil_neg]
      have f1 := Int.floor_le (-toF32 (x / leaf))
      have : ((⌊-toF32 (x / leaf)⌋ : ℤ) : ℚ) ≤ ((2147483647 : ℤ) : ℚ) := by push_cast; linarith
      have g : ⌊-toF32 (x / leaf)⌋ ≤ 2147483647 := by exact_mod_cast this
      have g2 : (0 : ℤ) ≤ ⌊-toF32 (x / leaf)⌋ := Int.floor_nonneg.2 (by linarith)
      omega
  rw [if_pos ht]
  exact ⟨_, rfl⟩

theorem groundIndex_or (leaf : ℚ) (p : FlPoint) : (∃ i, groundIndexFl leaf p = .ok i) ∨ groundIndexFl leaf p = .ub := by
  unfold groundIndexFl
  rcases castInt_or (p.x.divBy leaf) with ⟨i, h1⟩ | h1
  · rcases castInt_or (p.y.divBy leaf) with ⟨j, h2⟩ | h2
    · rcases castInt_or (p.z.divBy leaf) with ⟨k, h3⟩ | h3
      · exact Or.inl ⟨(i, j, k), by rw [h1, h2, h3]; rfl⟩
      · exact Or.inr (by rw [h1, h2, h3]; rfl)
    · exact Or.inr (by rw [h1, h2]; rfl)
  · exact Or.inr (by rw [h1]; rfl)

theorem castInt_num {v : Fl} {leaf : ℚ} {i : Int} (h : castInt (v.divBy leaf) = .ok i) : ∃ x, v = .num x := by
  cases v with
  | num x => exact ⟨x, rfl⟩
  | nan => cases h
  | inf n => cases h

theorem groundIndex_num {leaf : ℚ} {p : FlPoint} {i} (h : groundIndexFl leaf p = .ok i) : IsNumber p := by
  unfold groundIndexFl at h
  obtain ⟨_, h1, h⟩ := (Outcome.bind_eq_ok _ _ _).mp h
  obtain ⟨_, h2, h⟩ := (Outcome.bind_eq_ok _ _ _).mp h
  obtain ⟨_, h3, h⟩ := (Outcome.bind_eq_ok _ _ _).mp h
  obtain ⟨x, hx⟩ := castInt_num h1
  obtain ⟨y, hy⟩ := castInt_num h2
  obtain ⟨z, hz⟩ := castInt_num h3
  refine ⟨x, y, z, ?_⟩
  unfold PointAt
  rw [← hx, ← hy, ← hz]

theorem groundIndices_ok (leaf : ℚ) : ∀ ps : List FlPoint,
    (∀ p ∈ ps, ∃ x y z, PointAt p x y z ∧ |x / leaf| ≤ 2 ^ 30 ∧ |y / leaf| ≤ 2 ^ 30 ∧ |z / leaf| ≤ 2 ^ 30) →
      ∃ vs, groundIndicesFl leaf ps = .ok vs ∧ vs.length = ps.length
  | [], _ => ⟨[], rfl, rfl⟩
  | p :: ps, h => by
    obtain ⟨x, y, z, hp, hx, hy, hz⟩ := h p List.mem_cons_self
    unfold PointAt at hp
    subst hp
    obtain ⟨i, h1⟩ := castInt_div hx
    obtain ⟨j, h2⟩ := castInt_div hy
    obtain ⟨k, h3⟩ := castInt_div hz
    obtain ⟨vs, h4, h5⟩ := groundIndices_ok leaf ps fun q hq => h q (List.mem_cons_of_mem _ hq)
    refine ⟨(i, j, k) :: vs, ?_, by simp [h5]⟩
    unfold groundIndicesFl groundIndexFl
    dsimp only
    rw [h1, h2, h3, h4]
    rfl

theorem groundIndices_ub (leaf : ℚ) : ∀ {ps : List FlPoint} {p : FlPoint}, p ∈ ps → ¬ IsNumber p → groundIndicesFl leaf ps = .ub
  | q :: ps, p, hp, hn => by
    unfold groundIndicesFl
    rcases groundIndex_or leaf q with ⟨i, hi⟩ | hi
    · rcases List.mem_cons.1 hp with rfl | hp
      · exact absurd (groundIndex_num hi) hn
      · rw [hi, Outcome.bind_ok, groundIndices_ub leaf hp hn]
        rfl
    · rw [hi]; rfl

end Verif
