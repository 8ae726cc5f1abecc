import Verif.Spec.RangePixel
import Verif.Proofs.Outcome
namespace Verif
open Spec

theorem realTrunc_iff (v : ℝ) (k : Int) : realTrunc v = k ↔
    (0 < k ∧ (k : ℝ) ≤ v ∧ v < k + 1) ∨ (k = 0 ∧ -1 < v ∧ v < 1) ∨ (k < 0 ∧ (k : ℝ) - 1 < v ∧ v ≤ k) := by
  unfold realTrunc
  split
  · rename_i h
    rw [Int.floor_eq_iff]
    constructor
    · rintro ⟨h1, h2⟩
      have hk : 0 ≤ k := by
        by_contra hc
        have : (k : ℝ) ≤ -1 := by exact_mod_cast (by omega : k ≤ -1)
        linarith
      rcases hk.lt_or_eq with hk | rfl
      · exact Or.inl ⟨hk, h1, h2⟩
      · push_cast at h1 h2
        exact Or.inr (Or.inl ⟨rfl, by linarith, by linarith⟩)
    · rintro (⟨_, h1, h2⟩ | ⟨rfl, h1, h2⟩ | ⟨h1, h2, h3⟩)
      · exact ⟨h1, h2⟩
      · push_cast; exact ⟨h, by linarith⟩
      · have : (k : ℝ) ≤ -1 := by exact_mod_cast (by omega : k ≤ -1)
        linarith
  · rename_i h
    rw [Int.ceil_eq_iff]
    have h' := not_le.1 h
    constructor
    · rintro ⟨h1, h2⟩
      have hk : k ≤ 0 := by
        by_contra hc
        have : (1 : ℝ) ≤ k := by exact_mod_cast (by omega : 1 ≤ k)
        linarith
      rcases hk.lt_or_eq with hk | rfl
      · exact Or.inr (Or.inr ⟨hk, h1, h2⟩)
      · push_cast at h1 h2
        exact Or.inr (Or.inl ⟨rfl, by linarith, by linarith⟩)
    · rintro (⟨h1, h2, h3⟩ | ⟨rfl, h1, h2⟩ | ⟨_, h1, h2⟩)
      · have : (1 : ℝ) ≤ k := by exact_mod_cast (by omega : 1 ≤ k)
        linarith
      · push_cast; exact ⟨by linarith, h'.le⟩
      · exact ⟨h1, h2⟩

theorem atan2_polar {r θ : ℝ} (hr : 0 < r) (h : -Real.pi < θ ∧ θ ≤ Real.pi) :
    atan2 (r * Real.sin θ) (r * Real.cos θ) = θ := by
  unfold atan2
  have e : (⟨r * Real.cos θ, r * Real.sin θ⟩ : ℂ) = (r : ℂ) * (Complex.cos θ + Complex.sin θ * Complex.I) := by
    apply Complex.ext <;> simp [← Complex.ofReal_cos, ← Complex.ofReal_sin]
  rw [e]
  exact Complex.arg_mul_cos_add_sin_mul_I hr h

theorem seen_flat {q : InnerPoint ℝ} {r ε φ : ℝ} (h : SeenAt q r ε φ) : flatDist q = r * Real.cos ε := by
  unfold flatDist
  have hc : 0 < r * Real.cos ε := mul_pos h.far (Real.cos_pos_of_mem_Ioo h.up)
  rw [h.x, h.y]
  have : r * Real.cos ε * Real.cos φ * (r * Real.cos ε * Real.cos φ) + r * Real.cos ε * Real.sin φ * (r * Real.cos ε * Real.sin φ)
      = (r * Real.cos ε) ^ 2 := by
    have := Real.sin_sq_add_cos_sq φ
    linear_combination (r * Real.cos ε) ^ 2 * this
  rw [this]
  exact Real.sqrt_sq hc.le

theorem seen_elevation {q : InnerPoint ℝ} {r ε φ : ℝ} (h : SeenAt q r ε φ) : atan2 q.z (flatDist q) = ε := by
  rw [seen_flat h, h.z]
  have := Real.pi_pos
  exact atan2_polar h.far ⟨by linarith [h.up.1], by linarith [h.up.2]⟩

theorem seen_azimuth {q : InnerPoint ℝ} {r ε φ : ℝ} (h : SeenAt q r ε φ) :
    (if atan2 q.y q.x < 0 then atan2 q.y q.x + Real.pi * 2 else atan2 q.y q.x) = φ := by
  have hc : 0 < r * Real.cos ε := mul_pos h.far (Real.cos_pos_of_mem_Ioo h.up)
  have hpi := Real.pi_pos
  by_cases hφ : φ ≤ Real.pi
  · have e : atan2 q.y q.x = φ := by
      rw [h.x, h.y]
      exact atan2_polar hc ⟨by linarith [h.turn.1], hφ⟩
    rw [e, if_neg (not_lt.2 h.turn.1)]
  · have e : atan2 q.y q.x = φ - 2 * Real.pi := by
      rw [h.x, h.y, ← Real.sin_sub_two_pi φ, ← Real.cos_sub_two_pi φ]
      exact atan2_polar hc ⟨by linarith, by linarith [h.turn.2]⟩
    rw [e, if_pos (by linarith [h.turn.2])]
    ring

theorem vRes_pos {c : ImageCfg} (hr : 0 < c.rows) (ht : c.btm < c.top) : 0 < c.vRes := by
  unfold ImageCfg.vRes
  have : (0 : ℝ) < c.rows := by exact_mod_cast hr
  have := Real.pi_pos
  have : 0 < c.top - c.btm := by linarith
  positivity

theorem row_bounds {c : ImageCfg} (hr : 0 < c.rows) (ht : c.btm < c.top) (ε : ℝ) (k : ℝ) :
    ((k ≤ (ε - c.btm / 180 * Real.pi) / c.vRes ↔ (c.btm + k * ((c.top - c.btm) / c.rows)) / 180 * Real.pi ≤ ε)) ∧
    (((ε - c.btm / 180 * Real.pi) / c.vRes < k ↔ ε < (c.btm + k * ((c.top - c.btm) / c.rows)) / 180 * Real.pi)) := by
  have hv := vRes_pos hr ht
  have e : (c.btm + k * ((c.top - c.btm) / c.rows)) / 180 * Real.pi = k * c.vRes + c.btm / 180 * Real.pi := by
    unfold ImageCfg.vRes
    ring
  rw [e, le_div_iff₀ hv, div_lt_iff₀ hv]
  constructor <;> constructor <;> intro h <;> linarith

/-- The row of a point, where it is defined. -/
theorem imageRow_iff {c : ImageCfg} (hr : 0 < c.rows) (ht : c.btm < c.top) {q : InnerPoint ℝ} {r ε φ : ℝ} (h : SeenAt q r ε φ)
    (k : Int) (hk : imageRow c q = .ok k) :
    (0 ≤ k ∧ k < c.rows ↔ ∃ j, InRow c ε j ∨ j = 0 ∧ JustBelow c ε) ∧
    (0 ≤ k → k < c.rows → ∀ j, (InRow c ε j ∨ j = 0 ∧ JustBelow c ε ↔ j = k)) := by
  have hv := vRes_pos hr ht
  unfold imageRow at hk
  rw [if_neg hv.ne', seen_elevation h] at hk
  dsimp only at hk
  split at hk
  · simp only [Outcome.ok.injEq] at hk
    rw [realTrunc_iff] at hk
    have hb := fun k => row_bounds hr ht ε k
    have key : ∀ j : Int, 0 ≤ j → j < c.rows → (InRow c ε j ∨ j = 0 ∧ JustBelow c ε ↔ j = k) := by
      intro j hj0 hj1
      have e1 : InRow c ε j ↔ ((j : ℝ) ≤ (ε - c.btm / 180 * Real.pi) / c.vRes ∧ (ε - c.btm / 180 * Real.pi) / c.vRes < j + 1) := by
        unfold InRow
        rw [(hb j).1, (hb (j + 1)).2]
        exact ⟨fun h => h.2.2, fun h => ⟨hj0, hj1, h⟩⟩
      have e2 : JustBelow c ε ↔ (-1 < (ε - c.btm / 180 * Real.pi) / c.vRes ∧ (ε - c.btm / 180 * Real.pi) / c.vRes < 0) := by
        unfold JustBelow
        rw [(hb 0).2, zero_mul, add_zero, lt_div_iff₀ hv]
        have e : (c.btm - (c.top - c.btm) / c.rows) / 180 * Real.pi = -1 * c.vRes + c.btm / 180 * Real.pi := by
          unfold ImageCfg.vRes
          ring
        rw [e]
        constructor
        · rintro ⟨h1, h2⟩; exact ⟨by linarith, h2⟩
        · rintro ⟨h1, h2⟩; exact ⟨by linarith, h2⟩
      rw [e1, e2]
      generalize (ε - c.btm / 180 * Real.pi) / c.vRes = w at hk ⊢
      constructor
      · rintro (⟨h1, h2⟩ | ⟨rfl, h1, h2⟩)
        · rcases hk with ⟨g0, g1, g2⟩ | ⟨rfl, g1, g2⟩ | ⟨g0, g1, g2⟩
          · have a1 : (j : ℝ) < k + 1 := by linarith
            have a2 : (k : ℝ) < j + 1 := by linarith
            have b1 : j < k + 1 := by exact_mod_cast a1
            have b2 : k < j + 1 := by exact_mod_cast a2
            omega
          · have a1 : (j : ℝ) < 1 := by linarith
            have b1 : j < 1 := by exact_mod_cast a1
            omega
          · have a1 : (k : ℝ) ≤ -1 := by exact_mod_cast (by omega : k ≤ -1)
            have a2 : (0 : ℝ) ≤ j := by exact_mod_cast hj0
            linarith
        · rcases hk with ⟨g0, g1, g2⟩ | ⟨rfl, g1, g2⟩ | ⟨g0, g1, g2⟩
          · have a1 : (0 : ℝ) < k := by exact_mod_cast g0
            linarith
          · rfl
          · have a1 : (k : ℝ) ≤ -1 := by exact_mod_cast (by omega : k ≤ -1)
            linarith
      · rintro rfl
        rcases hk with ⟨g0, g1, g2⟩ | ⟨rfl, g1, g2⟩ | ⟨g0, g1, g2⟩
        · exact Or.inl ⟨g1, g2⟩
        · by_cases hw : 0 ≤ w
          · exact Or.inl ⟨by simpa using hw, by simpa using g2⟩
          · exact Or.inr ⟨rfl, g1, not_le.1 hw⟩
        · omega
    refine ⟨⟨fun h => ⟨k, (key k h.1 h.2).2 rfl⟩, ?_⟩, ?_⟩
    · rintro ⟨j, hj⟩
      have hj' : 0 ≤ j ∧ j < c.rows := by
        rcases hj with hj | ⟨rfl, -⟩
        · exact ⟨hj.1, hj.2.1⟩
        · exact ⟨le_rfl, hr⟩
      have := (key j hj'.1 hj'.2).1 hj
      omega
    · intro h0 h1 j
      by_cases hj' : 0 ≤ j ∧ j < c.rows
      · exact key j hj'.1 hj'.2
      · constructor
        · rintro (hj | ⟨rfl, -⟩)
          · exact absurd ⟨hj.1, hj.2.1⟩ hj'
          · exact absurd ⟨le_rfl, hr⟩ hj'
        · rintro rfl
          exact absurd ⟨h0, h1⟩ hj'
  · cases hk

/-- The row is defined when the field is not much smaller than the angles. -/
theorem imageRow_ok {c : ImageCfg} (hr : 0 < c.rows) (ht : c.btm < c.top) {q : InnerPoint ℝ} {r ε φ : ℝ} (h : SeenAt q r ε φ)
    (hfit : Real.pi / 2 + |c.btm| / 180 * Real.pi ≤ 2147483647 * c.vRes) : ∃ k, imageRow c q = .ok k := by
  have hv := vRes_pos hr ht
  unfold imageRow
  rw [if_neg hv.ne', seen_elevation h]
  dsimp only
  have hw : |(ε - c.btm / 180 * Real.pi) / c.vRes| ≤ 2147483647 := by
    rw [abs_div, abs_of_pos hv, div_le_iff₀ hv]
    refine le_trans ?_ hfit
    have h1 : |ε| ≤ Real.pi / 2 := abs_le.2 ⟨h.up.1.le, h.up.2.le⟩
    have h2 : |c.btm / 180 * Real.pi| = |c.btm| / 180 * Real.pi := by
      rw [abs_mul, abs_div, abs_of_pos Real.pi_pos]
      norm_num
    calc |ε - c.btm / 180 * Real.pi| ≤ |ε| + |c.btm / 180 * Real.pi| := abs_sub _ _
      _ ≤ _ := by rw [h2]; linarith
  generalize (ε - c.btm / 180 * Real.pi) / c.vRes = w at hw
  rw [abs_le] at hw
  refine ⟨_, if_pos ?_⟩
  have := (realTrunc_iff w (realTrunc w)).1 rfl
  generalize realTrunc w = k at this
  rcases this with ⟨h0, h1, h2⟩ | ⟨rfl, h1, h2⟩ | ⟨h0, h1, h2⟩
  · have : (k : ℝ) ≤ 2147483647 := by linarith
    have : k ≤ 2147483647 := by exact_mod_cast this
    omega
  · omega
  · have : (-2147483647 : ℝ) ≤ k := by linarith
    have : (-2147483647 : Int) ≤ k := by exact_mod_cast this
    omega

/-- The column of a point. -/
theorem imageCol_iff {c : ImageCfg} (hc : 0 < c.cols) {q : InnerPoint ℝ} {r ε φ : ℝ} (h : SeenAt q r ε φ) (k : Int) :
    InCol c φ k ↔ k = if c.cols ≤ imageCol c q then imageCol c q - c.cols else imageCol c q := by
  have hC : (0 : ℝ) < c.cols := by exact_mod_cast hc
  have hpi := Real.pi_pos
  have hH : 0 < c.hRes := by unfold ImageCfg.hRes; positivity
  have heq : c.hRes = 2 * Real.pi / c.cols := by unfold ImageCfg.hRes; ring
  have hfull : c.hRes * c.cols = 2 * Real.pi := by rw [heq]; field_simp
  have hcol : imageCol c q = ⌊φ / c.hRes + 1 / 2⌋ := by
    unfold imageCol
    dsimp only
    rw [seen_azimuth h]
    unfold realLround
    rw [if_pos (div_nonneg h.turn.1 hH.le)]
  have hlo : 0 ≤ φ / c.hRes := div_nonneg h.turn.1 hH.le
  have hhi : φ / c.hRes < c.cols := by
    rw [div_lt_iff₀ hH]
    linarith [h.turn.2]
  have b1 : ∀ x : ℝ, x * (2 * Real.pi / c.cols) ≤ φ ↔ x ≤ φ / c.hRes := fun x => by rw [le_div_iff₀ hH, heq]
  have b2 : ∀ x : ℝ, φ < x * (2 * Real.pi / c.cols) ↔ φ / c.hRes < x := fun x => by rw [div_lt_iff₀ hH, heq]
  unfold InCol
  rw [b1, b2, b1, hcol]
  generalize φ / c.hRes = w at hlo hhi
  have hfl := Int.floor_le (w + 1 / 2)
  have hfl2 := Int.lt_floor_add_one (w + 1 / 2)
  generalize ⌊w + 1 / 2⌋ = m at hfl hfl2
  have hm0 : 0 ≤ m := by
    have : (-1 : ℝ) < m := by linarith
    have : -1 < m := by exact_mod_cast this
    omega
  have hm1 : m ≤ c.cols := by
    have : (m : ℝ) < c.cols + 1 := by linarith
    have : m < c.cols + 1 := by exact_mod_cast this
    omega
  by_cases hmc : c.cols ≤ m
  · obtain rfl : m = c.cols := by omega
    rw [if_pos hmc, sub_self]
    constructor
    · rintro ⟨h0, h1, ⟨h2, h3⟩ | ⟨h2, -⟩⟩
      · have : (k : ℝ) + 1 ≤ c.cols := by exact_mod_cast h1
        linarith
      · exact h2
    · rintro rfl
      exact ⟨le_rfl, hc, Or.inr ⟨rfl, by linarith⟩⟩
  · rw [if_neg hmc]
    constructor
    · rintro ⟨h0, h1, ⟨h2, h3⟩ | ⟨h2, h3⟩⟩
      · have a1 : (k : ℝ) < m + 1 := by linarith
        have a2 : (m : ℝ) < k + 1 := by linarith
        have a1' : k < m + 1 := by exact_mod_cast a1
        have a2' : m < k + 1 := by exact_mod_cast a2
        omega
      · have : (m : ℝ) + 1 ≤ c.cols := by exact_mod_cast (by omega : m + 1 ≤ c.cols)
        linarith
    · rintro rfl
      exact ⟨hm0, by omega, Or.inl ⟨by linarith, by linarith⟩⟩

end Verif
