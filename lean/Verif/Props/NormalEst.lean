import Verif.Proofs.NormalEst
import Mathlib.LinearAlgebra.Matrix.Determinant.Basic
import Mathlib.Tactic.NormNum
/-! C133: the normal of a flat patch is the normal of its plane. -/
namespace Verif
open Spec Matrix

/-- C133, the part that holds: the points of a patch lie in a plane that does not contain the sensor and do not lie on one
line.  Then the patch is kept, its point is in the plane and its normal is the unit normal of the plane that points away
from the sensor. -/
theorem C133_flat_partial (n : Fin 3 → ℝ) (c : ℝ) (hc : 0 < c) (l : List (Fin 3 → ℝ)) (hf : Flat n c l) (hl : NotOnALine l) :
    realEstimator.rankOk l = true ∧ n ⬝ᵥ realEstimator.mean l = c ∧ realEstimator.normal l = some n := by
  have hr := rank_of_notOnALine l hl
  have hne : l ≠ [] := by
    obtain ⟨p, hp, -⟩ := hl
    exact List.ne_nil_of_mem hp
  have hd := flat_regular n c hc.ne' l hne hf.onPlane hr
  refine ⟨?_, groupMean_dot n c l hne hf.onPlane, ?_⟩
  · show (!decide ((groupCov l).rank + 1 < 3)) = true
    simpa using hr
  · have hx : waveM l *ᵥ (fun i => c⁻¹ * n i) = waveB l := by
      funext i
      rw [waveM_mul]
      have : l.map (fun p => ((fun i => c⁻¹ * n i) ⬝ᵥ p) * p i) = l.map fun p => p i := by
        refine List.map_congr_left fun p hp => ?_
        have h1 : (fun i => c⁻¹ * n i) ⬝ᵥ p = c⁻¹ * (n ⬝ᵥ p) := by rw [dotThree, dotThree]; ring
        rw [h1, hf.onPlane p hp, inv_mul_cancel₀ hc.ne', one_mul]
      rw [this]
      rfl
    show groupNormal l = some n
    rw [normal_of_solution l hd _ hx, unitNormal_scale n hf.unit c⁻¹ (by positivity)]

/-- C133, any patch: whenever there is a normal, it belongs to the plane `x ⬝ p = 1` that fits the points best, and unless
the points have their centre at the sensor it has length one and points away from the sensor. -/
theorem C133_best (l : List (Fin 3 → ℝ)) (n : Fin 3 → ℝ) (h : realEstimator.normal l = some n) :
    ∃ x : Fin 3 → ℝ, n = unitNormal x ∧ (∀ y, planeMisfit l x ≤ planeMisfit l y) ∧
      (groupMean l ≠ 0 → n ⬝ᵥ n = 1 ∧ 0 < n ⬝ᵥ groupMean l) := by
  have hd : (waveM l).det ≠ 0 := by
    intro hd
    have h' : groupNormal l = some n := h
    unfold groupNormal at h'
    rw [if_pos hd] at h'
    cases h'
  obtain ⟨x, hx, hn⟩ := solution_of_normal l hd
  have hnx : n = unitNormal x := by
    have h' : groupNormal l = some n := h
    rw [hn] at h'
    exact (Option.some.inj h').symm
  refine ⟨x, hnx, ?_, ?_⟩
  · intro y
    have e : ∀ y : Fin 3 → ℝ, planeMisfit l y = y ⬝ᵥ (waveM l *ᵥ y) - 2 * (y ⬝ᵥ waveB l) + l.length := by
      intro y
      rw [waveM_quad, waveB_dot]
      unfold planeMisfit
      induction l with
      | nil => simp
      | cons p l ih => 
        simp only [List.map_cons, List.sum_cons, List.length_cons, Nat.cast_add, Nat.cast_one]
        have : ∀ k : List (Fin 3 → ℝ), (k.map fun p => (y ⬝ᵥ p - 1) ^ 2).sum =
            (k.map fun p => (y ⬝ᵥ p) ^ 2).sum - 2 * (k.map fun p => y ⬝ᵥ p).sum + k.length := by
          intro k
          induction k with
          | nil => simp
          | cons q k ihk =>
            simp only [List.map_cons, List.sum_cons, List.length_cons, Nat.cast_add, Nat.cast_one, ihk]
            ring
        rw [this]
        ring
    have hq : 0 ≤ (y - x) ⬝ᵥ (waveM l *ᵥ (y - x)) := by
      rw [waveM_quad]
      apply List.sum_nonneg
      intro z hz
      obtain ⟨p, -, rfl⟩ := List.mem_map.1 hz
      positivity
    have hsym : x ⬝ᵥ (waveM l *ᵥ y) = y ⬝ᵥ (waveM l *ᵥ x) := by
      have : ∀ i j, waveM l i j = waveM l j i := by
        intro i j
        unfold waveM
        congr 1
        exact List.map_congr_left fun p _ => mul_comm _ _
      simp only [mulVec, dotProduct, Fin.sum_univ_three]
      rw [this 1 0, this 2 0, this 2 1]
      ring
    rw [Matrix.mulVec_sub, sub_dotProduct, dotProduct_sub, dotProduct_sub, hsym] at hq
    rw [e, e, ← hx]
    linarith
  · intro hm
    have hb : waveB l ≠ 0 := by
      intro hb
      apply hm
      funext i
      unfold groupMean
      rw [hb]
      simp
    have hx0 : 0 < x ⬝ᵥ waveB l := by
      have h0 : 0 ≤ x ⬝ᵥ waveB l := by
        rw [← hx, waveM_quad]
        apply List.sum_nonneg
        intro z hz
        obtain ⟨p, -, rfl⟩ := List.mem_map.1 hz
        positivity
      rcases h0.lt_or_eq with h | h
      · exact h
      · exfalso
        rw [← hx, waveM_quad] at h
        have hz := sq_sum_zero (fun p => x ⬝ᵥ p) l h.symm
        apply hb
        rw [← hx]
        funext i
        rw [waveM_mul]
        have : l.map (fun p => (x ⬝ᵥ p) * p i) = l.map fun _ => (0 : ℝ) :=
          List.map_congr_left fun p hp => by rw [hz p hp, zero_mul]
        rw [this]
        simp
    have hl : l ≠ [] := by
      rintro rfl
      apply hb
      funext i
      simp [waveB]
    have hlen : (0 : ℝ) < l.length := by
      have := List.length_pos_iff.2 hl
      positivity
    have hz : 0 < ∑ i, x i ^ 2 := by
      have h0 : 0 ≤ ∑ i, x i ^ 2 := Finset.sum_nonneg fun i _ => by positivity
      rcases h0.lt_or_eq with h | h
      · exact h
      · exfalso
        rw [Fin.sum_univ_three] at h
        have a0 : x 0 = 0 := by nlinarith [sq_nonneg (x 0), sq_nonneg (x 1), sq_nonneg (x 2)]
        have a1 : x 1 = 0 := by nlinarith [sq_nonneg (x 0), sq_nonneg (x 1), sq_nonneg (x 2)]
        have a2 : x 2 = 0 := by nlinarith [sq_nonneg (x 0), sq_nonneg (x 1), sq_nonneg (x 2)]
        rw [dotThree, a0, a1, a2] at hx0
        simp at hx0
    obtain ⟨s, hs⟩ : ∃ s, s = Real.sqrt (∑ i, x i ^ 2) := ⟨_, rfl⟩
    have hsp : 0 < s := hs ▸ Real.sqrt_pos.2 hz
    have hss : s ^ 2 = ∑ i, x i ^ 2 := by rw [hs, Real.sq_sqrt hz.le]
    have hu : ∀ i, n i = x i / s := by
      intro i
      rw [hnx]
      unfold unitNormal
      rw [if_pos hz, ← hs]
    constructor
    · rw [dotThree, hu, hu, hu]
      rw [Fin.sum_univ_three] at hss
      field_simp
      linarith
    · have : n ⬝ᵥ groupMean l = (x ⬝ᵥ waveB l) / (s * l.length) := by
        rw [dotThree, dotThree, hu, hu, hu]
        unfold groupMean
        field_simp
      rw [this]
      positivity

/-- C133: points on one line have no normal, and the patch is dropped. -/
theorem C133_line (l : List (Fin 3 → ℝ)) (hne : l ≠ []) (a d : Fin 3 → ℝ) (h : ∀ p ∈ l, ∃ s : ℝ, ∀ i, p i = a i + s * d i) :
    realEstimator.rankOk l = false := by
  have hlen : (l.length : ℝ) ≠ 0 := by
    have := List.length_pos_iff.2 hne
    positivity
  have hm : ∃ t : ℝ, ∀ i, groupMean l i = a i + t * d i := by
    have key : ∀ k : List (Fin 3 → ℝ), (∀ p ∈ k, ∃ s : ℝ, ∀ i, p i = a i + s * d i) →
        ∃ t : ℝ, ∀ i, waveB k i = k.length * a i + t * d i := by
      intro k
      induction k with
      | nil => intro _; exact ⟨0, fun i => by simp [waveB]⟩
      | cons p k ih =>
        intro hk
        obtain ⟨t, ht⟩ := ih fun q hq => hk q (by simp [hq])
        obtain ⟨s, hs⟩ := hk p (by simp)
        refine ⟨t + s, fun i => ?_⟩
        rw [waveB_cons, ht, hs]
        push_cast [List.length_cons]
        ring
    obtain ⟨t, ht⟩ := key l h
    refine ⟨t / l.length, fun i => ?_⟩
    unfold groupMean
    rw [ht]
    field_simp
  obtain ⟨t, ht⟩ := hm
  have hc : ∃ k : ℝ, groupCov l = Matrix.vecMulVec (fun i => k * d i) d := by
    have key : ∀ k : List (Fin 3 → ℝ), (∀ p ∈ k, ∃ s : ℝ, ∀ i, p i = a i + s * d i) →
        ∃ c : ℝ, ∀ i j, (k.map fun p => (p i - groupMean l i) * (p j - groupMean l j)).sum = c * d i * d j := by
      intro k
      induction k with
      | nil => intro _; exact ⟨0, fun i j => by simp⟩
      | cons p k ih =>
        intro hk
        obtain ⟨c, hc⟩ := ih fun q hq => hk q (by simp [hq])
        obtain ⟨s, hs⟩ := hk p (by simp)
        refine ⟨c + (s - t) ^ 2, fun i j => ?_⟩
        rw [List.map_cons, List.sum_cons, hc, hs, hs, ht, ht]
        ring
    obtain ⟨c, hc⟩ := key l h
    refine ⟨c, ?_⟩
    ext i j
    rw [Matrix.vecMulVec_apply]
    exact hc i j
  obtain ⟨k, hk⟩ := hc
  show (!decide ((groupCov l).rank + 1 < 3)) = false
  have := Matrix.rank_vecMulVec_le (fun i => k * d i) d
  rw [← hk] at this
  have h3 : (groupCov l).rank + 1 < 3 := by omega
  simp [h3]

/-- C133 is false for a plane through the sensor: the patch passes the test of the rank, but its normal is not a number. -/
theorem C133_through_fails (n : Fin 3 → ℝ) (l : List (Fin 3 → ℝ)) (hf : Flat n 0 l) (hl : NotOnALine l) :
    realEstimator.rankOk l = true ∧ realEstimator.normal l = none := by
  have hr := rank_of_notOnALine l hl
  refine ⟨?_, ?_⟩
  · show (!decide ((groupCov l).rank + 1 < 3)) = true
    simpa using hr
  · have hn : n ≠ 0 := by
      rintro rfl
      have := hf.unit
      simp at this
    show groupNormal l = none
    unfold groupNormal
    rw [if_pos (waveM_singular' l n hn hf.onPlane)]

/-! ### patches -/

/-- Four points of a ground one metre up, and a post. -/
def postPatch (s : ℝ) : List (Fin 3 → ℝ) :=
  [![1 + s, 0, 1], ![-1 + s, 0, 1], ![s, 1, 1], ![s, -1, 1], ![s, 0, 6]]

theorem postPatch_M (s : ℝ) : waveM (postPatch s) = !![2 + 5 * s ^ 2, 0, 10 * s; 0, 2, 0; 10 * s, 0, 40] := by
  ext i j
  fin_cases i <;> fin_cases j <;> simp [waveM, postPatch] <;> ring

theorem postPatch_B (s : ℝ) : waveB (postPatch s) = ![5 * s, 0, 10] := by
  funext i
  fin_cases i <;> simp [waveB, postPatch] <;> ring

theorem postPatch_det (s : ℝ) : (waveM (postPatch s)).det ≠ 0 := by
  rw [postPatch_M, Matrix.det_fin_three]
  simp
  nlinarith [sq_nonneg s]

theorem e3_unit : unitNormal (![0, 0, 1 / 4] : Fin 3 → ℝ) = ![0, 0, 1] := by
  have h := unitNormal_scale ![0, 0, 1] (by simp [dotProduct, Fin.sum_univ_three]) (1 / 4) (by norm_num)
  rw [← h]
  congr 1
  funext i
  fin_cases i <;> simp

theorem postPatch_normal0 : realEstimator.normal (postPatch 0) = some ![0, 0, 1] := by
  show groupNormal _ = _
  rw [normal_of_solution _ (postPatch_det 0) ![0, 0, 1 / 4] ?_, e3_unit]
  rw [postPatch_M, postPatch_B]
  funext i
  fin_cases i <;> simp [mulVec, dotProduct, Fin.sum_univ_three] <;> norm_num

/-- C133 is false for patches that are not flat: the normal depends on where the sensor stands.  The same patch has a
vertical normal seen from its middle and another one seen from a metre beside. -/
theorem C133_moved_fails : realEstimator.normal (postPatch 0) = some ![0, 0, 1] ∧
    ∃ n, realEstimator.normal (postPatch 1) = some n ∧ n 0 ≠ 0 ∧ realEstimator.rankOk (postPatch 1) = true := by
  refine ⟨postPatch_normal0, ?_⟩
  obtain ⟨x, hx, hn⟩ := solution_of_normal _ (postPatch_det 1)
  refine ⟨_, hn, ?_, ?_⟩
  · rw [postPatch_M, postPatch_B] at hx
    have h0 := congrFun hx 0
    have h2 := congrFun hx 2
    simp [mulVec, dotProduct, Fin.sum_univ_three] at h0 h2
    have hx0 : x 0 ≠ 0 := by
      intro h
      rw [h] at h0 h2
      linarith
    have hz : 0 < ∑ i, x i ^ 2 := by
      rw [Fin.sum_univ_three]
      have : 0 < x 0 ^ 2 := by positivity
      positivity
    unfold unitNormal
    rw [if_pos hz]
    exact div_ne_zero hx0 (Real.sqrt_pos.2 hz).ne'
  · show (!decide ((groupCov (postPatch 1)).rank + 1 < 3)) = true
    have : NotOnALine (postPatch 1) := by
      refine ⟨![1 + 1, 0, 1], by simp [postPatch], ![-1 + 1, 0, 1], by simp [postPatch], ![1, 1, 1], by simp [postPatch], ?_⟩
      rintro ⟨a, b, hab, h⟩
      have h1 := h 0
      have h2 := h 1
      simp at h1 h2
      rw [h2] at h1
      rcases hab with h | h
      · apply h; linarith
      · exact h h2
    simpa using rank_of_notOnALine _ this

/-- A flat patch: three points two metres ahead. -/
example : Flat ![1, 0, 0] 2 [![2, 0, 0], ![2, 1, 0], ![2, 0, 1]] ∧ NotOnALine [![2, 0, 0], ![2, 1, 0], ![2, 0, 1]] ∧
    realEstimator.normal [![2, 0, 0], ![2, 1, 0], ![2, 0, 1]] = some ![1, 0, 0] := by
  have h1 : Flat ![1, 0, 0] 2 [![2, 0, 0], ![2, 1, 0], ![2, 0, 1]] :=
    ⟨by simp [dotProduct, Fin.sum_univ_three], by simp [dotProduct, Fin.sum_univ_three]⟩
  have h2 : NotOnALine [![2, 0, 0], ![2, 1, 0], ![2, 0, 1]] := by
    refine ⟨![2, 0, 0], by simp, ![2, 1, 0], by simp, ![2, 0, 1], by simp, ?_⟩
    rintro ⟨a, b, hab, h⟩
    have h1 := h 1
    have h2 := h 2
    simp at h1 h2
    rcases hab with h | h
    · exact h h1
    · exact h h2
  exact ⟨h1, h2, (C133_flat_partial _ 2 (by norm_num) _ h1 h2).2.2⟩

/-- Points on a line. -/
example : realEstimator.rankOk [![1, 0, 0], ![1, 1, 0], ![1, 2, 0]] = false :=
  C133_line _ (by simp) ![1, 0, 0] ![0, 1, 0] (by
    intro p hp
    simp only [List.mem_cons, List.not_mem_nil, or_false] at hp
    rcases hp with rfl | rfl | rfl
    · exact ⟨0, fun i => by fin_cases i <;> simp⟩
    · exact ⟨1, fun i => by fin_cases i <;> simp⟩
    · exact ⟨2, fun i => by fin_cases i <;> simp⟩)

/-- A plane through the sensor. -/
example : realEstimator.normal [![0, 0, 0], ![0, 1, 0], ![0, 0, 1]] = none := by
  refine (C133_through_fails ![1, 0, 0] _ ⟨by simp [dotProduct, Fin.sum_univ_three], by simp [dotProduct, Fin.sum_univ_three]⟩ ?_).2
  refine ⟨![0, 0, 0], by simp, ![0, 1, 0], by simp, ![0, 0, 1], by simp, ?_⟩
  rintro ⟨a, b, hab, h⟩
  have h1 := h 1
  have h2 := h 2
  simp at h1 h2
  rcases hab with h | h
  · exact h h1
  · exact h h2

end Verif
