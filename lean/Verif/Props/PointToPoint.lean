import Verif.Spec.PointToPoint
import Verif.Proofs.SvdExists
import Mathlib.LinearAlgebra.Matrix.NonsingularInverse
import Mathlib.LinearAlgebra.Matrix.Determinant.Basic
import Mathlib.Tactic.Linarith
import Mathlib.Tactic.LinearCombination
import Mathlib.Tactic.FinCases
/-! Property theorems C110: the point-to-point step. -/
namespace Verif
open Spec Matrix

/-! Orthogonal matrices -/

theorem orth_diag_le {O : Mat3} (h : Oᵀ * O = 1) (i : Fin 3) : O i i ≤ 1 := by
  have h1 := congrFun (congrFun h i) i
  simp only [mul_apply, transpose_apply, Fin.sum_univ_three, one_apply_eq] at h1
  have h2 : O i i ^ 2 ≤ 1 := by
    fin_cases i <;> simp only [Fin.zero_eta, Fin.mk_one, Fin.reduceFinMk] at h1 ⊢ <;> nlinarith [sq_nonneg (O 0 0), sq_nonneg (O 0 1), sq_nonneg (O 0 2), sq_nonneg (O 1 0),
      sq_nonneg (O 1 1), sq_nonneg (O 1 2), sq_nonneg (O 2 0), sq_nonneg (O 2 1), sq_nonneg (O 2 2)]
  nlinarith

/-- The trace of a rotation is at least -1. -/
theorem rot_trace {N : Mat3} (h : IsRot3 N) : -1 ≤ N 0 0 + N 1 1 + N 2 2 := by
  obtain ⟨ho, hd⟩ := h
  have hadj : N.adjugate = Nᵀ := by
    have h1 : N * N.adjugate = 1 := by rw [mul_adjugate, hd, one_smul]
    calc N.adjugate = (Nᵀ * N) * N.adjugate := by rw [ho, Matrix.one_mul]
      _ = Nᵀ * (N * N.adjugate) := Matrix.mul_assoc _ _ _
      _ = Nᵀ := by rw [h1, Matrix.mul_one]
  have h00 := congrFun (congrFun hadj 0) 0
  have h11 := congrFun (congrFun hadj 1) 1
  have h22 := congrFun (congrFun hadj 2) 2
  rw [adjugate_fin_three] at h00 h11 h22
  simp at h00 h11 h22
  have hc0 := congrFun (congrFun ho 0) 0
  have hc1 := congrFun (congrFun ho 1) 1
  have hc2 := congrFun (congrFun ho 2) 2
  simp only [mul_apply, transpose_apply, Fin.sum_univ_three, one_apply_eq] at hc0 hc1 hc2
  have hle : N 0 0 + N 1 1 + N 2 2 ≤ 3 := by
    have := orth_diag_le ho 0
    have := orth_diag_le ho 1
    have := orth_diag_le ho 2
    linarith
  have hid : (N 2 1 - N 1 2) ^ 2 + (N 0 2 - N 2 0) ^ 2 + (N 1 0 - N 0 1) ^ 2 =
      (3 - (N 0 0 + N 1 1 + N 2 2)) * (1 + (N 0 0 + N 1 1 + N 2 2)) := by
    linear_combination hc0 + hc1 + hc2 + 2 * h00 + 2 * h11 + 2 * h22
  by_contra hlt
  push Not at hlt
  nlinarith [sq_nonneg (N 2 1 - N 1 2), sq_nonneg (N 0 2 - N 2 0), sq_nonneg (N 1 0 - N 0 1)]

theorem refl_trace {O : Mat3} (h : Oᵀ * O = 1) (hd : O.det = -1) : O 0 0 + O 1 1 + O 2 2 ≤ 1 := by
  have hr : IsRot3 (-O) := by
    refine ⟨by rw [transpose_neg, Matrix.neg_mul, Matrix.mul_neg, neg_neg, h], ?_⟩
    rw [det_neg, hd]
    norm_num
  have := rot_trace hr
  simp only [Matrix.neg_apply] at this
  linarith

theorem orth_det {O : Mat3} (h : Oᵀ * O = 1) : O.det = 1 ∨ O.det = -1 := by
  have := congrArg det h
  rw [det_mul, det_transpose, det_one] at this
  exact mul_self_eq_one_iff.1 this

/-- The sum of the products of the entries. -/
theorem entries_trace (A B : Mat3) : ∑ i, ∑ j, A i j * B i j = (Aᵀ * B) 0 0 + (Aᵀ * B) 1 1 + (Aᵀ * B) 2 2 := by
  simp only [mul_apply, transpose_apply, Fin.sum_univ_three]
  ring

/-- With the singular values: only the diagonal of `Vᵀ Rᵀ U` counts. -/
theorem entries_svd (R U V : Mat3) (s : Fin 3 → ℝ) :
    ∑ i, ∑ j, R i j * (U * diagonal s * Vᵀ) i j =
      s 0 * (Vᵀ * Rᵀ * U) 0 0 + s 1 * (Vᵀ * Rᵀ * U) 1 1 + s 2 * (Vᵀ * Rᵀ * U) 2 2 := by
  simp only [mul_apply, transpose_apply, Fin.sum_univ_three, diagonal_apply]
  simp
  ring

theorem orth_mul3 {U V R : Mat3} (hU : Uᵀ * U = 1) (hV : Vᵀ * V = 1) (hR : Rᵀ * R = 1) :
    (Vᵀ * Rᵀ * U)ᵀ * (Vᵀ * Rᵀ * U) = 1 := by
  have hV' : V * Vᵀ = 1 := mul_eq_one_comm.1 hV
  have hR' : R * Rᵀ = 1 := mul_eq_one_comm.1 hR
  rw [transpose_mul, transpose_mul, transpose_transpose, transpose_transpose]
  calc Uᵀ * (R * V) * (Vᵀ * Rᵀ * U) = Uᵀ * (R * (V * Vᵀ) * Rᵀ) * U := by simp only [Matrix.mul_assoc]
    _ = 1 := by rw [hV', Matrix.mul_one, hR', Matrix.mul_one, hU]

/-- The flipped third row. -/
theorem flip_eq (V : Mat3) : flipLast V = diagonal ![1, 1, -1] * V := by
  ext i j
  rw [diagonal_mul]
  unfold flipLast
  fin_cases i <;> simp

theorem svdRotation_best {svd : Mat3 → Mat3 × Mat3} (hs : SvdOk svd) (m : Mat3) :
    IsRot3 (svdRotation svd m) ∧ ∀ R, IsRot3 R → ∑ i, ∑ j, R i j * m i j ≤ ∑ i, ∑ j, svdRotation svd m i j * m i j := by
  obtain ⟨hU, hV, s, hm, h01, h12, h2⟩ := hs m
  obtain ⟨U, hUe⟩ : ∃ U, U = (svd m).1 := ⟨_, rfl⟩
  obtain ⟨V, hVe⟩ : ∃ V, V = (svd m).2 := ⟨_, rfl⟩
  rw [← hUe] at hU hm
  rw [← hVe] at hV hm
  have hU' : U * Uᵀ = 1 := mul_eq_one_comm.1 hU
  have hV' : V * Vᵀ = 1 := mul_eq_one_comm.1 hV
  have hUVo : (U * Vᵀ)ᵀ * (U * Vᵀ) = 1 := by
    rw [transpose_mul, transpose_transpose]
    calc V * Uᵀ * (U * Vᵀ) = V * (Uᵀ * U) * Vᵀ := by simp only [Matrix.mul_assoc]
      _ = 1 := by rw [hU, Matrix.mul_one, hV']
  have hdet : ∀ R : Mat3, R.det = 1 → (Vᵀ * Rᵀ * U).det = (U * Vᵀ).det := by
    intro R hR
    rw [det_mul, det_mul, det_transpose, det_transpose, hR, det_mul, det_transpose]
    ring
  unfold svdRotation
  dsimp only
  rw [← hUe, ← hVe]
  by_cases hlt : (U * Vᵀ).det < 0
  · rw [if_pos hlt, flip_eq]
    have hm1 : (U * Vᵀ).det = -1 := by
      rcases orth_det hUVo with h | h
      · rw [h] at hlt; norm_num at hlt
      · exact h
    have hD : (diagonal ![1, 1, -1] : Mat3) * diagonal ![1, 1, -1] = 1 := by
      rw [diagonal_mul_diagonal]
      ext i j
      fin_cases i <;> fin_cases j <;> simp [diagonal_apply]
    have hDd : (diagonal ![1, 1, -1] : Mat3).det = -1 := by
      rw [det_diagonal, Fin.prod_univ_three]
      simp
    refine ⟨⟨?_, ?_⟩, fun R hR => ?_⟩
    · rw [transpose_mul, transpose_mul, transpose_transpose, diagonal_transpose]
      calc V * diagonal ![1, 1, -1] * Uᵀ * (U * (diagonal ![1, 1, -1] * Vᵀ))
          = V * (diagonal ![1, 1, -1] * (Uᵀ * U) * diagonal ![1, 1, -1]) * Vᵀ := by simp only [Matrix.mul_assoc]
        _ = 1 := by rw [hU, Matrix.mul_one, hD, Matrix.mul_one, hV']
    · rw [det_mul, det_mul, hDd]
      rw [det_mul] at hm1
      linarith
    · rw [hm, entries_svd, entries_svd]
      have e : Vᵀ * (U * (diagonal ![1, 1, -1] * Vᵀ))ᵀ * U = diagonal ![1, 1, -1] := by
        rw [transpose_mul, transpose_mul, transpose_transpose, diagonal_transpose]
        calc Vᵀ * (V * diagonal ![1, 1, -1] * Uᵀ) * U = (Vᵀ * V) * diagonal ![1, 1, -1] * (Uᵀ * U) := by simp only [Matrix.mul_assoc]
          _ = diagonal ![1, 1, -1] := by rw [hV, hU, Matrix.one_mul, Matrix.mul_one]
      rw [e]
      have ho := orth_mul3 hU hV hR.1
      have ht := refl_trace ho (by rw [hdet R hR.2, hm1])
      have h0 := orth_diag_le ho 0
      have h1 := orth_diag_le ho 1
      generalize Vᵀ * Rᵀ * U = O at *
      simp only [diagonal_apply_eq, cons_val_zero, cons_val_one, cons_val]
      nlinarith [mul_le_mul_of_nonneg_left h0 (show 0 ≤ s 0 - s 2 by linarith),
        mul_le_mul_of_nonneg_left h1 (show 0 ≤ s 1 - s 2 by linarith), mul_le_mul_of_nonneg_left ht h2]
  · rw [if_neg hlt]
    have h1 : (U * Vᵀ).det = 1 := by
      rcases orth_det hUVo with h | h
      · exact h
      · rw [h] at hlt; norm_num at hlt
    refine ⟨⟨hUVo, h1⟩, fun R hR => ?_⟩
    rw [hm, entries_svd, entries_svd]
    have e : Vᵀ * (U * Vᵀ)ᵀ * U = 1 := by
      rw [transpose_mul, transpose_transpose]
      calc Vᵀ * (V * Uᵀ) * U = (Vᵀ * V) * (Uᵀ * U) := by simp only [Matrix.mul_assoc]
        _ = 1 := by rw [hV, hU, Matrix.one_mul]
    rw [e]
    have ho := orth_mul3 hU hV hR.1
    have h0 := orth_diag_le ho 0
    have h1 := orth_diag_le ho 1
    have h3 := orth_diag_le ho 2
    generalize Vᵀ * Rᵀ * U = O at *
    simp only [one_apply_eq]
    nlinarith [mul_le_mul_of_nonneg_left h0 (show 0 ≤ s 0 by linarith),
      mul_le_mul_of_nonneg_left h1 (show 0 ≤ s 1 by linarith), mul_le_mul_of_nonneg_left h3 h2]

/-! The cost -/

/-- The cost in centred points: the part of the rotation and the part of the translation. -/
theorem pointCost_split (l : List IcpPair) (mp mq : Fin 3 → ℝ)
    (hp : ∀ i, (l.map fun e => e.w * (e.p i - mp i)).sum = 0) (hq : ∀ i, (l.map fun e => e.w * (e.q i - mq i)).sum = 0)
    (R : Mat3) (hR : Rᵀ * R = 1) (t : Fin 3 → ℝ) :
    pointCost l R t = (l.map fun e => e.w * (∑ i, (e.p i - mp i) ^ 2 + ∑ i, (e.q i - mq i) ^ 2)).sum -
      2 * ∑ i, ∑ j, R i j * crossMatrix (centred l mp mq) i j +
      (l.map fun e => e.w).sum * ∑ i, ((R *ᵥ mp) i + t i - mq i) ^ 2 := by
  have c00 := congrFun (congrFun hR 0) 0
  have c11 := congrFun (congrFun hR 1) 1
  have c22 := congrFun (congrFun hR 2) 2
  have c01 := congrFun (congrFun hR 0) 1
  have c02 := congrFun (congrFun hR 0) 2
  have c12 := congrFun (congrFun hR 1) 2
  simp [mul_apply, transpose_apply, Fin.sum_univ_three] at c00 c11 c22 c01 c02 c12
  -- without the mean conditions the difference is linear in their sums
  have key : ∀ l : List IcpPair, pointCost l R t = (l.map fun e => e.w * (∑ i, (e.p i - mp i) ^ 2 + ∑ i, (e.q i - mq i) ^ 2)).sum -
      2 * ∑ i, ∑ j, R i j * crossMatrix (centred l mp mq) i j +
      (l.map fun e => e.w).sum * ∑ i, ((R *ᵥ mp) i + t i - mq i) ^ 2 +
      2 * ∑ i, ((R *ᵥ mp) i + t i - mq i) * (∑ j, R i j * (l.map fun e => e.w * (e.p j - mp j)).sum -
        (l.map fun e => e.w * (e.q i - mq i)).sum) := by
    intro l
    induction l with
    | nil => simp [pointCost, crossMatrix, centred]
    | cons e l ih =>
      have hc : ∀ i j, crossMatrix (centred (e :: l) mp mq) i j =
          (e.q i - mq i) * e.w * (e.p j - mp j) + crossMatrix (centred l mp mq) i j := by
        intro i j
        simp [crossMatrix, centred]
      have hcost : pointCost (e :: l) R t = e.w * ∑ i, ((R *ᵥ e.p) i + t i - e.q i) ^ 2 + pointCost l R t := by
        simp [pointCost]
      rw [hcost, ih]
      simp only [hc, List.map_cons, List.sum_cons, Fin.sum_univ_three, mulVec, dotProduct]
      generalize e.p 0 = p0
      generalize e.p 1 = p1
      generalize e.p 2 = p2
      linear_combination e.w * (p0 - mp 0) ^ 2 * c00 + e.w * (p1 - mp 1) ^ 2 * c11 + e.w * (p2 - mp 2) ^ 2 * c22 +
        2 * e.w * (p0 - mp 0) * (p1 - mp 1) * c01 + 2 * e.w * (p0 - mp 0) * (p2 - mp 2) * c02 +
        2 * e.w * (p1 - mp 1) * (p2 - mp 2) * c12
  rw [key l]
  simp only [hp, hq]
  simp

theorem mean_zero (l : List IcpPair) (pt : IcpPair → Fin 3 → ℝ) (h : (l.map fun e => e.w).sum ≠ 0) (i : Fin 3) :
    (l.map fun e => e.w * (pt e i - weightedMean l pt (1 / (l.map fun e => e.w).sum) i)).sum = 0 := by
  have key : ∀ (l : List IcpPair) (m : ℝ), (l.map fun e => e.w * (pt e i - m)).sum = (l.map fun e => pt e i * e.w).sum -
      (l.map fun e => e.w).sum * m := by
    intro l m
    induction l with
    | nil => simp
    | cons e l ih =>
      simp only [List.map_cons, List.sum_cons]
      rw [ih]
      ring
  rw [key]
  unfold weightedMean
  field_simp
  ring

/-- C110: the result is a rotation with a translation, and no other rotation and translation brings the pairs closer together. -/
theorem C110_best (svd : Mat3 → Mat3 × Mat3) (hs : SvdOk svd) (l : List IcpPair) (hw : ∀ e ∈ l, 0 ≤ e.w)
    (h0 : ∃ e ∈ l, 0 < e.w) :
    ∃ R t l', pointToPoint svd l = some ((R, t), l') ∧ IsRot3 R ∧ ∀ R' t', IsRot3 R' → pointCost l R t ≤ pointCost l R' t' := by
  have hsum : 0 < (l.map fun e => e.w).sum := by
    obtain ⟨e, he, hpos⟩ := h0
    have h1 : ∀ x ∈ l.map (fun e => e.w), 0 ≤ x := by
      intro x hx
      obtain ⟨e', he', rfl⟩ := List.mem_map.1 hx
      exact hw e' he'
    exact lt_of_lt_of_le hpos (List.single_le_sum h1 _ (List.mem_map.2 ⟨e, he, rfl⟩))
  unfold pointToPoint
  rw [if_neg hsum.ne']
  refine ⟨_, _, _, rfl, ?_⟩
  obtain ⟨mp, hmp⟩ : ∃ mp, mp = weightedMean l IcpPair.p (1 / (l.map fun e => e.w).sum) := ⟨_, rfl⟩
  obtain ⟨mq, hmq⟩ : ∃ mq, mq = weightedMean l IcpPair.q (1 / (l.map fun e => e.w).sum) := ⟨_, rfl⟩
  rw [← hmp, ← hmq]
  have hp : ∀ i, (l.map fun e => e.w * (e.p i - mp i)).sum = 0 := by
    rw [hmp]
    exact mean_zero l IcpPair.p hsum.ne'
  have hq : ∀ i, (l.map fun e => e.w * (e.q i - mq i)).sum = 0 := by
    rw [hmq]
    exact mean_zero l IcpPair.q hsum.ne'
  obtain ⟨hrot, hbest⟩ := svdRotation_best hs (crossMatrix (centred l mp mq))
  refine ⟨hrot, fun R' t' hR' => ?_⟩
  rw [pointCost_split l mp mq hp hq _ hrot.1, pointCost_split l mp mq hp hq R' hR'.1]
  have h1 := hbest R' hR'
  have h2 : ∑ i, ((svdRotation svd (crossMatrix (centred l mp mq)) *ᵥ mp) i + (mq i - (svdRotation svd (crossMatrix (centred l mp mq))).mulVec mp i) - mq i) ^ 2 = 0 :=
    Finset.sum_eq_zero fun i _ => by ring
  have h3 : 0 ≤ ∑ i, ((R' *ᵥ mp) i + t' i - mq i) ^ 2 := Finset.sum_nonneg fun i _ => sq_nonneg _
  rw [h2]
  nlinarith [mul_nonneg hsum.le h3]

/-- C110: pairs that differ by a motion are brought together exactly. -/
theorem C110_exact (svd : Mat3 → Mat3 × Mat3) (hs : SvdOk svd) (l : List IcpPair) (hw : ∀ e ∈ l, 0 < e.w) (hne : l ≠ [])
    (R₀ : Mat3) (t₀ : Fin 3 → ℝ) (hR₀ : IsRot3 R₀) (hq : ∀ e ∈ l, ∀ i, e.q i = (R₀ *ᵥ e.p) i + t₀ i) :
    ∃ R t l', pointToPoint svd l = some ((R, t), l') ∧ IsRot3 R ∧ ∀ e ∈ l, ∀ i, (R *ᵥ e.p) i + t i = e.q i := by
  obtain ⟨R, t, l', h1, h2, h3⟩ := C110_best svd hs l (fun e he => (hw e he).le) (by
    cases l with
    | nil => exact absurd rfl hne
    | cons e l => exact ⟨e, List.mem_cons_self .., hw e (List.mem_cons_self ..)⟩)
  refine ⟨R, t, l', h1, h2, fun e he i => ?_⟩
  have h0 : pointCost l R₀ t₀ = 0 := by
    unfold pointCost
    apply List.sum_eq_zero
    intro x hx
    obtain ⟨e, he, rfl⟩ := List.mem_map.1 hx
    rw [Finset.sum_eq_zero, mul_zero]
    intro i _
    rw [hq e he i, sub_self]
    ring
  have h4 := h3 R₀ t₀ hR₀
  rw [h0] at h4
  have hnn : ∀ x ∈ l.map (fun e => e.w * ∑ i, ((R *ᵥ e.p) i + t i - e.q i) ^ 2), 0 ≤ x := by
    intro x hx
    obtain ⟨e, he, rfl⟩ := List.mem_map.1 hx
    exact mul_nonneg (hw e he).le (Finset.sum_nonneg fun i _ => sq_nonneg _)
  have h5 := List.single_le_sum hnn _ (List.mem_map.2 ⟨e, he, rfl⟩)
  have h6 : e.w * ∑ i, ((R *ᵥ e.p) i + t i - e.q i) ^ 2 ≤ 0 := le_trans h5 h4
  have h7 : ∑ i, ((R *ᵥ e.p) i + t i - e.q i) ^ 2 = 0 := by
    have hge : 0 ≤ ∑ i, ((R *ᵥ e.p) i + t i - e.q i) ^ 2 := Finset.sum_nonneg fun i _ => sq_nonneg _
    by_contra hne'
    have : 0 < ∑ i, ((R *ᵥ e.p) i + t i - e.q i) ^ 2 := lt_of_le_of_ne hge (Ne.symm hne')
    have := mul_pos (hw e he) this
    linarith
  have h8 := (Finset.sum_eq_zero_iff_of_nonneg fun i _ => sq_nonneg _).1 h7 i (Finset.mem_univ i)
  have := pow_eq_zero_iff (two_ne_zero) |>.1 h8
  linarith

/-- C110: without weight there is no result. -/
theorem C110_weightless (svd : Mat3 → Mat3 × Mat3) (l : List IcpPair) (hw : ∀ e ∈ l, 0 ≤ e.w) :
    pointToPoint svd l = none ↔ ∀ e ∈ l, e.w = 0 := by
  have hz : (l.map fun e => e.w).sum = 0 ↔ ∀ e ∈ l, e.w = 0 := by
    constructor
    · intro h e he
      have h1 : ∀ x ∈ l.map (fun e => e.w), 0 ≤ x := by
        intro x hx
        obtain ⟨e', he', rfl⟩ := List.mem_map.1 hx
        exact hw e' he'
      have := List.single_le_sum h1 _ (List.mem_map.2 ⟨e, he, rfl⟩)
      exact le_antisymm (h ▸ this) (hw e he)
    · intro h
      apply List.sum_eq_zero
      intro x hx
      obtain ⟨e, he, rfl⟩ := List.mem_map.1 hx
      exact h e he
  rw [← hz]
  unfold pointToPoint
  split
  · rename_i h; simp [h]
  · rename_i h; simp [h]

/-- The assumption on the decomposition can be met. -/
example : ∃ svd, SvdOk svd := exists_svdOk

/-- Two points a quarter turn apart. -/
example : ∃ (l : List IcpPair) (R₀ : Mat3), IsRot3 R₀ ∧ R₀ ≠ 1 ∧ l.length = 2 ∧ (∀ e ∈ l, 0 < e.w) ∧
    ∀ e ∈ l, ∀ i, e.q i = (R₀ *ᵥ e.p) i + (![1, 2, 3] : Fin 3 → ℝ) i := by
  refine ⟨[⟨![1, 0, 0], ![1, 3, 3], ![0, 0, 1], 1, 1⟩, ⟨![0, 1, 0], ![0, 2, 3], ![0, 0, 1], 2, 1⟩], !![0, -1, 0; 1, 0, 0; 0, 0, 1], ?_, ?_, rfl, by simp, ?_⟩
  · refine ⟨?_, by rw [det_fin_three]; simp⟩
    ext i j
    fin_cases i <;> fin_cases j <;> simp [mul_apply, Fin.sum_univ_three]
  · intro h
    have := congrFun (congrFun h 0) 0
    simp at this
  · intro e he i
    rcases List.mem_cons.1 he with rfl | he
    · fin_cases i <;> simp [mulVec, dotProduct, Fin.sum_univ_three] <;> norm_num
    · rw [List.mem_singleton] at he
      subst he
      fin_cases i <;> simp [mulVec, dotProduct, Fin.sum_univ_three] <;> norm_num

/-- C110, full claim false: that the clouds are left as they were.  They come back with their means taken off. -/
theorem C110_inputs_fails (svd : Mat3 → Mat3 × Mat3) : ∃ (l : List IcpPair) (T : Mat3 × (Fin 3 → ℝ)) (l' : List IcpPair),
    pointToPoint svd l = some (T, l') ∧ l' ≠ l := by
  have h1 : ([(⟨![1, 0, 0], ![1, 0, 0], ![0, 0, 1], 1, 1⟩ : IcpPair)].map fun e => e.w).sum ≠ 0 := by simp
  refine ⟨[⟨![1, 0, 0], ![1, 0, 0], ![0, 0, 1], 1, 1⟩], _, _, by unfold pointToPoint; rw [if_neg h1], ?_⟩
  intro h
  have := congrArg (fun l : List IcpPair => l.map fun e => e.p 0) h
  simp [centred, weightedMean] at this

/-- C110: what is left behind: both clouds about their means. -/
theorem C110_centred (svd : Mat3 → Mat3 × Mat3) (l : List IcpPair) (T : Mat3 × (Fin 3 → ℝ)) (l' : List IcpPair)
    (h : pointToPoint svd l = some (T, l')) :
    l'.map (fun e => e.w) = l.map (fun e => e.w) ∧
      (∀ i, (l'.map fun e => e.w * e.p i).sum = 0) ∧ (∀ i, (l'.map fun e => e.w * e.q i).sum = 0) ∧
      ∃ mp mq : Fin 3 → ℝ, l'.map (fun e => e.p) = l.map (fun e i => e.p i - mp i) ∧ l'.map (fun e => e.q) = l.map (fun e i => e.q i - mq i) := by
  unfold pointToPoint at h
  split at h
  · cases h
  · rename_i h0
    simp only [Option.some.injEq, Prod.mk.injEq] at h
    obtain ⟨_, rfl⟩ := h
    refine ⟨?_, fun i => ?_, fun i => ?_, weightedMean l IcpPair.p (1 / (l.map fun e => e.w).sum),
      weightedMean l IcpPair.q (1 / (l.map fun e => e.w).sum), ?_, ?_⟩
    · simp [centred, Function.comp_def]
    · have := mean_zero l IcpPair.p h0 i
      simpa [centred, Function.comp_def] using this
    · have := mean_zero l IcpPair.q h0 i
      simpa [centred, Function.comp_def] using this
    · simp [centred, Function.comp_def]
    · simp [centred, Function.comp_def]

end Verif
