import Mathlib.LinearAlgebra.Matrix.Adjugate
import Mathlib.LinearAlgebra.Matrix.NonsingularInverse
import Mathlib.LinearAlgebra.Matrix.DotProduct
import Mathlib.Tactic.LinearCombination
import Mathlib.Tactic.Linarith
import Verif.Spec.GpsInit
/-! Lemmas for `Verif.Props.GpsInit`. -/
namespace Verif
open Spec

theorem mulVec_xNorm (r : Matrix (Fin 3) (Fin 3) ℝ) : r.mulVec xNorm = fun i => r i 0 := by
  funext i
  simp [Matrix.mulVec, dotProduct, xNorm, Fin.sum_univ_three]

theorem heading_unit (r : Matrix (Fin 3) (Fin 3) ℝ) (h : IsTurn3 r) :
    r 0 0 * r 0 0 + r 1 0 * r 1 0 + r 2 0 * r 2 0 = 1 := by
  have := congrFun (congrFun h.1 0) 0
  simpa [Matrix.mul_apply, Fin.sum_univ_three] using this

theorem heading_norm (r : Matrix (Fin 3) (Fin 3) ℝ) (h : IsTurn3 r) : ‖heading r‖ = 1 := by
  rw [EuclideanSpace.norm_eq]
  have := heading_unit r h
  simp only [heading, Real.norm_eq_abs, sq_abs, Fin.sum_univ_three]
  rw [show r 0 0 ^ 2 + r 1 0 ^ 2 + r 2 0 ^ 2 = 1 by linarith [this], Real.sqrt_one]

theorem headingChange_eq (a b : Matrix (Fin 3) (Fin 3) ℝ) (ha : IsTurn3 a) (hb : IsTurn3 b) :
    headingChange a b = Real.arccos (dotProduct (a.mulVec xNorm) (b.mulVec xNorm)) := by
  unfold headingChange InnerProductGeometry.angle
  rw [heading_norm a ha, heading_norm b hb, mulVec_xNorm, mulVec_xNorm]
  congr 1
  simp [heading, PiLp.inner_apply, dotProduct, Fin.sum_univ_three]
  ring

theorem turnOf_rotation (a b : Matrix (Fin 3) (Fin 3) ℝ) (ha : IsTurn3 a) (hb : IsTurn3 b) :
    turnOf (a.mulVec xNorm) (b.mulVec xNorm) = some (headingChange a b) := by
  have h1 := heading_unit a ha
  have h2 := heading_unit b hb
  have hd : -1 ≤ dotProduct (a.mulVec xNorm) (b.mulVec xNorm) ∧
      dotProduct (a.mulVec xNorm) (b.mulVec xNorm) ≤ 1 := by
    rw [mulVec_xNorm, mulVec_xNorm]
    simp only [dotProduct, Fin.sum_univ_three]
    constructor
    · nlinarith [sq_nonneg (a 0 0 + b 0 0), sq_nonneg (a 1 0 + b 1 0), sq_nonneg (a 2 0 + b 2 0)]
    · nlinarith [sq_nonneg (a 0 0 - b 0 0), sq_nonneg (a 1 0 - b 1 0), sq_nonneg (a 2 0 - b 2 0)]
  rw [headingChange_eq a b ha hb]
  simp only [turnOf]
  rw [if_pos hd, abs_of_nonneg (Real.arccos_nonneg _)]

theorem turnsOf_rotations (a : Matrix (Fin 3) (Fin 3) ℝ) (ha : IsTurn3 a)
    (rs : List (Matrix (Fin 3) (Fin 3) ℝ)) (h : ∀ r ∈ rs, IsTurn3 r) :
    turnsOf (a.mulVec xNorm) rs = some (rs.map (headingChange a)) := by
  induction rs with
  | nil => rfl
  | cons r rs ih =>
    simp only [turnsOf]
    rw [turnOf_rotation a r ha (h r (by simp)), ih fun r' hr' => h r' (by simp [hr'])]
    rfl

/-- The last of a sorted list is its greatest element. -/
theorem insertionSort_last (l : List ℝ) (hl : l ≠ []) :
    ∃ m, (l.insertionSort (· ≤ ·)).getLast? = some m ∧ m ∈ l ∧ ∀ x ∈ l, x ≤ m := by
  have hp := List.perm_insertionSort (· ≤ ·) l
  have hs : (l.insertionSort (· ≤ ·)).Pairwise (· ≤ ·) := List.pairwise_insertionSort (· ≤ ·) l
  have hne : l.insertionSort (· ≤ ·) ≠ [] := by
    intro h
    rw [h] at hp
    exact hl (List.Perm.eq_nil hp.symm)
  generalize l.insertionSort (· ≤ ·) = s at hp hs hne
  refine ⟨s.getLast hne, List.getLast?_eq_some_getLast hne, ?_, ?_⟩
  · exact hp.subset (List.getLast_mem hne)
  · intro x hx
    have hx' : x ∈ s := hp.symm.subset hx
    rw [← List.dropLast_append_getLast hne] at hs hx'
    rw [List.pairwise_append] at hs
    rcases List.mem_append.mp hx' with h | h
    · exact hs.2.2 x h _ (by simp)
    · simp only [List.mem_singleton] at h
      exact le_of_eq h

theorem headingChange_self (a : Matrix (Fin 3) (Fin 3) ℝ) (ha : IsTurn3 a) :
    headingChange a a = 0 := by
  unfold headingChange
  apply InnerProductGeometry.angle_self
  intro h
  have := heading_norm a ha
  rw [h, norm_zero] at this
  exact zero_ne_one this

theorem maxTurn_spec (r0 : Matrix (Fin 3) (Fin 3) ℝ) (rs : List (Matrix (Fin 3) (Fin 3) ℝ))
    (h : ∀ r ∈ r0 :: rs, IsTurn3 r) :
    ∃ m, maxTurn (r0 :: rs) = .ok m ∧ (∃ r ∈ r0 :: rs, headingChange r0 r = m) ∧
      ∀ r ∈ r0 :: rs, headingChange r0 r ≤ m := by
  have h0 := h r0 (by simp)
  cases rs with
  | nil =>
    refine ⟨0, rfl, ⟨r0, by simp, headingChange_self r0 h0⟩, ?_⟩
    intro r hr
    simp only [List.mem_singleton] at hr
    rw [hr, headingChange_self r0 h0]
  | cons r1 rs =>
    obtain ⟨m, hm, hin, hge⟩ := insertionSort_last ((r0 :: r1 :: rs).map (headingChange r0)) (by simp)
    refine ⟨m, ?_, ?_, ?_⟩
    · simp only [maxTurn]
      rw [turnsOf_rotations r0 h0 _ h]
      simp only [hm]
    · obtain ⟨r, hr, e⟩ := List.mem_map.mp hin
      exact ⟨r, hr, e⟩
    · intro r hr
      exact hge _ (List.mem_map.mpr ⟨r, hr, rfl⟩)

/-- A linear map carries a cross product by its cofactors. -/
theorem cross_mulVec (m : Matrix (Fin 3) (Fin 3) ℝ) (u v : Fin 3 → ℝ) :
    crossProduct (m.mulVec u) (m.mulVec v) = m.adjugate.transpose.mulVec (crossProduct u v) := by
  rw [Matrix.adjugate_fin_three]
  funext i
  fin_cases i <;>
    simp [cross_apply, Matrix.mulVec, dotProduct, Fin.sum_univ_three] <;> ring

theorem rotation_inv (r : Matrix (Fin 3) (Fin 3) ℝ) (h : IsTurn3 r) : r.adjugate = r.transpose := by
  have h1 : r.adjugate * r = 1 := by rw [Matrix.adjugate_mul, h.2, one_smul]
  have h2 : r * r.transpose = 1 := mul_eq_one_comm.mp h.1
  calc r.adjugate = r.adjugate * (r * r.transpose) := by rw [h2, mul_one]
    _ = (r.adjugate * r) * r.transpose := by rw [mul_assoc]
    _ = r.transpose := by rw [h1, one_mul]

theorem cross_rotation (r : Matrix (Fin 3) (Fin 3) ℝ) (h : IsTurn3 r) (u v : Fin 3 → ℝ) :
    crossProduct (r.mulVec u) (r.mulVec v) = r.mulVec (crossProduct u v) := by
  rw [cross_mulVec, rotation_inv r h, Matrix.transpose_transpose]

/-- The matrix with the columns u, v and u × v. -/
def frameOf (u v : Fin 3 → ℝ) : Matrix (Fin 3) (Fin 3) ℝ :=
  Matrix.of fun i j => if j = 0 then u i else if j = 1 then v i else crossProduct u v i

theorem frameOf_det (u v : Fin 3 → ℝ) (h : crossProduct u v ≠ 0) : (frameOf u v).det ≠ 0 := by
  have hd : (frameOf u v).det = dotProduct (crossProduct u v) (crossProduct u v) := by
    rw [Matrix.det_fin_three]
    simp [frameOf, dotProduct, Fin.sum_univ_three, cross_apply]
    ring
  rw [hd]
  intro h0
  exact h (dotProduct_self_eq_zero.mp h0)

theorem rotation_unique (a b : Matrix (Fin 3) (Fin 3) ℝ) (ha : IsTurn3 a) (hb : IsTurn3 b)
    (u v : Fin 3 → ℝ) (h : crossProduct u v ≠ 0) (hu : a.mulVec u = b.mulVec u)
    (hv : a.mulVec v = b.mulVec v) : a = b := by
  have hw : a.mulVec (crossProduct u v) = b.mulVec (crossProduct u v) := by
    rw [← cross_rotation a ha, ← cross_rotation b hb, hu, hv]
  have hm : a * frameOf u v = b * frameOf u v := by
    ext i j
    have e1 := congrFun hu i
    have e2 := congrFun hv i
    have e3 := congrFun hw i
    simp only [Matrix.mulVec, dotProduct] at e1 e2 e3
    fin_cases j
    · simpa [Matrix.mul_apply, frameOf] using e1
    · simpa [Matrix.mul_apply, frameOf] using e2
    · simpa [Matrix.mul_apply, frameOf] using e3
  have hu' : IsUnit (frameOf u v).det := isUnit_iff_ne_zero.mpr (frameOf_det u v h)
  calc a = a * (frameOf u v * (frameOf u v)⁻¹) := by rw [Matrix.mul_nonsing_inv _ hu', mul_one]
    _ = b * (frameOf u v * (frameOf u v)⁻¹) := by rw [← mul_assoc, hm, mul_assoc]
    _ = b := by rw [Matrix.mul_nonsing_inv _ hu', mul_one]

theorem antennaAt_eq (coord pose : Rigid ℝ) (lever : Fin 3 → ℝ) :
    antennaAt coord pose lever = fun i => (coord.rot.mulVec (antenna pose lever)) i + coord.trans i := by
  funext i
  simp only [antennaAt, Rigid.mul, ← Matrix.mulVec_mulVec, antenna]
  simp only [Matrix.mulVec, dotProduct, Fin.sum_univ_three, antenna]
  ring

end Verif
