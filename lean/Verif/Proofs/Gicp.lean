import Verif.Spec.Gicp
import Verif.Props.Euler
import Verif.Props.NdtDeriv
import Mathlib.LinearAlgebra.Matrix.PosDef
/-! Proofs for C76. -/
namespace Verif
open Spec

theorem gicpRot_eq (x : GicpVec) : gicpRot x = rotZ (x 5) * rotY (x 4) * rotX (x 3) := by
  unfold gicpRot rotX rotY rotZ
  ext i j
  fin_cases i <;> fin_cases j <;> simp [Matrix.mul_apply, Fin.sum_univ_three] <;> ring

theorem gicpAct_eq (base : GicpMat) (x : GicpVec) (p : Fin 3 → ℝ) : (applyState base x).act p = gicpPlace base x p := by
  funext k
  simp only [GicpMat.act, applyState, gicpPlace, gicpRot_eq, Matrix.mulVec_mulVec]
  ring

theorem threads_sum {α β : Type} [AddCommMonoid β] {n : Nat} (f : α → β) (schedule : List (Fin n × α)) (acc : Fin n → β) :
    (List.ofFn (schedule.foldl (fun (acc : Fin n → β) e => Function.update acc e.1 (acc e.1 + f e.2)) acc)).sum =
    (List.ofFn acc).sum + (schedule.map (fun e => f e.2)).sum := by
  induction schedule generalizing acc with
  | nil => simp
  | cons e rest ih =>
    rw [List.foldl_cons, ih, List.map_cons, List.sum_cons, ← add_assoc]
    congr 1
    rw [List.sum_ofFn, List.sum_ofFn]
    have : ∀ i, Function.update acc e.1 (acc e.1 + f e.2) i = acc i + Function.update (0 : Fin n → β) e.1 (f e.2) i := by
      intro i
      by_cases h : i = e.1
      · subst h; simp
      · simp [Function.update_of_ne h]
    simp only [this]
    rw [Finset.sum_add_distrib]
    congr 1
    rw [Finset.sum_update_of_mem (Finset.mem_univ _)]
    simp

theorem gicpThreads_eq (n : Nat) (base : GicpMat) (x : GicpVec) (schedule : List (Fin n × GicpPair)) (l : List GicpPair)
    (h : (schedule.map (·.2)).Perm l) : gicpThreads n base x schedule = (l.map (gicpTerm base x)).sum := by
  unfold gicpThreads
  dsimp only
  rw [threads_sum]
  have e : (List.ofFn (fun _ : Fin n => (0 : GicpSums))).sum = 0 := by
    rw [List.sum_ofFn]; simp
  rw [e, zero_add, ← (h.map (gicpTerm base x)).sum_eq, List.map_map]
  rfl

theorem fold_add {α β : Type} [AddCommMonoid β] (f : α → β) (l : List α) (acc : β) :
    l.foldl (fun acc c => acc + f c) acc = acc + (l.map f).sum := by
  induction l generalizing acc with
  | nil => simp
  | cons a l ih => simp [ih, add_assoc]

theorem gsum_fst (l : List GicpSums) : l.sum.1 = (l.map (·.1)).sum := by
  induction l with
  | nil => rfl
  | cons a l ih => simp [ih]

theorem gsum_g (l : List GicpSums) (k : Fin 3) : l.sum.2.1 k = (l.map (fun e => e.2.1 k)).sum := by
  induction l with
  | nil => rfl
  | cons a l ih => simp [ih]

theorem gsum_r (l : List GicpSums) (i j : Fin 3) : l.sum.2.2 i j = (l.map (fun e => e.2.2 i j)).sum := by
  induction l with
  | nil => rfl
  | cons a l ih => simp [ih]

/-- The derivative of the place of a point by parameter `i`, the turned point being `q`. -/
noncomputable def gicpGrad (x : GicpVec) (q : Fin 3 → ℝ) (i : Fin 6) : Fin 3 → ℝ :=
  (![![1, 0, 0], ![0, 1, 0], ![0, 0, 1], (dRdPhi x).mulVec q, (dRdTheta x).mulVec q, (dRdPsi x).mulVec q] :
    Fin 6 → Fin 3 → ℝ) i

theorem gicpPlace_deriv (base : GicpMat) (x : GicpVec) (p : Fin 3 → ℝ) (i : Fin 6) (k : Fin 3) :
    HasDerivAt (fun t => gicpPlace base (Function.update x i t) p k) (gicpGrad x (base.rot.mulVec p) i k) (x i) := by
  have e : ∀ y : GicpVec, gicpPlace base y p k =
      (gicpRot y).mulVec (base.rot.mulVec p) k + base.shift k + ![y 0, y 1, y 2] k := by
    intro y
    rw [gicpRot_eq]
    rfl
  simp only [e]
  generalize base.rot.mulVec p = q
  fin_cases i <;> fin_cases k <;>
    simp [gicpRot, gicpGrad, dRdPhi, dRdTheta, dRdPsi, Function.update, Matrix.mulVec, dotProduct, Fin.sum_univ_three] <;>
    trig_deriv

theorem gicpTerm_f (base : GicpMat) (x : GicpVec) (c : GicpPair) :
    (gicpTerm base x c).1 = mahalanobis c.maha (fun k => gicpPlace base x c.src k - c.tgt k) := by
  unfold gicpTerm gicpTemp gicpRes mahalanobis
  simp only [gicpAct_eq, dotProduct, Matrix.mulVec, Fin.sum_univ_three]
  ring

theorem metric_symm (m : Mat3) (h : m.transpose = m) (i j : Fin 3) : m i j = m j i := by
  have := congrFun (congrFun h j) i
  simpa using this

/-- The derivative of the cost of a list of pairs. -/
theorem gicpCost_deriv (base : GicpMat) (pairs : List GicpPair) (hs : ∀ c ∈ pairs, c.maha.transpose = c.maha)
    (x : GicpVec) (i : Fin 6) :
    Partial (gicpCost base pairs) i x
      ((pairs.map fun c => 2 * dot3 (fun k => gicpPlace base x c.src k - c.tgt k)
        (matCol c.maha (gicpGrad x (base.rot.mulVec c.src) i))).sum / pairs.length) := by
  unfold Partial gicpCost
  apply HasDerivAt.div_const
  apply list_deriv
  intro c hc
  have h := mahalanobis_deriv c.maha (metric_symm _ (hs c hc))
    (fun t => fun k => gicpPlace base (Function.update x i t) c.src k - c.tgt k) (gicpGrad x (base.rot.mulVec c.src) i) (x i)
    (fun k => (gicpPlace_deriv base x c.src i k).sub_const (c.tgt k))
  rw [Function.update_eq_self] at h
  exact h

theorem sum_mul_right' {α : Type} (l : List α) (f : α → ℝ) (a : ℝ) : (l.map f).sum * a = (l.map fun e => f e * a).sum := by
  induction l with
  | nil => simp
  | cons b l ih => simp [add_mul, ih]

theorem innerProd_sum {α : Type} (a : Mat3) (l : List α) (r : α → Mat3) (s : ℝ) :
    innerProd a (fun i j => (l.map fun c => r c i j).sum * s) = (l.map fun c => innerProd a (r c) * s).sum := by
  induction l with
  | nil => simp [innerProd]
  | cons c l ih =>
    rw [List.map_cons, List.sum_cons, ← ih]
    unfold innerProd
    simp only [Fin.sum_univ_three, List.map_cons, List.sum_cons]
    ring

theorem quad_dot (m : Mat3) (y : Fin 3 → ℝ) : mahalanobis m y = dotProduct y (m.mulVec y) := by
  unfold mahalanobis dotProduct Matrix.mulVec dotProduct
  simp only [Fin.sum_univ_three]
  ring

/-- The regularised covariance is a metric. -/
theorem gicpCov_metric (eps : ℝ) (h0 : 0 < eps) (u : Mat3) (hu : u.transpose * u = 1) : IsMetric (gicpCov eps u) := by
  constructor
  · ext i j
    simp only [gicpCov, Matrix.transpose_apply]
    ring
  · intro y hy
    have e : mahalanobis (gicpCov eps u) y =
        (u.transpose.mulVec y 0) ^ 2 + (u.transpose.mulVec y 1) ^ 2 + eps * (u.transpose.mulVec y 2) ^ 2 := by
      unfold mahalanobis gicpCov Matrix.mulVec dotProduct
      simp only [Fin.sum_univ_three, Matrix.transpose_apply]
      ring
    have hne : u.transpose.mulVec y ≠ 0 := by
      intro h
      apply hy
      have : (u * u.transpose).mulVec y = 0 := by rw [← Matrix.mulVec_mulVec, h, Matrix.mulVec_zero]
      rwa [mul_eq_one_comm.mp hu, Matrix.one_mulVec] at this
    rw [e]
    generalize u.transpose.mulVec y = a at hne
    by_contra hc
    apply hne
    have h1 := sq_nonneg (a 0)
    have h2 := sq_nonneg (a 1)
    have h3 : 0 ≤ eps * a 2 ^ 2 := mul_nonneg (le_of_lt h0) (sq_nonneg _)
    have z0 : a 0 ^ 2 = 0 := by linarith
    have z1 : a 1 ^ 2 = 0 := by linarith
    have z2 : eps * a 2 ^ 2 = 0 := by linarith
    have z3 : a 2 ^ 2 = 0 := by
      rcases mul_eq_zero.mp z2 with h | h
      · exact absurd h (ne_of_gt h0)
      · exact h
    funext k
    fin_cases k
    · exact pow_eq_zero_iff (two_ne_zero) |>.mp z0
    · exact pow_eq_zero_iff (two_ne_zero) |>.mp z1
    · exact pow_eq_zero_iff (two_ne_zero) |>.mp z3

/-- The sum of a turned metric and a metric is a metric (whatever the matrix that turns). -/
theorem metric_sum (r c1 c2 : Mat3) (h1 : IsMetric c1) (h2 : IsMetric c2) : IsMetric (r * c1 * r.transpose + c2) := by
  constructor
  · rw [Matrix.transpose_add, Matrix.transpose_mul, Matrix.transpose_mul, Matrix.transpose_transpose, h1.1, h2.1,
      Matrix.mul_assoc]
  · intro y hy
    have e : mahalanobis (r * c1 * r.transpose + c2) y = mahalanobis c1 (r.transpose.mulVec y) + mahalanobis c2 y := by
      unfold mahalanobis Matrix.mulVec dotProduct
      simp only [Fin.sum_univ_three, Matrix.add_apply, Matrix.transpose_apply, Matrix.mul_apply]
      ring
    rw [e]
    have p2 := h2.2 y hy
    have p1 : 0 ≤ mahalanobis c1 (r.transpose.mulVec y) := by
      by_cases hz : r.transpose.mulVec y = 0
      · rw [hz]; simp [mahalanobis]
      · exact le_of_lt (h1.2 _ hz)
    linarith

/-- A metric can be inverted and its inverse is a metric. -/
theorem metric_inv (s : Mat3) (h : IsMetric s) : s * s⁻¹ = 1 ∧ IsMetric s⁻¹ := by
  have hd : s.det ≠ 0 := by
    intro hz
    obtain ⟨v, hv, hv0⟩ := Matrix.exists_mulVec_eq_zero_iff.mpr hz
    have := h.2 v hv
    rw [quad_dot, hv0, dotProduct_zero] at this
    exact lt_irrefl _ this
  have hu : IsUnit s.det := isUnit_iff_ne_zero.mpr hd
  have hm := Matrix.mul_nonsing_inv s hu
  refine ⟨hm, ?_, ?_⟩
  · rw [Matrix.transpose_nonsing_inv, h.1]
  · intro y hy
    have hne : s⁻¹.mulVec y ≠ 0 := by
      intro hz
      apply hy
      have : (s * s⁻¹).mulVec y = 0 := by rw [← Matrix.mulVec_mulVec, hz, Matrix.mulVec_zero]
      rwa [hm, Matrix.one_mulVec] at this
    have := h.2 _ hne
    rw [quad_dot, Matrix.mulVec_mulVec, hm, Matrix.one_mulVec, dotProduct_comm] at this
    rwa [quad_dot]

end Verif
