import Verif.Proofs.NdtDeriv
import Mathlib.Analysis.Convex.SpecificFunctions.Basic
import Mathlib.Analysis.Real.Pi.Bounds
/-! Property theorems C66: the derivatives of the normal distributions transform. -/
namespace Verif
open Spec

/-- C66, threads: the result is the sum over all points, whatever the number of threads, the division
of the points among them and the order. -/
theorem C66_threads (d1 d2 : ℝ) (n : Nat) (p : NdtPose) (schedule : List (Fin n × NdtItem)) (items : List NdtItem)
    (h : (schedule.map (·.2)).Perm items) :
    computeDerivatives d1 d2 n p schedule = (items.map (itemSum d1 d2 p)).sum := by
  unfold computeDerivatives
  rw [fold_threads]
  have e : (List.ofFn (fun _ : Fin n => (0 : NdtSum))).sum = 0 := by
    rw [List.sum_ofFn]; simp
  rw [e, zero_add, ← (h.map (itemSum d1 d2 p)).sum_eq, List.map_map]
  rfl

/-! ### one point and one cell -/

theorem quad_eq (C : Fin 3 → Fin 3 → ℝ) (y : Fin 3 → ℝ) : dot3 y (rowMat y C) = mahalanobis C y := by
  unfold dot3 rowMat mahalanobis
  simp only [Fin.sum_univ_three]
  ring

theorem transform_eq (p : NdtPose) (x : Fin 3 → ℝ) : ndtTransform p x = movePoint p x := by
  funext k
  unfold ndtTransform movePoint rotX rotY rotZ
  fin_cases k <;> simp [Matrix.mulVec, dotProduct, Matrix.mul_apply, Fin.sum_univ_three] <;> ring

theorem mahalanobis_deriv (C : Fin 3 → Fin 3 → ℝ) (hC : ∀ i j, C i j = C j i) (y : ℝ → Fin 3 → ℝ) (y' : Fin 3 → ℝ) (t : ℝ)
    (hy : ∀ k, HasDerivAt (fun t => y t k) (y' k) t) :
    HasDerivAt (fun t => mahalanobis C (y t)) (2 * dot3 (y t) (matCol C y')) t := by
  unfold mahalanobis
  simp only [Fin.sum_univ_three]
  apply HasDerivAt.congr_deriv
  case h =>
    repeat first
      | exact hasDerivAt_const _ _
      | exact hy _
      | apply HasDerivAt.fun_add
      | apply HasDerivAt.fun_mul
  case h' =>
    unfold dot3 matCol
    rw [hC 1 0, hC 2 0, hC 2 1]
    ring

/-- The exponential factor. -/
noncomputable def gaussFactor (d1 d2 : ℝ) (C : Fin 3 → Fin 3 → ℝ) (y : Fin 3 → ℝ) : ℝ :=
  d2 * Real.exp (-(d2 / 2) * mahalanobis C y) * d1

theorem exp_deriv (d2 : ℝ) (C : Fin 3 → Fin 3 → ℝ) (hC : ∀ i j, C i j = C j i) (y : ℝ → Fin 3 → ℝ) (y' : Fin 3 → ℝ) (t : ℝ)
    (hy : ∀ k, HasDerivAt (fun t => y t k) (y' k) t) :
    HasDerivAt (fun t => Real.exp (-(d2 / 2) * mahalanobis C (y t)))
      (Real.exp (-(d2 / 2) * mahalanobis C (y t)) * (-d2 * dot3 (y t) (matCol C y'))) t := by
  have h1 := ((mahalanobis_deriv C hC y y' t hy).const_mul (-(d2 / 2))).exp
  refine h1.congr_deriv ?_
  ring

theorem pair_score_deriv (d1 d2 : ℝ) (C : Fin 3 → Fin 3 → ℝ) (hC : ∀ i j, C i j = C j i) (y : ℝ → Fin 3 → ℝ)
    (y' : Fin 3 → ℝ) (t : ℝ) (hy : ∀ k, HasDerivAt (fun t => y t k) (y' k) t) :
    HasDerivAt (fun t => -d1 * Real.exp (-(d2 / 2) * mahalanobis C (y t)))
      (gaussFactor d1 d2 C (y t) * dot3 (y t) (matCol C y')) t := by
  refine ((exp_deriv d2 C hC y y' t hy).const_mul (-d1)).congr_deriv ?_
  unfold gaussFactor
  ring

theorem pair_gradient_deriv (d1 d2 : ℝ) (C : Fin 3 → Fin 3 → ℝ) (hC : ∀ i j, C i j = C j i) (y G : ℝ → Fin 3 → ℝ)
    (y' G' : Fin 3 → ℝ) (t : ℝ) (hy : ∀ k, HasDerivAt (fun t => y t k) (y' k) t)
    (hG : ∀ k, HasDerivAt (fun t => G t k) (G' k) t) :
    HasDerivAt (fun t => gaussFactor d1 d2 C (y t) * dot3 (y t) (matCol C (G t)))
      (gaussFactor d1 d2 C (y t) * (-d2 * dot3 (y t) (matCol C (G t)) * dot3 (y t) (matCol C y') +
        dot3 (rowMat (y t) C) G' + dot3 y' (matCol C (G t)))) t := by
  have h1 : HasDerivAt (fun t => dot3 (y t) (matCol C (G t))) (dot3 (rowMat (y t) C) G' + dot3 y' (matCol C (G t))) t := by
    unfold dot3 matCol rowMat
    apply HasDerivAt.congr_deriv
    case h =>
      repeat first
        | exact hasDerivAt_const _ _
        | exact hy _
        | exact hG _
        | apply HasDerivAt.fun_add
        | apply HasDerivAt.fun_mul
    case h' => ring
  have h2 := ((exp_deriv d2 C hC y y' t hy).const_mul d2).mul_const d1
  refine (h2.mul h1).congr_deriv ?_
  unfold gaussFactor
  ring

/-- The contribution of a cell when nothing is out of range. -/
theorem pairSum_eq (d1 d2 : ℝ) (h0 : 0 < d2) (h1 : d2 ≤ 1) (y : Fin 3 → ℝ) (C : Fin 3 → Fin 3 → ℝ)
    (hC : 0 ≤ mahalanobis C y) (G : Fin 6 → Fin 3 → ℝ) (H : Fin 6 → Fin 6 → Fin 3 → ℝ) :
    pairSum d1 d2 y C G H = (-d1 * Real.exp (-(d2 / 2) * mahalanobis C y),
      fun i => gaussFactor d1 d2 C y * dot3 y (matCol C (G i)),
      fun i j => gaussFactor d1 d2 C y * (-d2 * dot3 y (matCol C (G i)) * dot3 y (matCol C (G j)) +
        dot3 (rowMat y C) (H i j) + dot3 (G j) (matCol C (G i)))) := by
  have he : -d2 * dot3 y (rowMat y C) * 0.5 = -(d2 / 2) * mahalanobis C y := by
    rw [quad_eq]; ring
  have hle : Real.exp (-(d2 / 2) * mahalanobis C y) ≤ 1 := by
    rw [Real.exp_le_one_iff]
    have : 0 ≤ d2 / 2 * mahalanobis C y := mul_nonneg (by linarith) hC
    linarith
  have hpos := Real.exp_pos (-(d2 / 2) * mahalanobis C y)
  unfold pairSum
  dsimp only
  rw [he, if_neg]
  · rfl
  · rintro (h | h)
    · have : d2 * Real.exp (-(d2 / 2) * mahalanobis C y) ≤ 1 * 1 := mul_le_mul h1 hle (le_of_lt hpos) zero_le_one
      linarith
    · have : 0 < d2 * Real.exp (-(d2 / 2) * mahalanobis C y) := mul_pos h0 hpos
      linarith

/-! ### sums -/

theorem sum_fst (l : List NdtSum) : l.sum.1 = (l.map (·.1)).sum := by
  induction l with
  | nil => rfl
  | cons a l ih => simp [ih]

theorem sum_grad (l : List NdtSum) (i : Fin 6) : l.sum.2.1 i = (l.map (fun e => e.2.1 i)).sum := by
  induction l with
  | nil => rfl
  | cons a l ih => simp [ih]

theorem sum_hess (l : List NdtSum) (i j : Fin 6) : l.sum.2.2 i j = (l.map (fun e => e.2.2 i j)).sum := by
  induction l with
  | nil => rfl
  | cons a l ih => simp [ih]

theorem list_deriv {α : Type} (l : List α) (f : α → ℝ → ℝ) (f' : α → ℝ) (t : ℝ)
    (h : ∀ a ∈ l, HasDerivAt (f a) (f' a) t) :
    HasDerivAt (fun t => (l.map (fun a => f a t)).sum) (l.map f').sum t := by
  induction l with
  | nil => simpa using hasDerivAt_const t (0 : ℝ)
  | cons a l ih =>
    simp only [List.map_cons, List.sum_cons]
    exact (h a (by simp)).add (ih (fun b hb => h b (by simp [hb])))

/-- The gradient with the true sines and cosines. -/
noncomputable def trueGradient (d1 d2 : ℝ) (items : List NdtItem) (p : NdtPose) (i : Fin 6) : ℝ :=
  (items.map fun it => (it.cells.map fun c =>
    gaussFactor d1 d2 c.icov (fun k => movePoint p it.x k - c.mean k) *
      dot3 (fun k => movePoint p it.x k - c.mean k) (matCol c.icov (pointGradient (trueTrig p) it.x i))).sum).sum

theorem place_deriv (p : NdtPose) (x m : Fin 3 → ℝ) (i : Fin 6) (k : Fin 3) :
    HasDerivAt (fun t => movePoint (Function.update p i t) x k - m k) (pointGradient (trueTrig p) x i k) (p i) := by
  have h := (move_deriv p x i k).sub_const (m k)
  simp only [transform_eq] at h
  exact h

theorem trueGradient_is (d1 d2 : ℝ) (items : List NdtItem) (hc : CellsOk items) (p : NdtPose) (i : Fin 6) :
    Partial (ndtScore d1 d2 items) i p (trueGradient d1 d2 items p i) := by
  unfold Partial ndtScore trueGradient
  apply list_deriv
  intro it hit
  apply list_deriv
  intro c hcc
  have h := pair_score_deriv d1 d2 c.icov (hc it hit c hcc).1
    (fun t => fun k => movePoint (Function.update p i t) it.x k - c.mean k) (pointGradient (trueTrig p) it.x i) (p i)
    (fun k => place_deriv p it.x c.mean i k)
  rw [Function.update_eq_self] at h
  exact h

/-- The second derivative, with what the code leaves out. -/
noncomputable def trueHessian (d1 d2 : ℝ) (items : List NdtItem) (p : NdtPose) (i j : Fin 6) : ℝ :=
  (items.map fun it => (it.cells.map fun c =>
    let y := fun k => movePoint p it.x k - c.mean k
    let G := pointGradient (trueTrig p) it.x
    gaussFactor d1 d2 c.icov y * (-d2 * dot3 y (matCol c.icov (G i)) * dot3 y (matCol c.icov (G j)) +
      dot3 (rowMat y c.icov) (fun k => pointHessian (trueTrig p) it.x i j k + missing p it.x i j k) +
      dot3 (G j) (matCol c.icov (G i)))).sum).sum

theorem trueHessian_is (d1 d2 : ℝ) (items : List NdtItem) (hc : CellsOk items) (p : NdtPose) (i j : Fin 6) :
    Partial (fun p => trueGradient d1 d2 items p i) j p (trueHessian d1 d2 items p i j) := by
  unfold Partial trueGradient trueHessian
  apply list_deriv
  intro it hit
  apply list_deriv
  intro c hcc
  have h := pair_gradient_deriv d1 d2 c.icov (hc it hit c hcc).1
    (fun t => fun k => movePoint (Function.update p j t) it.x k - c.mean k)
    (fun t => pointGradient (trueTrig (Function.update p j t)) it.x i) (pointGradient (trueTrig p) it.x j)
    (fun k => pointHessian (trueTrig p) it.x i j k + missing p it.x i j k) (p j)
    (fun k => place_deriv p it.x c.mean j k) (fun k => gradient_deriv p it.x i j k)
  rw [Function.update_eq_self] at h
  exact h

/-- The result of the code, in one piece. -/
theorem derivatives_eq (d1 d2 : ℝ) (h0 : 0 < d2) (h1 : d2 ≤ 1) (n : Nat) (p : NdtPose) (schedule : List (Fin n × NdtItem))
    (items : List NdtItem) (hs : (schedule.map (·.2)).Perm items) (hc : CellsOk items)
    (hp : ∀ i, 3 ≤ i → Plain (p i)) :
    (computeDerivatives d1 d2 n p schedule).1 = ndtScore d1 d2 items p ∧
    (∀ i, (computeDerivatives d1 d2 n p schedule).2.1 i = trueGradient d1 d2 items p i) ∧
    (∀ i j, (computeDerivatives d1 d2 n p schedule).2.2 i j = (items.map fun it => (it.cells.map fun c =>
      let y := fun k => movePoint p it.x k - c.mean k
      let G := pointGradient (trueTrig p) it.x
      gaussFactor d1 d2 c.icov y * (-d2 * dot3 y (matCol c.icov (G i)) * dot3 y (matCol c.icov (G j)) +
        dot3 (rowMat y c.icov) (pointHessian (trueTrig p) it.x i j) + dot3 (G j) (matCol c.icov (G i)))).sum).sum) := by
  rw [C66_threads d1 d2 n p schedule items hs]
  have hitem : ∀ it ∈ items, itemSum d1 d2 p it = (it.cells.map fun c =>
      let y := fun k => movePoint p it.x k - c.mean k
      let G := pointGradient (trueTrig p) it.x
      ((-d1 * Real.exp (-(d2 / 2) * mahalanobis c.icov y),
        fun i => gaussFactor d1 d2 c.icov y * dot3 y (matCol c.icov (G i)),
        fun i j => gaussFactor d1 d2 c.icov y * (-d2 * dot3 y (matCol c.icov (G i)) * dot3 y (matCol c.icov (G j)) +
          dot3 (rowMat y c.icov) (pointHessian (trueTrig p) it.x i j) + dot3 (G j) (matCol c.icov (G i)))) : NdtSum)).sum := by
    intro it hit
    unfold itemSum
    congr 1
    apply List.map_congr_left
    intro c hcc
    rw [plain_trig p hp, transform_eq]
    exact pairSum_eq d1 d2 h0 h1 _ _ ((hc it hit c hcc).2 _) _ _
  rw [List.map_congr_left hitem]
  refine ⟨?_, ?_, ?_⟩
  · rw [sum_fst, List.map_map]
    unfold ndtScore
    congr 1
    apply List.map_congr_left
    intro it _
    simp only [Function.comp]
    rw [sum_fst, List.map_map]
    rfl
  · intro i
    rw [sum_grad, List.map_map]
    unfold trueGradient
    congr 1
    apply List.map_congr_left
    intro it _
    simp only [Function.comp]
    rw [sum_grad, List.map_map]
    rfl
  · intro i j
    rw [sum_hess, List.map_map]
    congr 1
    apply List.map_congr_left
    intro it _
    simp only [Function.comp]
    rw [sum_hess, List.map_map]
    rfl

/-- C66, score and gradient: with any number of threads and any schedule the code computes the score
of the pose and its partial derivatives. The angles must be zero or at least a ten-thousandth
(`C66_small_fails`). -/
theorem C66_gradient_partial (d1 d2 : ℝ) (h0 : 0 < d2) (h1 : d2 ≤ 1) (n : Nat) (p : NdtPose)
    (schedule : List (Fin n × NdtItem)) (items : List NdtItem) (hs : (schedule.map (·.2)).Perm items)
    (hc : CellsOk items) (hp : ∀ i, 3 ≤ i → Plain (p i)) :
    (computeDerivatives d1 d2 n p schedule).1 = ndtScore d1 d2 items p ∧
    ∀ i, Partial (ndtScore d1 d2 items) i p ((computeDerivatives d1 d2 n p schedule).2.1 i) := by
  obtain ⟨e1, e2, _⟩ := derivatives_eq d1 d2 h0 h1 n p schedule items hs hc hp
  refine ⟨e1, fun i => ?_⟩
  rw [e2]
  exact trueGradient_is d1 d2 items hc p i

/-- C66, Hessian: every entry except the one for the angle about y, twice, is the second partial
derivative of the score (`C66_hessian_fails`). -/
theorem C66_hessian_partial (d1 d2 : ℝ) (h0 : 0 < d2) (h1 : d2 ≤ 1) (n : Nat) (p : NdtPose)
    (schedule : List (Fin n × NdtItem)) (items : List NdtItem) (hs : (schedule.map (·.2)).Perm items)
    (hc : CellsOk items) (hp : ∀ i, 3 ≤ i → Plain (p i)) (G : (Fin 6 → ℝ) → Fin 6 → ℝ)
    (hG : ∀ p i, Partial (ndtScore d1 d2 items) i p (G p i)) (i j : Fin 6) (hij : ¬ (i = 4 ∧ j = 4)) :
    Partial (fun p => G p i) j p ((computeDerivatives d1 d2 n p schedule).2.2 i j) := by
  have hGe : G = trueGradient d1 d2 items := by
    funext q k
    exact (hG q k).unique (trueGradient_is d1 d2 items hc q k)
  obtain ⟨_, _, e3⟩ := derivatives_eq d1 d2 h0 h1 n p schedule items hs hc hp
  rw [hGe, e3]
  have h := trueHessian_is d1 d2 items hc p i j
  unfold trueHessian at h
  have hm : ∀ x, missing p x i j = 0 := by
    intro x
    unfold missing
    rw [if_neg hij]
  simp only [hm, Pi.zero_apply, add_zero] at h
  exact h

/-! ### the constants -/

/-- C66: the two constants of the score are in the range that the derivatives need. -/
theorem C66_constants (outlier resolution : ℝ) (ho : 0 < outlier ∧ outlier < 1) (hr : 0 < resolution) :
    gaussD1 outlier resolution < 0 ∧ 0 < gaussD2 outlier resolution ∧ gaussD2 outlier resolution ≤ 1 := by
  have hc2 : 0 < gaussC2 outlier resolution := div_pos ho.1 (pow_pos hr 3)
  have hc1 : 0 < gaussC1 outlier := by unfold gaussC1; linarith [ho.2]
  obtain ⟨k, hk⟩ : ∃ k, k = gaussC1 outlier / gaussC2 outlier resolution := ⟨_, rfl⟩
  have hkpos : 0 < k := by rw [hk]; exact div_pos hc1 hc2
  have hlog : ∀ a : ℝ, 0 < a → -Real.log (gaussC1 outlier * a + gaussC2 outlier resolution) - gaussD3 outlier resolution =
      -Real.log (1 + a * k) := by
    intro a ha
    unfold gaussD3
    have : gaussC1 outlier * a + gaussC2 outlier resolution = gaussC2 outlier resolution * (1 + a * k) := by
      rw [hk]; field_simp
      ring
    rw [this, Real.log_mul (ne_of_gt hc2) (by positivity)]
    ring
  have hd1 : gaussD1 outlier resolution = -Real.log (1 + k) := by
    have := hlog 1 one_pos
    rw [mul_one, one_mul] at this
    exact this
  have hl1 : 0 < Real.log (1 + k) := Real.log_pos (by linarith)
  have ha : 0 < Real.exp (-0.5) := Real.exp_pos _
  have ha1 : Real.exp (-0.5) < 1 := by rw [Real.exp_lt_one_iff]; norm_num
  have hl2 : 0 < Real.log (1 + Real.exp (-0.5) * k) := Real.log_pos (by nlinarith)
  have hlt : Real.log (1 + Real.exp (-0.5) * k) < Real.log (1 + k) := Real.log_lt_log (by positivity) (by nlinarith)
  have hge : Real.exp (-0.5) * Real.log (1 + k) ≤ Real.log (1 + Real.exp (-0.5) * k) := by
    rw [← Real.log_rpow (by linarith)]
    apply Real.log_le_log (by positivity)
    exact rpow_one_add_le_one_add_mul_self (by linarith) (le_of_lt ha) (le_of_lt ha1)
  have hd2 : gaussD2 outlier resolution = -2 * Real.log (Real.log (1 + Real.exp (-0.5) * k) / Real.log (1 + k)) := by
    unfold gaussD2
    rw [hlog _ ha, hd1, neg_div_neg_eq]
  refine ⟨by rw [hd1]; linarith, ?_, ?_⟩
  · rw [hd2]
    have : Real.log (Real.log (1 + Real.exp (-0.5) * k) / Real.log (1 + k)) < 0 :=
      Real.log_neg (div_pos hl2 hl1) ((div_lt_one hl1).2 hlt)
    linarith
  · rw [hd2]
    have h1 : Real.exp (-0.5) ≤ Real.log (1 + Real.exp (-0.5) * k) / Real.log (1 + k) := (le_div_iff₀ hl1).2 hge
    have h2 := Real.log_le_log ha h1
    rw [Real.log_exp] at h2
    norm_num at h2 ⊢
    linarith

/-- C66: the Gaussian fitted to the mixture of a normal distribution (weight ten times the share of
inliers) and a uniform one (the share of outliers over the volume of a cell) agrees with it in the
middle and at one standard deviation. -/
theorem C66_fit (outlier resolution : ℝ) (ho : 0 < outlier ∧ outlier < 1) (hr : 0 < resolution) (x : ℝ)
    (hx : x = 0 ∨ x = 1) :
    gaussD1 outlier resolution * Real.exp (-gaussD2 outlier resolution / 2 * x ^ 2) + gaussD3 outlier resolution =
      -Real.log (10 * (1 - outlier) * Real.exp (-x ^ 2 / 2) + outlier / resolution ^ 3) := by
  have hc2 : 0 < outlier / resolution ^ 3 := div_pos ho.1 (pow_pos hr 3)
  have hc1 : 0 < 10 * (1 - outlier) := by linarith [ho.2]
  rcases hx with rfl | rfl
  · simp [gaussD1, gaussC1, gaussC2]
  · have hd1 := (C66_constants outlier resolution ho hr).1
    have hq : 0 < (-Real.log (gaussC1 outlier * Real.exp (-0.5) + gaussC2 outlier resolution) -
        gaussD3 outlier resolution) / gaussD1 outlier resolution := by
      apply div_pos_of_neg_of_neg _ hd1
      unfold gaussD3
      have : Real.log (gaussC2 outlier resolution) <
          Real.log (gaussC1 outlier * Real.exp (-0.5) + gaussC2 outlier resolution) :=
        Real.log_lt_log hc2 (by unfold gaussC1; nlinarith [Real.exp_pos (-0.5)])
      linarith
    have he : -gaussD2 outlier resolution / 2 * (1 : ℝ) ^ 2 = Real.log ((-Real.log (gaussC1 outlier * Real.exp (-0.5) +
        gaussC2 outlier resolution) - gaussD3 outlier resolution) / gaussD1 outlier resolution) := by
      unfold gaussD2; ring
    rw [he, Real.exp_log hq, mul_div_cancel₀ _ (ne_of_lt hd1)]
    unfold gaussC1 gaussC2
    norm_num

/-! ### where the derivatives are wrong -/

/-- One point, one cell at the origin with unit covariance. -/
noncomputable def unitItem (x : Fin 3 → ℝ) : NdtItem := ⟨x, [⟨0, fun i j => if i = j then 1 else 0⟩]⟩

theorem unit_mahalanobis (y : Fin 3 → ℝ) : mahalanobis (fun i j => if i = j then 1 else 0) y = y 0 ^ 2 + y 1 ^ 2 + y 2 ^ 2 := by
  unfold mahalanobis
  simp [Fin.sum_univ_three]
  ring

theorem unit_ok (x : Fin 3 → ℝ) : CellsOk [unitItem x] := by
  intro it hit c hc
  rw [List.mem_singleton] at hit
  subst hit
  rw [show (unitItem x).cells = [⟨0, fun i j => if i = j then 1 else 0⟩] from rfl, List.mem_singleton] at hc
  subst hc
  refine ⟨fun i j => ?_, fun y => ?_⟩
  · simp only [eq_comm]
  · simp only [unit_mahalanobis]
    positivity

/-- Turning about the centre of a round cell leaves the score alone. -/
theorem unit_score (d1 d2 : ℝ) (x : Fin 3 → ℝ) (p : NdtPose) (h : p 0 = 0 ∧ p 1 = 0 ∧ p 2 = 0) :
    ndtScore d1 d2 [unitItem x] p = -d1 * Real.exp (-(d2 / 2) * (x 0 ^ 2 + x 1 ^ 2 + x 2 ^ 2)) := by
  unfold ndtScore unitItem
  simp only [List.map_cons, List.map_nil, List.sum_cons, List.sum_nil, add_zero, unit_mahalanobis]
  rw [← transform_eq]
  unfold ndtTransform
  simp only [h.1, h.2.1, h.2.2, Matrix.cons_val_zero, Matrix.cons_val_one, Matrix.cons_val, Pi.zero_apply, add_zero, sub_zero]
  congr 3
  have h3 := Real.sin_sq_add_cos_sq (p 3)
  have h4 := Real.sin_sq_add_cos_sq (p 4)
  have h5 := Real.sin_sq_add_cos_sq (p 5)
  linear_combination (((Real.sin (p 5) * x 0 + Real.cos (p 5) * x 1)) ^ 2 +
    (-Real.sin (p 4) * (Real.cos (p 5) * x 0 - Real.sin (p 5) * x 1) + Real.cos (p 4) * x 2) ^ 2) * h3 +
    ((Real.cos (p 5) * x 0 - Real.sin (p 5) * x 1) ^ 2 + x 2 ^ 2) * h4 + (x 0 ^ 2 + x 1 ^ 2) * h5

theorem unit_flat (d1 d2 : ℝ) (x : Fin 3 → ℝ) (p : NdtPose) (h : p 0 = 0 ∧ p 1 = 0 ∧ p 2 = 0) (i : Fin 6) (hi : 3 ≤ i) :
    Partial (ndtScore d1 d2 [unitItem x]) i p 0 := by
  unfold Partial
  have hne : (0 : Fin 6) ≠ i ∧ (1 : Fin 6) ≠ i ∧ (2 : Fin 6) ≠ i := by
    refine ⟨?_, ?_, ?_⟩ <;> rintro rfl <;> exact absurd hi (by decide)
  have he : (fun t => ndtScore d1 d2 [unitItem x] (Function.update p i t)) =
      fun _ => -d1 * Real.exp (-(d2 / 2) * (x 0 ^ 2 + x 1 ^ 2 + x 2 ^ 2)) := by
    funext t
    apply unit_score
    rw [Function.update_of_ne hne.1, Function.update_of_ne hne.2.1, Function.update_of_ne hne.2.2]
    exact h
  rw [he]
  exact hasDerivAt_const _ _

/-- C66 fails for the angle about y: seen from a place where turning changes nothing, the second
derivative is zero, but the code finds another value. -/
theorem C66_hessian_fails (d1 d2 : ℝ) (hd : d1 ≠ 0) (h0 : 0 < d2) (h1 : d2 ≤ 1) :
    ∃ (p : NdtPose) (items : List NdtItem), CellsOk items ∧ (∀ i, 3 ≤ i → Plain (p i)) ∧
      (∃ G : (Fin 6 → ℝ) → Fin 6 → ℝ, ∀ p i, Partial (ndtScore d1 d2 items) i p (G p i)) ∧
      ∀ G : (Fin 6 → ℝ) → Fin 6 → ℝ, (∀ p i, Partial (ndtScore d1 d2 items) i p (G p i)) →
        Partial (fun p => G p 4) 4 p 0 ∧
        ∀ (n : Nat) (schedule : List (Fin n × NdtItem)), (schedule.map (·.2)).Perm items →
          (computeDerivatives d1 d2 n p schedule).2.2 4 4 ≠ 0 := by
  let p : NdtPose := ![0, 0, 0, 0, Real.pi / 2, 0]
  let x : Fin 3 → ℝ := ![0, 0, 1]
  have hp : ∀ i, 3 ≤ i → Plain (p i) := by
    intro i hi
    have hpi := Real.pi_gt_three
    have : Plain (Real.pi / 2) := Or.inr (by rw [abs_of_pos (by linarith)]; linarith)
    fin_cases i <;> first
      | exact absurd hi (by decide)
      | exact Or.inl rfl
      | exact this
  refine ⟨p, [unitItem x], unit_ok x, hp, ⟨trueGradient d1 d2 [unitItem x], fun p i => trueGradient_is d1 d2 _ (unit_ok x) p i⟩, ?_⟩
  intro G hG
  refine ⟨?_, ?_⟩
  · unfold Partial
    have he : (fun t => G (Function.update p 4 t) 4) = fun _ => 0 := by
      funext t
      refine (hG (Function.update p 4 t) 4).unique (unit_flat d1 d2 x _ ?_ 4 (by decide))
      exact ⟨rfl, rfl, rfl⟩
    show HasDerivAt (fun t => G (Function.update p 4 t) 4) 0 (p 4)
    rw [he]
    exact hasDerivAt_const _ _
  · intro n schedule hs
    rw [(derivatives_eq d1 d2 h0 h1 n p schedule _ hs (unit_ok x) hp).2.2 4 4]
    have hv : (fun k => movePoint p x k - (0 : Fin 3 → ℝ) k) = ![1, 0, 0] := by
      rw [← transform_eq]
      funext k
      fin_cases k <;> simp [ndtTransform, p, x]
    have hg : pointGradient (trueTrig p) x 4 = ![0, 0, -1] := by
      funext k
      fin_cases k <;> simp [pointGradient, jAng, trueTrig, dot3, p, x]
    have hh : pointHessian (trueTrig p) x 4 4 = ![1, 0, 0] := by
      funext k
      fin_cases k <;> simp [pointHessian, hAng, trueTrig, dot3, p, x]
    unfold unitItem
    simp only [List.map_cons, List.map_nil, List.sum_cons, List.sum_nil, add_zero, hv, hg, hh]
    have : (dot3 (rowMat ![1, 0, 0] fun i j => if i = j then 1 else 0) ![1, 0, 0]) = 1 := by
      simp [dot3, rowMat]
    rw [this]
    have : (dot3 ![1, 0, 0] (matCol (fun i j => if i = j then 1 else 0) ![0, 0, -1])) = 0 := by
      simp [dot3, matCol]
    rw [this]
    have : (dot3 ![0, 0, -1] (matCol (fun i j => if i = j then 1 else 0) ![0, 0, -1])) = 1 := by
      simp [dot3, matCol]
    rw [this]
    unfold gaussFactor
    have := Real.exp_pos (-(d2 / 2) * mahalanobis (fun i j => if i = j then 1 else 0) ![1, 0, 0])
    refine mul_ne_zero (mul_ne_zero (mul_ne_zero (ne_of_gt h0) (ne_of_gt this)) hd) (by norm_num)

/-- C66 fails for small angles: they are rounded to zero in the derivatives but not in the score. -/
theorem C66_small_fails (d1 d2 : ℝ) (hd : d1 ≠ 0) (h0 : 0 < d2) (h1 : d2 ≤ 1) :
    ∃ (p : NdtPose) (items : List NdtItem), CellsOk items ∧ Partial (ndtScore d1 d2 items) 5 p 0 ∧
      ∀ (n : Nat) (schedule : List (Fin n × NdtItem)), (schedule.map (·.2)).Perm items →
        (computeDerivatives d1 d2 n p schedule).2.1 5 ≠ 0 := by
  let p : NdtPose := ![0, 0, 0, 0, 0, 1 / 20000]
  let x : Fin 3 → ℝ := ![1, 0, 0]
  refine ⟨p, [unitItem x], unit_ok x, unit_flat d1 d2 x p ⟨rfl, rfl, rfl⟩ 5 (by decide), ?_⟩
  intro n schedule hs
  rw [C66_threads d1 d2 n p schedule _ hs]
  have hv : (fun k => ndtTransform p x k - (0 : Fin 3 → ℝ) k) = ![Real.cos (1 / 20000), Real.sin (1 / 20000), 0] := by
    funext k
    fin_cases k <;> simp [ndtTransform, p, x]
  have ht : ndtTrig p = ⟨1, 0, 1, 0, 1, 0⟩ := by
    have hz : nearCos 0 = 1 ∧ nearSin 0 = 0 := by
      unfold nearCos nearSin
      simp
    have hs : nearCos (1 / 20000) = 1 ∧ nearSin (1 / 20000) = 0 := by
      have hlt : |(1 / 20000 : ℝ)| < 10e-5 := by rw [abs_of_pos (by norm_num)]; norm_num
      unfold nearCos nearSin
      rw [if_pos hlt, if_pos hlt]
      exact ⟨rfl, rfl⟩
    show NdtTrig.mk (nearCos 0) (nearSin 0) (nearCos 0) (nearSin 0) (nearCos (1 / 20000)) (nearSin (1 / 20000)) = _
    rw [hz.1, hz.2, hs.1, hs.2]
  have hg : pointGradient (ndtTrig p) x 5 = ![0, 1, 0] := by
    rw [ht]
    funext k
    fin_cases k <;> simp [pointGradient, jAng, dot3, x]
  simp only [List.map_cons, List.map_nil, List.sum_cons, List.sum_nil, add_zero]
  unfold itemSum unitItem
  simp only [List.map_cons, List.map_nil, List.sum_cons, List.sum_nil, add_zero]
  rw [pairSum_eq d1 d2 h0 h1 _ _ (by rw [unit_mahalanobis]; positivity)]
  simp only [hv, hg]
  have : (dot3 ![Real.cos (1 / 20000), Real.sin (1 / 20000), 0] (matCol (fun i j => if i = j then 1 else 0) ![0, 1, 0])) =
      Real.sin (1 / 20000) := by
    simp [dot3, matCol]
  rw [this]
  have hsin : 0 < Real.sin (1 / 20000) := Real.sin_pos_of_pos_of_lt_pi (by norm_num) (by linarith [Real.pi_gt_three])
  unfold gaussFactor
  exact mul_ne_zero (mul_ne_zero (mul_ne_zero (ne_of_gt h0) (Real.exp_ne_zero _)) hd) (ne_of_gt hsin)

/-! ### how far the small angles reach -/

theorem near_close (a : ℝ) : |nearCos a - Real.cos a| ≤ 1 / 10000 ∧ |nearSin a - Real.sin a| ≤ 1 / 10000 := by
  unfold nearCos nearSin
  by_cases h : |a| < 10e-5
  · rw [if_pos h, if_pos h]
    have h' : |a| < 1 / 10000 := by norm_num at h ⊢; exact h
    constructor
    · have h1 := Real.one_sub_sq_div_two_le_cos (x := a)
      have h2 := Real.cos_le_one a
      have h3 : a ^ 2 ≤ 1 / 10000 * (1 / 10000) := by
        rw [← sq_abs, sq]
        exact mul_le_mul (le_of_lt h') (le_of_lt h') (abs_nonneg _) (by norm_num)
      rw [abs_of_nonneg (by linarith)]
      nlinarith
    · rw [zero_sub, abs_neg]
      exact le_trans (Real.abs_sin_le_abs (x := a)) (le_of_lt h')
  · rw [if_neg h, if_neg h]
    simp

theorem near_one (a : ℝ) : |nearCos a| ≤ 1 ∧ |nearSin a| ≤ 1 := by
  unfold nearCos nearSin
  by_cases h : |a| < 10e-5
  · rw [if_pos h, if_pos h]; simp
  · rw [if_neg h, if_neg h]
    exact ⟨Real.abs_cos_le_one a, Real.abs_sin_le_one a⟩

theorem mul_close {a b a' b' e f : ℝ} (ha : |a| ≤ 1) (hb' : |b'| ≤ 1) (h1 : |a - a'| ≤ e) (h2 : |b - b'| ≤ f) :
    |a * b - a' * b'| ≤ e + f := by
  have h : a * b - a' * b' = a * (b - b') + (a - a') * b' := by ring
  rw [h]
  refine le_trans (abs_add_le _ _) ?_
  rw [abs_mul, abs_mul]
  have h3 : |a| * |b - b'| ≤ 1 * |b - b'| := mul_le_mul_of_nonneg_right ha (abs_nonneg _)
  have h4 : |a - a'| * |b'| ≤ |a - a'| * 1 := mul_le_mul_of_nonneg_left hb' (abs_nonneg _)
  linarith

theorem prod2_one {a b : ℝ} (ha : |a| ≤ 1) (hb : |b| ≤ 1) : |a * b| ≤ 1 := by
  rw [abs_mul]
  exact mul_le_one₀ ha (abs_nonneg _) hb

/-- Two settings of the sines and cosines that are close. -/
structure TrigClose (e : ℝ) (t u : NdtTrig) : Prop where
  cx : |t.cx| ≤ 1 ∧ |u.cx| ≤ 1 ∧ |t.cx - u.cx| ≤ e
  sx : |t.sx| ≤ 1 ∧ |u.sx| ≤ 1 ∧ |t.sx - u.sx| ≤ e
  cy : |t.cy| ≤ 1 ∧ |u.cy| ≤ 1 ∧ |t.cy - u.cy| ≤ e
  sy : |t.sy| ≤ 1 ∧ |u.sy| ≤ 1 ∧ |t.sy - u.sy| ≤ e
  cz : |t.cz| ≤ 1 ∧ |u.cz| ≤ 1 ∧ |t.cz - u.cz| ≤ e
  sz : |t.sz| ≤ 1 ∧ |u.sz| ≤ 1 ∧ |t.sz - u.sz| ≤ e

theorem close2 {e a b a' b' : ℝ} (ha : |a| ≤ 1 ∧ |a'| ≤ 1 ∧ |a - a'| ≤ e) (hb : |b| ≤ 1 ∧ |b'| ≤ 1 ∧ |b - b'| ≤ e) :
    |a * b - a' * b'| ≤ 2 * e := by
  have := mul_close ha.1 hb.2.1 ha.2.2 hb.2.2
  linarith

theorem close3 {e a b c a' b' c' : ℝ} (ha : |a| ≤ 1 ∧ |a'| ≤ 1 ∧ |a - a'| ≤ e) (hb : |b| ≤ 1 ∧ |b'| ≤ 1 ∧ |b - b'| ≤ e)
    (hc : |c| ≤ 1 ∧ |c'| ≤ 1 ∧ |c - c'| ≤ e) : |a * b * c - a' * b' * c'| ≤ 3 * e := by
  have := mul_close (prod2_one ha.1 hb.1) hc.2.1 (close2 ha hb) hc.2.2
  linarith

theorem jAng_close {e : ℝ} (he : 0 ≤ e) {t u : NdtTrig} (h : TrigClose e t u) (i : Fin 8) (k : Fin 3) :
    |jAng t i k - jAng u i k| ≤ 6 * e := by
  have a1 := abs_le.1 (close2 h.sx h.sz)
  have a2 := abs_le.1 (close3 h.cx h.sy h.cz)
  have a3 := abs_le.1 (close2 h.sx h.cz)
  have a4 := abs_le.1 (close3 h.cx h.sy h.sz)
  have a5 := abs_le.1 (close2 h.cx h.cy)
  have a6 := abs_le.1 (close2 h.cx h.sz)
  have a7 := abs_le.1 (close3 h.sx h.sy h.cz)
  have a8 := abs_le.1 (close2 h.cx h.cz)
  have a9 := abs_le.1 (close3 h.sx h.sy h.sz)
  have a10 := abs_le.1 (close2 h.sx h.cy)
  have a11 := abs_le.1 (close2 h.sy h.cz)
  have a12 := abs_le.1 (close2 h.sy h.sz)
  have a13 := abs_le.1 h.cy.2.2
  have a14 := abs_le.1 (close3 h.sx h.cy h.cz)
  have a15 := abs_le.1 (close3 h.sx h.cy h.sz)
  have a16 := abs_le.1 (close2 h.sx h.sy)
  have a17 := abs_le.1 (close3 h.cx h.cy h.cz)
  have a18 := abs_le.1 (close3 h.cx h.cy h.sz)
  have a19 := abs_le.1 (close2 h.cx h.sy)
  have a20 := abs_le.1 (close2 h.cy h.sz)
  have a21 := abs_le.1 (close2 h.cy h.cz)
  rw [abs_le]
  fin_cases i <;> fin_cases k <;> (simp [jAng]; try constructor) <;> linarith

theorem dot_close {e : ℝ} (a b x : Fin 3 → ℝ) (h : ∀ k, |a k - b k| ≤ e) :
    |dot3 a x - dot3 b x| ≤ e * (|x 0| + |x 1| + |x 2|) := by
  have hd : dot3 a x - dot3 b x = (a 0 - b 0) * x 0 + (a 1 - b 1) * x 1 + (a 2 - b 2) * x 2 := by
    unfold dot3; ring
  rw [hd]
  refine le_trans (abs_add_three _ _ _) ?_
  rw [abs_mul, abs_mul, abs_mul]
  have h0 := mul_le_mul_of_nonneg_right (h 0) (abs_nonneg (x 0))
  have h1 := mul_le_mul_of_nonneg_right (h 1) (abs_nonneg (x 1))
  have h2 := mul_le_mul_of_nonneg_right (h 2) (abs_nonneg (x 2))
  linarith

theorem pointGradient_close {e : ℝ} (he : 0 ≤ e) {t u : NdtTrig} (h : TrigClose e t u) (x : Fin 3 → ℝ) (i : Fin 6) (k : Fin 3) :
    |pointGradient t x i k - pointGradient u x i k| ≤ 6 * e * (|x 0| + |x 1| + |x 2|) := by
  have hz : |(0 : ℝ)| ≤ 6 * e * (|x 0| + |x 1| + |x 2|) := by rw [abs_zero]; positivity
  have hj : ∀ m, |dot3 (jAng t m) x - dot3 (jAng u m) x| ≤ 6 * e * (|x 0| + |x 1| + |x 2|) :=
    fun m => dot_close _ _ x (fun k => jAng_close he h m k)
  fin_cases i <;> fin_cases k <;> first
    | exact hj _
    | (refine le_trans (le_of_eq ?_) hz; simp [pointGradient])

theorem near_trig_close (p : NdtPose) : TrigClose (1 / 10000) (ndtTrig p) (trueTrig p) :=
  ⟨⟨(near_one _).1, Real.abs_cos_le_one _, (near_close _).1⟩, ⟨(near_one _).2, Real.abs_sin_le_one _, (near_close _).2⟩,
   ⟨(near_one _).1, Real.abs_cos_le_one _, (near_close _).1⟩, ⟨(near_one _).2, Real.abs_sin_le_one _, (near_close _).2⟩,
   ⟨(near_one _).1, Real.abs_cos_le_one _, (near_close _).1⟩, ⟨(near_one _).2, Real.abs_sin_le_one _, (near_close _).2⟩⟩

theorem list_sum_close {α : Type} (l : List α) (f g b : α → ℝ) (h : ∀ a ∈ l, |f a - g a| ≤ b a) :
    |(l.map f).sum - (l.map g).sum| ≤ (l.map b).sum := by
  induction l with
  | nil => simp
  | cons a l ih =>
    simp only [List.map_cons, List.sum_cons]
    have h1 := h a (by simp)
    have h2 := ih (fun c hc => h c (by simp [hc]))
    have : f a + (l.map f).sum - (g a + (l.map g).sum) = (f a - g a) + ((l.map f).sum - (l.map g).sum) := by ring
    rw [this]
    exact le_trans (abs_add_le _ _) (add_le_add h1 h2)

/-- C66, every pose: whatever the angles, the score is right and the gradient is as close to the true
one as six ten-thousandths, times the size of each point, times the pull of each of its cells. -/
theorem C66_small_partial (d1 d2 : ℝ) (h0 : 0 < d2) (h1 : d2 ≤ 1) (n : Nat) (p : NdtPose)
    (schedule : List (Fin n × NdtItem)) (items : List NdtItem) (hs : (schedule.map (·.2)).Perm items)
    (hc : CellsOk items) (i : Fin 6) :
    (computeDerivatives d1 d2 n p schedule).1 = ndtScore d1 d2 items p ∧
    ∃ g, Partial (ndtScore d1 d2 items) i p g ∧
      |(computeDerivatives d1 d2 n p schedule).2.1 i - g| ≤
        6 / 10000 * (items.map fun it => (it.cells.map fun c => |d1| * (|it.x 0| + |it.x 1| + |it.x 2|) *
          ∑ k, |∑ j, (movePoint p it.x j - c.mean j) * c.icov j k|).sum).sum := by
  rw [C66_threads d1 d2 n p schedule items hs]
  have hitem : ∀ it ∈ items, itemSum d1 d2 p it = (it.cells.map fun c =>
      let y := fun k => movePoint p it.x k - c.mean k
      let G := pointGradient (ndtTrig p) it.x
      ((-d1 * Real.exp (-(d2 / 2) * mahalanobis c.icov y),
        fun i => gaussFactor d1 d2 c.icov y * dot3 y (matCol c.icov (G i)),
        fun i j => gaussFactor d1 d2 c.icov y * (-d2 * dot3 y (matCol c.icov (G i)) * dot3 y (matCol c.icov (G j)) +
          dot3 (rowMat y c.icov) (pointHessian (ndtTrig p) it.x i j) + dot3 (G j) (matCol c.icov (G i)))) : NdtSum)).sum := by
    intro it hit
    unfold itemSum
    congr 1
    apply List.map_congr_left
    intro c hcc
    rw [transform_eq]
    exact pairSum_eq d1 d2 h0 h1 _ _ ((hc it hit c hcc).2 _) _ _
  rw [List.map_congr_left hitem]
  refine ⟨?_, trueGradient d1 d2 items p i, trueGradient_is d1 d2 items hc p i, ?_⟩
  · rw [sum_fst, List.map_map]
    unfold ndtScore
    congr 1
    apply List.map_congr_left
    intro it _
    simp only [Function.comp]
    rw [sum_fst, List.map_map]
    rfl
  · rw [sum_grad, List.map_map]
    unfold trueGradient
    refine le_trans (list_sum_close items _ _ (fun it => 6 / 10000 * (it.cells.map fun c =>
      |d1| * (|it.x 0| + |it.x 1| + |it.x 2|) * ∑ k, |∑ j, (movePoint p it.x j - c.mean j) * c.icov j k|).sum) ?_)
      (le_of_eq (List.sum_map_mul_left _ _ _))
    intro it hit
    simp only [Function.comp]
    rw [sum_grad, List.map_map]
    refine le_trans (list_sum_close it.cells _ _ (fun c => 6 / 10000 *
      (|d1| * (|it.x 0| + |it.x 1| + |it.x 2|) * ∑ k, |∑ j, (movePoint p it.x j - c.mean j) * c.icov j k|)) ?_)
      (le_of_eq (List.sum_map_mul_left _ _ _))
    intro c hcc
    simp only [Function.comp]
    have hrow : ∀ (y v : Fin 3 → ℝ), dot3 y (matCol c.icov v) = ∑ k, (∑ j, y j * c.icov j k) * v k := by
      intro y v
      unfold dot3 matCol
      simp only [Fin.sum_univ_three]
      ring
    rw [← mul_sub, hrow, hrow, ← Finset.sum_sub_distrib, abs_mul]
    have hf : |gaussFactor d1 d2 c.icov (fun k => movePoint p it.x k - c.mean k)| ≤ |d1| := by
      unfold gaussFactor
      rw [abs_mul]
      have hE : Real.exp (-(d2 / 2) * mahalanobis c.icov (fun k => movePoint p it.x k - c.mean k)) ≤ 1 := by
        rw [Real.exp_le_one_iff]
        have := mul_nonneg (le_of_lt (half_pos h0)) ((hc it hit c hcc).2 (fun k => movePoint p it.x k - c.mean k))
        linarith
      have hpos := Real.exp_pos (-(d2 / 2) * mahalanobis c.icov (fun k => movePoint p it.x k - c.mean k))
      rw [abs_of_pos (mul_pos h0 hpos)]
      have : d2 * Real.exp (-(d2 / 2) * mahalanobis c.icov (fun k => movePoint p it.x k - c.mean k)) ≤ 1 :=
        mul_le_one₀ h1 (le_of_lt hpos) hE
      calc _ ≤ 1 * |d1| := mul_le_mul_of_nonneg_right this (abs_nonneg _)
        _ = |d1| := one_mul _
    have hsum : |∑ k, ((∑ j, (movePoint p it.x j - c.mean j) * c.icov j k) * pointGradient (ndtTrig p) it.x i k -
        (∑ j, (movePoint p it.x j - c.mean j) * c.icov j k) * pointGradient (trueTrig p) it.x i k)| ≤
        (∑ k, |∑ j, (movePoint p it.x j - c.mean j) * c.icov j k|) * (6 * (1 / 10000) * (|it.x 0| + |it.x 1| + |it.x 2|)) := by
      refine le_trans (Finset.abs_sum_le_sum_abs _ _) ?_
      rw [Finset.sum_mul]
      apply Finset.sum_le_sum
      intro k _
      rw [← mul_sub, abs_mul]
      exact mul_le_mul_of_nonneg_left (pointGradient_close (by norm_num) (near_trig_close p) it.x i k) (abs_nonneg _)
    refine le_trans (mul_le_mul hf hsum (abs_nonneg _) (abs_nonneg _)) (le_of_eq ?_)
    ring

/-- Non-vacuity: two threads, a pose away from zero, a cell with a mean and points off it. -/
example : ∃ (p : NdtPose) (schedule : List (Fin 2 × NdtItem)) (items : List NdtItem),
    (schedule.map (·.2)).Perm items ∧ CellsOk items ∧ (∀ i, 3 ≤ i → Plain (p i)) ∧ items.length = 2 ∧ p 3 ≠ 0 := by
  refine ⟨![0, 1, 2, 1, 1, 0], [(1, unitItem ![1, 0, 0]), (0, unitItem ![0, 1, 2])],
    [unitItem ![0, 1, 2], unitItem ![1, 0, 0]], List.Perm.swap _ _ _, ?_, ?_, rfl, one_ne_zero⟩
  · intro it hit
    rcases List.mem_cons.1 hit with h | h
    · exact unit_ok ![0, 1, 2] it (by rw [h]; simp)
    · exact unit_ok ![1, 0, 0] it h
  · have : Plain 1 := Or.inr (by norm_num)
    intro i hi
    fin_cases i <;> first
      | exact absurd hi (by decide)
      | exact Or.inl rfl
      | exact this

/-- Non-vacuity: the settings of the code (outlier ratio 0.55, resolution 1). -/
example : ∃ outlier resolution : ℝ, (0 < outlier ∧ outlier < 1) ∧ 0 < resolution := ⟨0.55, 1, by norm_num, one_pos⟩

end Verif
