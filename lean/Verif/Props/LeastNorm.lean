import Verif.Proofs.LeastNorm
import Verif.Proofs.QrExists
import Verif.Props.IcpStep
/-! Property theorems C109: the linear solver of the fast ICP, and what it means for a step. -/
namespace Verif
open Spec Matrix

/-- The assumptions on the decompositions can be met. -/
example : ∃ L : LinLib, LibOk L := exists_lib

/-- C109: for a matrix without full rank the result is the shortest one of those that fit best, whether there is a solution
or not. -/
theorem C109_singular {n : ℕ} (L : LinLib) (hL : LibOk L) (A : Matrix (Fin n) (Fin n) ℝ) (b : Fin n → ℝ)
    (hs : ∃ v, v ≠ 0 ∧ A *ᵥ v = 0) : LeastFit A b (solveUnder L A b) := by
  obtain ⟨v, hv, h0⟩ := hs
  have hr : (L.qr A).rank < n := by
    by_contra hr
    exact hv (fullRank_inj (hL.qr n A) hr v h0)
  unfold solveUnder
  dsimp only
  rw [dif_pos hr]
  split
  · exact reduced_least hL.chol (hL.qr n A) b
  · exact hL.svd n A b

/-- C109: every solvable system with a symmetric matrix without negative values is solved, and by the shortest solution. -/
theorem C109_solves {n : ℕ} (L : LinLib) (hL : LibOk L) (A : Matrix (Fin n) (Fin n) ℝ) (b : Fin n → ℝ) (hA : NonNegative A)
    (hb : ∃ y, A *ᵥ y = b) :
    A *ᵥ solveUnder L A b = b ∧ ∀ y, A *ᵥ y = b → ∑ i, solveUnder L A b i ^ 2 ≤ ∑ i, y i ^ 2 := by
  have hzero : ∀ y, A *ᵥ y = b ↔ misfit A b y = 0 := by
    intro y
    unfold misfit
    rw [Finset.sum_eq_zero_iff_of_nonneg fun i _ => sq_nonneg _]
    constructor
    · rintro rfl i _
      ring
    · intro h
      funext i
      have := pow_eq_zero_iff (two_ne_zero) |>.1 (h i (Finset.mem_univ i))
      linarith
  by_cases hr : (L.qr A).rank < n
  · have hlf := reduced_least hL.chol (hL.qr n A) b
    have hx : solveUnder L A b = reducedSolve L A (L.qr A) (hL.qr n A).rank_le b := by
      unfold solveUnder
      dsimp only
      rw [dif_pos hr]
      obtain ⟨y, hy⟩ := hb
      have h1 := hlf.1 y
      rw [(hzero y).1 hy] at h1
      have h2 : misfit A b (reducedSolve L A (L.qr A) (hL.qr n A).rank_le b) = 0 :=
        le_antisymm h1 (Finset.sum_nonneg fun i _ => sq_nonneg _)
      rw [if_pos]
      rw [(hzero _).2 h2]
      unfold isApprox
      simp only [sub_self, ne_eq, OfNat.ofNat_ne_zero, not_false_eq_true, zero_pow, Finset.sum_const_zero]
      have : 0 ≤ ∑ i, b i ^ 2 := Finset.sum_nonneg fun i _ => sq_nonneg _
      rw [min_self]
      positivity
    rw [hx]
    obtain ⟨y, hy⟩ := hb
    have h1 := hlf.1 y
    rw [(hzero y).1 hy] at h1
    refine ⟨(hzero _).2 (le_antisymm h1 (Finset.sum_nonneg fun i _ => sq_nonneg _)), fun z hz => hlf.2 z fun w => ?_⟩
    rw [(hzero z).1 hz]
    exact Finset.sum_nonneg fun i _ => sq_nonneg _
  · have hinj := fullRank_inj (hL.qr n A) hr
    have hpos : Positive A := by
      refine ⟨hA.1, fun v hv => lt_of_le_of_ne (hA.2 v) fun h => hv (hinj v (nonneg_ker hA v h.symm))⟩
    have hx : solveUnder L A b = L.llt A b := by
      unfold solveUnder
      dsimp only
      rw [dif_neg hr]
    have hs := hL.chol n A b hpos
    rw [hx]
    refine ⟨hs, fun y hy => ?_⟩
    have : y - L.llt A b = 0 := hinj _ (by rw [mulVec_sub, hy, hs, sub_self])
    rw [sub_eq_zero] at this
    rw [this]

/-- The system of a step. -/
theorem icpA_nonneg (comp : Bool) (l : List IcpPair) (hw : ∀ e ∈ l, 0 ≤ e.w) : NonNegative (Matrix.of (icpA comp l)) := by
  have hq : ∀ v : Fin 6 → ℝ, v ⬝ᵥ (Matrix.of (icpA comp l) *ᵥ v) = (l.map fun e => e.w * (∑ j, icpF comp e j * v j) ^ 2).sum := by
    intro v
    have h1 : ∀ i, (Matrix.of (icpA comp l) *ᵥ v) i = (l.map fun e => e.w * icpF comp e i * (∑ j, icpF comp e j * v j)).sum := by
      intro i
      show ∑ j, icpA comp l i j * v j = _
      unfold icpA
      clear hw
      induction l with
      | nil => simp
      | cons e l ih =>
        simp only [List.map_cons, List.sum_cons, add_mul, Finset.sum_add_distrib]
        rw [ih, Finset.mul_sum]
        congr 1
        exact Finset.sum_congr rfl fun j _ => by rw [wf_eq]; ring
    unfold dotProduct
    simp only [h1]
    clear hw h1
    induction l with
    | nil => simp
    | cons e l ih =>
      simp only [List.map_cons, List.sum_cons, mul_add, Finset.sum_add_distrib]
      rw [ih]
      congr 1
      have : ∀ i, v i * (e.w * icpF comp e i * ∑ j, icpF comp e j * v j) = e.w * (∑ j, icpF comp e j * v j) * (icpF comp e i * v i) := by
        intro i; ring
      rw [Finset.sum_congr rfl fun i _ => this i, ← Finset.mul_sum]
      ring
  constructor
  · ext i j
    show icpA comp l j i = icpA comp l i j
    unfold icpA
    congr 1
    apply List.map_congr_left
    intro e _
    rw [wf_eq, wf_eq]
    ring
  · intro v
    rw [hq]
    apply List.sum_nonneg
    intro x hx
    obtain ⟨e, he, rfl⟩ := List.mem_map.1 hx
    exact mul_nonneg (hw e he) (sq_nonneg _)

theorem solves_iff (A : Fin 6 → Fin 6 → ℝ) (b x : Fin 6 → ℝ) : Solves A b x ↔ Matrix.of A *ᵥ x = b :=
  ⟨fun h => funext h, fun h i => congrFun h i⟩

/-- The six numbers of a step. -/
theorem step_numbers (L : LinLib) (hL : LibOk L) (comp : Bool) (l : List IcpPair) (hw : ∀ e ∈ l, 0 ≤ e.w) :
    ∃ x : Fin 6 → ℝ, planeStep L comp l = icpMotion x ∧ Solves (icpA comp l) (icpB comp l) x ∧
      ∀ y, Solves (icpA comp l) (icpB comp l) y → ∑ i, x i ^ 2 ≤ ∑ i, y i ^ 2 := by
  obtain ⟨y, hy⟩ := C68_solvable comp l hw
  obtain ⟨h1, h2⟩ := C109_solves L hL (Matrix.of (icpA comp l)) (icpB comp l) (icpA_nonneg comp l hw) ⟨y, (solves_iff _ _ _).1 hy⟩
  exact ⟨_, rfl, (solves_iff _ _ _).2 h1, fun z hz => h2 z ((solves_iff _ _ _).1 hz)⟩

/-- C109: a step of the fast ICP is by the turn and the translation that fit the target planes best, and of these by the
smallest ones. -/
theorem C109_step (L : LinLib) (hL : LibOk L) (comp : Bool) (l : List IcpPair) (hw : ∀ e ∈ l, 0 ≤ e.w) :
    ∃ r t : Fin 3 → ℝ, (∀ r' t', planeCost comp l r t ≤ planeCost comp l r' t') ∧
      (∀ r' t', (∀ r'' t'', planeCost comp l r' t' ≤ planeCost comp l r'' t'') →
        ∑ i, r i ^ 2 + ∑ i, t i ^ 2 ≤ ∑ i, r' i ^ 2 + ∑ i, t' i ^ 2) ∧
      planeStep L comp l = icpMotion ![r 0, r 1, r 2, t 0, t 1, t 2] := by
  obtain ⟨x, hx, hs, hm⟩ := step_numbers L hL comp l hw
  refine ⟨turnOf x, shiftOf x, (C68_minimises comp l hw x).1 hs, fun r' t' h => ?_, ?_⟩
  · let y : Fin 6 → ℝ := ![r' 0, r' 1, r' 2, t' 0, t' 1, t' 2]
    have hr : turnOf y = r' := by funext i; fin_cases i <;> rfl
    have ht : shiftOf y = t' := by funext i; fin_cases i <;> rfl
    have := hm y ((C68_minimises comp l hw y).2 (by rw [hr, ht]; exact h))
    rw [← hr, ← ht]
    simp only [Fin.sum_univ_six, Fin.sum_univ_three, turnOf, shiftOf] at this ⊢
    simp only [Matrix.cons_val_zero, Matrix.cons_val_one, Matrix.cons_val] at this ⊢
    linarith
  · rw [hx]
    congr 1
    funext i
    fin_cases i <;> rfl

/-- C109: a motion that no pair notices is not made: the step is at right angles to it. -/
theorem C109_unseen (L : LinLib) (hL : LibOk L) (comp : Bool) (l : List IcpPair) (hw : ∀ e ∈ l, 0 ≤ e.w) :
    ∃ r t : Fin 3 → ℝ, planeStep L comp l = icpMotion ![r 0, r 1, r 2, t 0, t 1, t 2] ∧
      ∀ r' t', Unseen l r' t' → r ⬝ᵥ r' + t ⬝ᵥ t' = 0 := by
  obtain ⟨x, hx, hs, hm⟩ := step_numbers L hL comp l hw
  refine ⟨turnOf x, shiftOf x, ?_, fun r' t' hu => ?_⟩
  · rw [hx]
    congr 1
    funext i
    fin_cases i <;> rfl
  · let v : Fin 6 → ℝ := ![r' 0, r' 1, r' 2, t' 0, t' 1, t' 2]
    have hr : turnOf v = r' := by funext i; fin_cases i <;> rfl
    have ht : shiftOf v = t' := by funext i; fin_cases i <;> rfl
    have hF : ∀ e ∈ l, ∑ j, icpF comp e j * v j = 0 := by
      intro e he
      have h1 := hu e he
      have h2 : ∑ j, icpF comp e j * v j = (if comp then e.f else 1) * (e.n ⬝ᵥ smallMotion (turnOf v) (shiftOf v) e.p) := by
        cases comp <;>
        simp [icpF, icpCross, smallMotion, turnOf, shiftOf, cross_apply, dotProduct, Fin.sum_univ_three, Fin.sum_univ_six] <;>
        ring
      rw [h2, hr, ht, h1, mul_zero]
    have hker : Matrix.of (icpA comp l) *ᵥ v = 0 := by
      funext i
      show ∑ j, icpA comp l i j * v j = 0
      unfold icpA
      clear hs hm hw hx hu
      induction l with
      | nil => simp
      | cons e l ih =>
        simp only [List.map_cons, List.sum_cons, add_mul, Finset.sum_add_distrib]
        rw [ih fun e he => hF e (List.mem_cons_of_mem _ he), add_zero]
        have : ∀ j, icpWF comp e i * icpF comp e j * v j = icpWF comp e i * (icpF comp e j * v j) := fun j => by ring
        rw [Finset.sum_congr rfl fun j _ => this j, ← Finset.mul_sum, hF e (List.mem_cons_self ..), mul_zero]
    have hlf : LeastFit (Matrix.of (icpA comp l)) (icpB comp l) x := by
      have h0 : misfit (Matrix.of (icpA comp l)) (icpB comp l) x = 0 := by
        unfold misfit
        rw [(solves_iff _ _ _).1 hs]
        simp
      refine ⟨fun y => ?_, fun y hy => hm y ((solves_iff _ _ _).2 ?_)⟩
      · rw [h0]
        exact Finset.sum_nonneg fun i _ => sq_nonneg _
      · have h1 := hy x
        rw [h0] at h1
        have h2 : misfit (Matrix.of (icpA comp l)) (icpB comp l) y = 0 := le_antisymm h1 (Finset.sum_nonneg fun i _ => sq_nonneg _)
        unfold misfit at h2
        rw [Finset.sum_eq_zero_iff_of_nonneg fun i _ => sq_nonneg _] at h2
        funext i
        have := pow_eq_zero_iff (two_ne_zero) |>.1 (h2 i (Finset.mem_univ i))
        linarith
    have := leastFit_orth hlf v hker
    rw [← hr, ← ht]
    simp only [dotProduct, Fin.sum_univ_six, Fin.sum_univ_three, turnOf, shiftOf] at this ⊢
    simp only [Matrix.cons_val_zero, Matrix.cons_val_one, Matrix.cons_val] at this ⊢
    linarith

/-- C109: on flat ground, where all normals are vertical, a step neither shifts sideways nor turns about the vertical axis. -/
theorem C109_ground (L : LinLib) (hL : LibOk L) (comp : Bool) (l : List IcpPair) (hw : ∀ e ∈ l, 0 ≤ e.w)
    (hn : ∀ e ∈ l, e.n 0 = 0 ∧ e.n 1 = 0) :
    (planeStep L comp l).2 0 = 0 ∧ (planeStep L comp l).2 1 = 0 ∧ (planeStep L comp l).1 0 1 = (planeStep L comp l).1 1 0 := by
  obtain ⟨r, t, hx, ho⟩ := C109_unseen L hL comp l hw
  have hu : ∀ a b c : ℝ, Unseen l ![0, 0, a] ![b, c, 0] := by
    intro a b c e he
    obtain ⟨h0, h1⟩ := hn e he
    simp [smallMotion, cross_apply, dotProduct, Fin.sum_univ_three, h0, h1]
  have h2 : r 2 = 0 := by simpa [dotProduct, Fin.sum_univ_three] using ho _ _ (hu 1 0 0)
  have h3 : t 0 = 0 := by simpa [dotProduct, Fin.sum_univ_three] using ho _ _ (hu 0 1 0)
  have h4 : t 1 = 0 := by simpa [dotProduct, Fin.sum_univ_three] using ho _ _ (hu 0 0 1)
  rw [hx]
  unfold icpMotion
  dsimp only
  refine ⟨by simpa using h3, by simpa using h4, ?_⟩
  split
  · simp
  · simp [angleAxis, h2]

/-- Flat ground, one metre too low. -/
example : ∃ l : List IcpPair, (∀ e ∈ l, 0 ≤ e.w) ∧ (∀ e ∈ l, e.n 0 = 0 ∧ e.n 1 = 0) ∧ l.length = 2 ∧
    ∀ e ∈ l, icpDot e = -1 :=
  ⟨[⟨![0, 0, 0], ![0, 0, 1], ![0, 0, 1], 1, 1⟩, ⟨![1, 0, 0], ![1, 0, 1], ![0, 0, 1], 1, 1⟩],
    by simp, by simp, rfl, by simp [icpDot]⟩

/-- C109, full claim false: that a step is as small as the distances it corrects.  Two planes that are nearly parallel, one point on
its plane and the other one a millimetre away: the shift can be as large as one likes. -/
theorem C109_noise_fails (L : LinLib) (hL : LibOk L) (M : ℝ) : ∃ l : List IcpPair,
    (∀ e ∈ l, e.w = 1 ∧ ∑ i, e.n i ^ 2 = 1 ∧ e.n 0 ^ 2 + e.n 1 ^ 2 ≤ 1 / 100 ∧ |icpDot e| ≤ 1 / 1000) ∧
    M < |(planeStep L false l).2 0| := by
  -- the slope of the second plane
  obtain ⟨k, hk1, hk2⟩ : ∃ k : ℝ, 100 ≤ k ∧ M * 4000 ≤ k := ⟨max 100 (M * 4000), le_max_left _ _, le_max_right _ _⟩
  have hk0 : 0 < k := by linarith
  have hd : 0 < k ^ 2 + 1 := by positivity
  let a := 2 * k / (k ^ 2 + 1)
  let c := (k ^ 2 - 1) / (k ^ 2 + 1)
  have hac : a ^ 2 + c ^ 2 = 1 := by
    simp only [a, c]
    field_simp
    ring
  have ha0 : 0 < a := by positivity
  have ha1 : a ≤ 2 / k := by
    simp only [a]
    rw [div_le_div_iff₀ hd hk0]
    nlinarith
  have ha2 : a ≤ 1 / 50 := by
    refine le_trans ha1 ?_
    rw [div_le_div_iff₀ hk0 (by norm_num)]
    linarith
  let e1 : IcpPair := ⟨![0, 0, 0], ![0, 0, 0], ![0, 0, 1], 1, 1⟩
  let e2 : IcpPair := ⟨![0, 0, 0], ![-(a / 1000), 0, -(c / 1000)], ![a, 0, c], 1, 1⟩
  have hdot2 : icpDot e2 = 1 / 1000 := by
    simp [icpDot, e2]
    linear_combination (1 / 1000) * hac
  have hw : ∀ e ∈ [e1, e2], 0 ≤ e.w := by
    intro e he
    rcases List.mem_cons.1 he with rfl | he
    · simp [e1]
    · rw [List.mem_singleton] at he
      subst he
      simp [e2]
  refine ⟨[e1, e2], ?_, ?_⟩
  · intro e he
    rcases List.mem_cons.1 he with rfl | he
    · simp [e1, icpDot, Fin.sum_univ_three]
    · rw [List.mem_singleton] at he
      subst he
      refine ⟨rfl, ?_, ?_, ?_⟩
      · simp [e2, Fin.sum_univ_three]
        linarith
      · simp [e2]
        nlinarith
      · rw [hdot2]
        norm_num
  · obtain ⟨x, hx, hs, _⟩ := step_numbers L hL false [e1, e2] hw
    have h5 := hs 5
    have h3 := hs 3
    simp [icpA, icpB, icpWF, icpF, icpCross, e1, e2, Fin.sum_univ_six, icpDot] at h3 h5
    have hx3 : a * x 3 = -(1 / 1000) := by
      have e3 : a * (a * x 3 + c * x 5 + 1 / 1000) = 0 := by linear_combination h3 - (a / 1000) * hac
      have e4 : a * x 3 + c * x 5 + 1 / 1000 = 0 := by
        rcases mul_eq_zero.1 e3 with h | h
        · exact absurd h ha0.ne'
        · exact h
      have e5 : x 5 = 0 := by linear_combination h5 - c * e4 - (c / 1000) * hac
      rw [e5] at e4
      linarith
    have h2 : (planeStep L false [e1, e2]).2 0 = x 3 := by
      rw [hx]
      rfl
    rw [h2]
    have habs : a * |x 3| = 1 / 1000 := by
      rw [← abs_of_pos ha0, ← abs_mul, hx3]
      norm_num

    have hpos : 0 < |x 3| := by
      by_contra h
      have : |x 3| = 0 := le_antisymm (not_lt.1 h) (abs_nonneg _)
      rw [this] at habs
      norm_num at habs
    have h6 : 1 / 1000 ≤ 2 / k * |x 3| := by
      rw [← habs]
      exact mul_le_mul_of_nonneg_right ha1 hpos.le
    have h7 : k / 2000 ≤ |x 3| := by
      have : k * (1 / 1000) ≤ k * (2 / k * |x 3|) := mul_le_mul_of_nonneg_left h6 hk0.le
      have e8 : k * (2 / k * |x 3|) = 2 * |x 3| := by field_simp
      rw [e8] at this
      linarith
    linarith

end Verif
