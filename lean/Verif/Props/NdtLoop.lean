import Verif.Model.NdtLoop
import Verif.Props.NdtDeriv
import Mathlib.Analysis.InnerProductSpace.PiL2
/-! Property theorems C67: the loop of the normal distributions transform. -/
namespace Verif
open Spec

/-! ### the step -/

theorem search_fixed {T : Type} (env : NdtEnv T) (x dir : NdtPose) (phi0 dphi0 hi lo a : ℝ) (n : Nat) (over : Bool) (s : MtState T)
    (hover : over = true ∨ ∀ b, clampStep hi lo b = a) (ha : s.a = a)
    (hc : s.cur = env.eval (x + a • dir)) (hf : s.fin = env.matrix (x + a • dir)) :
    (mtSearch env x dir phi0 dphi0 hi lo n over s).a = a ∧
    (mtSearch env x dir phi0 dphi0 hi lo n over s).cur = env.eval (x + a • dir) ∧
    (mtSearch env x dir phi0 dphi0 hi lo n over s).fin = env.matrix (x + a • dir) := by
  induction n generalizing over s with
  | zero => exact ⟨ha, hc, hf⟩
  | succ n ih =>
    unfold mtSearch
    by_cases ho : over = true
    · rw [if_pos ho]
      exact ⟨ha, hc, hf⟩
    · rw [if_neg ho]
      by_cases hd : s.psi ≤ 0 ∧ s.dphi ≤ -0.9 * dphi0
      · rw [if_pos hd]
        exact ⟨ha, hc, hf⟩
      · rw [if_neg hd]
        have hb : ∀ b, clampStep hi lo b = a := by
          rcases hover with h | h
          · exact absurd h ho
          · exact h
        dsimp only
        rw [hb]
        exact ih _ _ (Or.inr hb) rfl rfl rfl

theorem clamp_const (hi lo : ℝ) (h : hi ≤ lo) (b : ℝ) : clampStep hi lo b = lo :=
  max_eq_right (le_trans (min_le_right _ _) h)

/-- C67, the step: for every setting the step is zero if the score is flat in the direction of the
solution, and otherwise the length of the solution cut to the allowed range, along the direction of the
solution or its opposite, whichever rises. The search for a better length never changes it. The
score, the derivatives and the transformation are those of the new pose. -/
theorem C67_step {T : Type} (env : NdtEnv T) (x dir : NdtPose) (init hi lo : ℝ) (cur : NdtSum) (fin : T) :
    (dot6 cur.2.1 dir = 0 ∧ stepLengthMT env x dir init hi lo cur fin = ⟨0, dir, cur, fin⟩) ∨
    (∃ d : NdtPose, (d = dir ∨ d = -dir) ∧ 0 < dot6 cur.2.1 d ∧
      stepLengthMT env x dir init hi lo cur fin =
        ⟨max (min init hi) lo, d, env.eval (x + (max (min init hi) lo) • d), env.matrix (x + (max (min init hi) lo) • d)⟩) := by
  by_cases h0 : -dot6 cur.2.1 dir = 0
  · left
    refine ⟨by linarith, ?_⟩
    unfold stepLengthMT
    dsimp only
    rw [if_pos h0]
  · right
    have hneg : ∀ g d : NdtPose, dot6 g (-d) = -dot6 g d := by
      intro g d
      unfold dot6
      simp [Finset.sum_neg_distrib]
    have key : ∀ (d : NdtPose) (phi0 dphi0 : ℝ) (v : MtInterval),
        let s := mtSearch env x d phi0 dphi0 hi lo 10 (decide (hi - lo > 0)) (mtTrial env x d phi0 dphi0 v true (clampStep hi lo init))
        (⟨s.a, d, s.cur, s.fin⟩ : NdtStep T) =
          ⟨max (min init hi) lo, d, env.eval (x + (max (min init hi) lo) • d), env.matrix (x + (max (min init hi) lo) • d)⟩ := by
      intro d phi0 dphi0 v
      dsimp only
      have := search_fixed env x d phi0 dphi0 hi lo (clampStep hi lo init) 10 (decide (hi - lo > 0))
        (mtTrial env x d phi0 dphi0 v true (clampStep hi lo init)) ?_ rfl rfl rfl
      · rw [this.1, this.2.1, this.2.2]
        rfl
      · by_cases h : hi - lo > 0
        · left; simpa using h
        · right
          have h' : hi ≤ lo := by linarith
          intro b
          rw [clamp_const hi lo h', clamp_const hi lo h']
    by_cases hge : -dot6 cur.2.1 dir ≥ 0
    · refine ⟨-dir, Or.inr rfl, ?_, ?_⟩
      · rw [hneg]
        exact lt_of_le_of_ne hge (Ne.symm h0)
      · unfold stepLengthMT
        dsimp only
        rw [if_neg h0, if_pos hge, if_pos hge, neg_one_smul]
        exact key _ _ _ _
    · refine ⟨dir, Or.inl rfl, by linarith [not_le.1 hge], ?_⟩
      unfold stepLengthMT
      dsimp only
      rw [if_neg h0, if_neg hge, if_neg hge]
      exact key _ _ _ _

/-! ### the loop -/

theorem norm6_eq (a : NdtPose) : norm6 a = ‖WithLp.toLp 2 a‖ := by
  rw [EuclideanSpace.norm_eq]
  unfold norm6
  congr 1
  apply Finset.sum_congr rfl
  intro i _
  rw [Real.norm_eq_abs, sq_abs]

theorem norm6_add (a b : NdtPose) : norm6 (a + b) ≤ norm6 a + norm6 b := by
  rw [norm6_eq, norm6_eq, norm6_eq]
  exact norm_add_le _ _

theorem norm6_smul (c : ℝ) (a : NdtPose) : norm6 (c • a) = |c| * norm6 a := by
  rw [norm6_eq, norm6_eq]
  exact norm_smul c (WithLp.toLp 2 a)

theorem norm6_neg (a : NdtPose) : norm6 (-a) = norm6 a := by
  rw [← neg_one_smul ℝ a, norm6_smul]
  simp

theorem norm6_unit (a : NdtPose) (h : norm6 a ≠ 0) : norm6 ((norm6 a)⁻¹ • a) = 1 := by
  rw [norm6_smul, abs_of_nonneg (inv_nonneg.2 (show 0 ≤ norm6 a from Real.sqrt_nonneg _)), inv_mul_cancel₀ h]

/-- What holds at the head of the loop. -/
structure NdtLoopInv {T : Type} (env : NdtEnv T) (hi : ℝ) (p0 : NdtPose) (s : NdtState T) : Prop where
  cur : s.cur = env.eval s.p
  fin : s.fin = env.matrix s.p
  near : norm6 (s.p - p0) ≤ s.rounds * hi

theorem loop_step {T : Type} (env : NdtEnv T) (hi eps : ℝ) (he : 0 ≤ eps) (hle : eps / 2 ≤ hi) (p0 : NdtPose) (s : NdtState T)
    (h : NdtLoopInv env hi p0 s) (delta : NdtPose) (hd : norm6 delta ≠ 0) (b : Bool) :
    let st := stepLengthMT env s.p ((norm6 delta)⁻¹ • delta) (norm6 delta) hi (eps / 2) s.cur s.fin
    NdtLoopInv env hi p0 ⟨s.p + st.len • st.dir, st.cur, st.fin, s.rounds + 1, b⟩ := by
  have hcast : ((s.rounds + 1 : Nat) : ℝ) * hi = s.rounds * hi + hi := by push_cast; ring
  have hhi : 0 ≤ hi := by linarith
  rcases C67_step env s.p ((norm6 delta)⁻¹ • delta) (norm6 delta) hi (eps / 2) s.cur s.fin with ⟨_, e⟩ | ⟨d, hdd, _, e⟩
  · dsimp only
    rw [e]
    dsimp only
    rw [zero_smul, add_zero]
    refine ⟨h.cur, h.fin, ?_⟩
    show norm6 (s.p - p0) ≤ ((s.rounds + 1 : Nat) : ℝ) * hi
    have := h.near
    rw [hcast]
    linarith
  · dsimp only
    rw [e]
    refine ⟨rfl, rfl, ?_⟩
    show norm6 (s.p + max (min (norm6 delta) hi) (eps / 2) • d - p0) ≤ ((s.rounds + 1 : Nat) : ℝ) * hi
    have hd1 : norm6 d = 1 := by
      rcases hdd with rfl | rfl
      · exact norm6_unit _ hd
      · rw [norm6_neg]; exact norm6_unit _ hd
    have hlen : |max (min (norm6 delta) hi) (eps / 2)| ≤ hi := by
      rw [abs_of_nonneg (le_trans (by linarith) (le_max_right _ _))]
      exact max_le (min_le_right _ _) hle
    have : s.p + max (min (norm6 delta) hi) (eps / 2) • d - p0 = (s.p - p0) + max (min (norm6 delta) hi) (eps / 2) • d := by abel
    rw [this, hcast]
    refine le_trans (norm6_add _ _) ?_
    rw [norm6_smul, hd1, mul_one]
    exact add_le_add h.near hlen

theorem loop_ends {T : Type} (env : NdtEnv T) (M : Nat) (hi eps : ℝ) (he : 0 ≤ eps) (hle : eps / 2 ≤ hi) (p0 : NdtPose)
    (k : Nat) (s : NdtState T) (h : NdtLoopInv env hi p0 s) (hk : s.rounds + k = M + 2) (h1 : 1 ≤ k) :
    ∃ r, (∀ fuel, k ≤ fuel → ndtLoop env M hi eps fuel s = some r) ∧ NdtLoopInv env hi p0 r ∧ s.rounds ≤ r.rounds ∧ r.rounds ≤ M + 2 ∧
      (r.converged = false → env.solve r.cur = none) := by
  induction k generalizing s with
  | zero => omega
  | succ k ih =>
    cases hs : env.solve s.cur with
    | none =>
      refine ⟨{ s with converged := false }, ?_, ⟨h.cur, h.fin, h.near⟩, le_refl _, ?_, ?_⟩
      · intro fuel hf
        obtain ⟨f, rfl⟩ : ∃ f, fuel = f + 1 := ⟨fuel - 1, by omega⟩
        unfold ndtLoop
        rw [hs]
      · show s.rounds ≤ M + 2
        omega
      · exact fun _ => hs
    | some delta =>
      by_cases hd : norm6 delta = 0
      · refine ⟨{ s with converged := true }, ?_, ⟨h.cur, h.fin, h.near⟩, le_refl _, ?_, ?_⟩
        · intro fuel hf
          obtain ⟨f, rfl⟩ : ∃ f, fuel = f + 1 := ⟨fuel - 1, by omega⟩
          unfold ndtLoop
          rw [hs]
          dsimp only
          rw [if_pos hd]
        · show s.rounds ≤ M + 2
          omega
        · exact fun hh => absurd hh (by simp)
      · have hstep := fun b => loop_step env hi eps he hle p0 s h delta hd b
        dsimp only at hstep
        by_cases hend : s.rounds > M ∨ (s.rounds ≠ 0 ∧
            |(stepLengthMT env s.p ((norm6 delta)⁻¹ • delta) (norm6 delta) hi (eps / 2) s.cur s.fin).len| < eps)
        · refine ⟨_, ?_, hstep true, ?_, ?_, ?_⟩
          · intro fuel hf
            obtain ⟨f, rfl⟩ : ∃ f, fuel = f + 1 := ⟨fuel - 1, by omega⟩
            unfold ndtLoop
            rw [hs]
            dsimp only
            rw [if_neg hd, if_pos hend]
          · exact Nat.le_succ _
          · show s.rounds + 1 ≤ M + 2
            omega
          · exact fun hh => absurd hh (by simp)
        · have hM : s.rounds ≤ M := by
            by_contra hc
            exact hend (Or.inl (by omega))
          obtain ⟨r, hr, hinv, h2, h3, h4⟩ := ih _ (hstep false) (by show s.rounds + 1 + k = M + 2; omega) (by omega)
          have h2' : s.rounds + 1 ≤ r.rounds := h2
          refine ⟨r, ?_, hinv, by omega, h3, h4⟩
          intro fuel hf
          obtain ⟨f, rfl⟩ : ∃ f, fuel = f + 1 := ⟨fuel - 1, by omega⟩
          unfold ndtLoop
          rw [hs]
          dsimp only
          rw [if_neg hd, if_neg hend]
          exact hr f (by omega)

/-- C67, end and reach: the loop ends after at most two more rounds than the limit, whatever the
score and the solver do. The score and the transformation returned are those of one and the same pose, and
that pose is no farther from the guess than the number of rounds times the largest step. Only a solution that is
not a number makes it report failure. -/
theorem C67_ends_partial {T : Type} (env : NdtEnv T) (M : Nat) (hi eps : ℝ) (he : 0 ≤ eps) (hle : eps / 2 ≤ hi)
    (guess : T) (p0 : NdtPose) (hg : env.matrix p0 = guess) :
    ∃ r, (∀ fuel, M + 2 ≤ fuel → ndtAlign env M hi eps guess p0 fuel = some r) ∧ r.rounds ≤ M + 2 ∧
      r.cur = env.eval r.p ∧ r.fin = env.matrix r.p ∧ norm6 (r.p - p0) ≤ r.rounds * hi ∧
      (r.converged = false → env.solve r.cur = none) := by
  have h0 : NdtLoopInv env hi p0 ⟨p0, env.eval p0, guess, 0, false⟩ := by
    refine ⟨rfl, hg.symm, ?_⟩
    show norm6 (p0 - p0) ≤ ((0 : Nat) : ℝ) * hi
    rw [sub_self]
    unfold norm6
    simp
  obtain ⟨r, hr, hinv, _, h3, h4⟩ := loop_ends env M hi eps he hle p0 (M + 2) _ h0 (by show 0 + (M + 2) = M + 2; omega) (by omega)
  exact ⟨r, hr, h3, hinv.cur, hinv.fin, hinv.near, h4⟩

/-! ### a step may lower the score -/

/-- One point at the origin of its cloud and one narrow cell at the origin. -/
noncomputable def narrowItem : NdtItem := ⟨0, [⟨0, fun i j => if i = j then 2000 else 0⟩]⟩

theorem narrow_mahalanobis (y : Fin 3 → ℝ) :
    mahalanobis (fun i j => if i = j then 2000 else 0) y = 2000 * (y 0 ^ 2 + y 1 ^ 2 + y 2 ^ 2) := by
  unfold mahalanobis
  simp [Fin.sum_univ_three]
  ring

theorem narrow_ok : CellsOk [narrowItem] := by
  intro it hit c hc
  rw [List.mem_singleton] at hit
  subst hit
  rw [show narrowItem.cells = [⟨0, fun i j => if i = j then 2000 else 0⟩] from rfl, List.mem_singleton] at hc
  subst hc
  refine ⟨fun i j => ?_, fun y => ?_⟩
  · simp only [eq_comm]
  · simp only [narrow_mahalanobis]
    positivity

/-- A pose with a translation along x only. -/
def alongX (x : ℝ) : NdtPose := ![x, 0, 0, 0, 0, 0]

/-- The matcher with one thread and this point; the linear system has zero rows except the first three, and
the solution of least length changes x only. -/
noncomputable def narrowEnv : NdtEnv NdtPose where
  eval p := computeDerivatives (-1) 1 1 p [(0, narrowItem)]
  solve s := some (alongX (-s.2.1 0 / s.2.2 0 0))
  matrix p := p

theorem narrow_eval (x : ℝ) : (narrowEnv.eval (alongX x)).1 = Real.exp (-(1000 * x ^ 2)) ∧
    (narrowEnv.eval (alongX x)).2.1 = alongX (-(2000 * x * Real.exp (-(1000 * x ^ 2)))) ∧
    (narrowEnv.eval (alongX x)).2.2 0 0 = (2000 ^ 2 * x ^ 2 - 2000) * Real.exp (-(1000 * x ^ 2)) := by
  have hp : ∀ i, 3 ≤ i → Plain (alongX x i) := by
    intro i hi
    fin_cases i <;> first
      | exact absurd hi (by decide)
      | exact Or.inl rfl
  obtain ⟨e1, e2, e3⟩ := derivatives_eq (-1) 1 one_pos (le_refl _) 1 (alongX x) [(0, narrowItem)] [narrowItem]
    (List.Perm.refl _) narrow_ok hp
  have hv : (fun k => movePoint (alongX x) (0 : Fin 3 → ℝ) k - (0 : Fin 3 → ℝ) k) = ![x, 0, 0] := by
    rw [← transform_eq]
    funext k
    fin_cases k <;> simp [ndtTransform, alongX]
  have hE : Real.exp (-(1 / 2) * mahalanobis (fun i j => if i = j then 2000 else 0) ![x, 0, 0]) = Real.exp (-(1000 * x ^ 2)) := by
    rw [narrow_mahalanobis]
    congr 1
    simp
    ring
  have hG : gaussFactor (-1) 1 (fun i j => if i = j then 2000 else 0) ![x, 0, 0] = -Real.exp (-(1000 * x ^ 2)) := by
    unfold gaussFactor
    rw [hE]
    ring
  refine ⟨?_, ?_, ?_⟩
  · show (computeDerivatives (-1) 1 1 (alongX x) [(0, narrowItem)]).1 = _
    rw [e1]
    unfold ndtScore narrowItem
    simp only [List.map_cons, List.map_nil, List.sum_cons, List.sum_nil, add_zero, hv, hE]
    ring
  · funext i
    show (computeDerivatives (-1) 1 1 (alongX x) [(0, narrowItem)]).2.1 i = _
    rw [e2]
    unfold trueGradient narrowItem
    simp only [List.map_cons, List.map_nil, List.sum_cons, List.sum_nil, add_zero, hv, hG]
    fin_cases i <;> simp [pointGradient, dot3, matCol, alongX]
    ring
  · show (computeDerivatives (-1) 1 1 (alongX x) [(0, narrowItem)]).2.2 0 0 = _
    rw [e3]
    unfold narrowItem
    simp only [List.map_cons, List.map_nil, List.sum_cons, List.sum_nil, add_zero, hv, hG]
    simp [pointGradient, pointHessian, dot3, matCol, rowMat]
    ring

theorem alongX_norm (x : ℝ) : norm6 (alongX x) = |x| := by
  unfold norm6
  rw [Fin.sum_univ_six]
  simp [alongX, Real.sqrt_sq_eq_abs]

theorem alongX_smul (c x : ℝ) : c • alongX x = alongX (c * x) := by
  funext i
  fin_cases i <;> simp [alongX]

theorem alongX_add (x y : ℝ) : alongX x + alongX y = alongX (x + y) := by
  funext i
  fin_cases i <;> simp [alongX]

theorem alongX_neg (x : ℝ) : -alongX x = alongX (-x) := by
  funext i
  fin_cases i <;> simp [alongX]

theorem alongX_dot (x y : ℝ) : dot6 (alongX x) (alongX y) = x * y := by
  unfold dot6
  rw [Fin.sum_univ_six]
  simp [alongX]

theorem narrow_solve (x : ℝ) : narrowEnv.solve (narrowEnv.eval (alongX x)) = some (alongX (x / (2000 * x ^ 2 - 1))) := by
  obtain ⟨_, e2, e3⟩ := narrow_eval x
  show some (alongX (-(narrowEnv.eval (alongX x)).2.1 0 / (narrowEnv.eval (alongX x)).2.2 0 0)) = _
  rw [e2, e3]
  congr 2
  have hE := Real.exp_ne_zero (-(1000 * x ^ 2))
  show -(-(2000 * x * Real.exp (-(1000 * x ^ 2)))) / _ = _
  rw [show (2000 ^ 2 * x ^ 2 - 2000) * Real.exp (-(1000 * x ^ 2)) =
    (2000 * x ^ 2 - 1) * (2000 * Real.exp (-(1000 * x ^ 2))) by ring,
    show -(-(2000 * x * Real.exp (-(1000 * x ^ 2)))) = x * (2000 * Real.exp (-(1000 * x ^ 2))) by ring]
  exact mul_div_mul_right _ _ (by positivity)

/-- One round towards the cell, for a place on the side with the given sign. -/
theorem narrow_step (x d len : ℝ) (hx : x ≠ 0) (hd : |d| = 1) (fin : NdtPose) :
    stepLengthMT narrowEnv (alongX x) (alongX d) len 0.1 0.05 (narrowEnv.eval (alongX x)) fin =
    (let u : ℝ := if x < 0 then 1 else -1
     let y := x + max (min len 0.1) 0.05 * u
     ⟨max (min len 0.1) 0.05, alongX u, narrowEnv.eval (alongX y), alongX y⟩) := by
  have hE := Real.exp_pos (-(1000 * x ^ 2))
  have hdd : d = 1 ∨ d = -1 := eq_or_eq_neg_of_abs_eq hd
  rcases C67_step narrowEnv (alongX x) (alongX d) len 0.1 0.05 (narrowEnv.eval (alongX x)) fin with ⟨h0, _⟩ | ⟨v, hv, hpos, e⟩
  · rw [(narrow_eval x).2.1, alongX_dot] at h0
    have : d ≠ 0 := by rcases hdd with h | h <;> rw [h] <;> norm_num
    exfalso
    have : -(2000 * x * Real.exp (-(1000 * x ^ 2))) ≠ 0 := by
      rw [neg_ne_zero]
      exact mul_ne_zero (mul_ne_zero (by norm_num) hx) (ne_of_gt hE)
    exact (mul_ne_zero this ‹d ≠ 0›) h0
  · obtain ⟨w, rfl, hw⟩ : ∃ w, v = alongX w ∧ (w = 1 ∨ w = -1) := by
      rcases hv with rfl | rfl
      · exact ⟨d, rfl, hdd⟩
      · refine ⟨-d, alongX_neg d, ?_⟩
        rcases hdd with h | h
        · right; rw [h]
        · left; rw [h]; norm_num
    rw [(narrow_eval x).2.1, alongX_dot] at hpos
    have hwu : w = if x < 0 then 1 else -1 := by
      rcases hw with h | h
      · rw [if_pos, h]
        rw [h] at hpos
        by_contra hc
        have : 0 ≤ x * Real.exp (-(1000 * x ^ 2)) := mul_nonneg (not_lt.1 hc) (le_of_lt hE)
        nlinarith
      · rw [if_neg, h]
        intro hc
        rw [h] at hpos
        have : x * Real.exp (-(1000 * x ^ 2)) < 0 := mul_neg_of_neg_of_pos hc hE
        nlinarith
    rw [e, alongX_smul, alongX_add, ← hwu]
    rfl

/-- C67 fails: with the standard settings (35 rounds, step 0.1, tolerance 0.1) the matcher leaves a
pose two centimetres from the best one for a pose three centimetres from it, with a lower score, and reports success. -/
theorem C67_worse_fails :
    ∃ r, (∀ fuel, 37 ≤ fuel → ndtAlign narrowEnv 35 0.1 0.1 (alongX 0.02) (alongX 0.02) fuel = some r) ∧ r.converged = true ∧
      r.p = alongX (-0.03) ∧
      ndtScore (-1) 1 [narrowItem] r.p < ndtScore (-1) 1 [narrowItem] (alongX 0.02) := by
  have hscore : ∀ x, ndtScore (-1) 1 [narrowItem] (alongX x) = Real.exp (-(1000 * x ^ 2)) := by
    intro x
    rw [← (narrow_eval x).1]
    refine ((derivatives_eq (-1) 1 one_pos (le_refl _) 1 (alongX x) [(0, narrowItem)] [narrowItem]
      (List.Perm.refl _) narrow_ok ?_).1).symm
    intro i hi
    fin_cases i <;> first
      | exact absurd hi (by decide)
      | exact Or.inl rfl
  refine ⟨⟨alongX (-0.03), narrowEnv.eval (alongX (-0.03)), alongX (-0.03), 2, true⟩, ?_, rfl, rfl, ?_⟩
  · intro fuel hf
    obtain ⟨f, rfl⟩ : ∃ f, fuel = f + 2 := ⟨fuel - 2, by omega⟩
    unfold ndtAlign ndtLoop
    dsimp only
    rw [narrow_solve]
    dsimp only
    have hn : norm6 (alongX (0.02 / (2000 * 0.02 ^ 2 - 1))) = 0.1 := by
      rw [alongX_norm]; norm_num [abs_of_neg]
    rw [hn, if_neg (by norm_num), alongX_smul, show (0.1 : ℝ) / 2 = 0.05 by norm_num,
      narrow_step 0.02 _ 0.1 (by norm_num) (by norm_num)]
    dsimp only
    rw [show (if (0.02 : ℝ) < 0 then (1 : ℝ) else -1) = -1 by norm_num,
      show max (min (0.1 : ℝ) 0.1) 0.05 = 0.1 by norm_num]
    rw [if_neg (by norm_num), alongX_smul, alongX_add, show (0.02 : ℝ) + 0.1 * -1 = -0.08 by norm_num]
    unfold ndtLoop
    dsimp only
    rw [narrow_solve]
    dsimp only
    have hn2 : norm6 (alongX (-0.08 / (2000 * (-0.08) ^ 2 - 1))) = 0.08 / 11.8 := by
      rw [alongX_norm]; norm_num [abs_of_neg]
    rw [hn2, if_neg (by norm_num), alongX_smul, show (0.1 : ℝ) / 2 = 0.05 by norm_num,
      narrow_step (-0.08) _ _ (by norm_num) (by norm_num)]
    dsimp only
    rw [show (if (-0.08 : ℝ) < 0 then (1 : ℝ) else -1) = 1 by norm_num,
      show max (min (0.08 / 11.8 : ℝ) 0.1) 0.05 = 0.05 by norm_num]
    rw [if_pos (by norm_num), alongX_smul, alongX_add, show (-0.08 : ℝ) + 0.05 * 1 = -0.03 by norm_num]
  · show ndtScore (-1) 1 [narrowItem] (alongX (-0.03)) < _
    rw [hscore, hscore, Real.exp_lt_exp]
    norm_num

/-- Non-vacuity: the standard settings. -/
example : (0 : ℝ) ≤ 0.1 ∧ (0.1 : ℝ) / 2 ≤ 0.1 ∧ narrowEnv.matrix (alongX 0.02) = alongX 0.02 := ⟨by norm_num, by norm_num, rfl⟩

/-- An interval of the search: the numbers kept for its ends are those of the function, the end kept first is the lower one, and the
function falls from there into the interval. -/
structure Brackets (f g : ℝ → ℝ) (v : MtInterval) : Prop where
  fl : v.fl = f v.al
  gl : v.gl = g v.al
  fu : v.fu = f v.au
  gu : v.gu = g v.au
  low : v.fl ≤ v.fu
  falls : v.gl * (v.au - v.al) < 0

/-- C67, the interval of the search for a step: a trial inside the interval makes it smaller, and it still is one in which the function
falls from its lower end; that end never gets worse. The search is only over where the slope is zero. -/
theorem C67_interval (f g : ℝ → ℝ) (v : MtInterval) (h : Brackets f g v) (a : ℝ) (ha : (v.al < a ∧ a < v.au) ∨ (v.au < a ∧ a < v.al)) :
    ((updateIntervalMT v a (f a) (g a)).2 = true → g a = 0 ∧ f a ≤ f v.al) ∧
    ((updateIntervalMT v a (f a) (g a)).2 = false →
      Brackets f g (updateIntervalMT v a (f a) (g a)).1 ∧
      (updateIntervalMT v a (f a) (g a)).1.fl = min v.fl (f a) ∧
      |(updateIntervalMT v a (f a) (g a)).1.au - (updateIntervalMT v a (f a) (g a)).1.al| < |v.au - v.al| ∧
      min v.al v.au ≤ (updateIntervalMT v a (f a) (g a)).1.al ∧ (updateIntervalMT v a (f a) (g a)).1.al ≤ max v.al v.au ∧
      min v.al v.au ≤ (updateIntervalMT v a (f a) (g a)).1.au ∧ (updateIntervalMT v a (f a) (g a)).1.au ≤ max v.al v.au) := by
  obtain ⟨h1, h2, h3, h4, h5, h6⟩ := h
  have hd1 : |a - v.al| < |v.au - v.al| := by
    rcases ha with ⟨p, q⟩ | ⟨p, q⟩
    · rw [abs_of_pos (by linarith), abs_of_pos (by linarith)]; linarith
    · rw [abs_of_neg (by linarith), abs_of_neg (by linarith)]; linarith
  have hd2 : |v.au - a| < |v.au - v.al| := by
    rcases ha with ⟨p, q⟩ | ⟨p, q⟩
    · rw [abs_of_pos (by linarith), abs_of_pos (by linarith)]; linarith
    · rw [abs_of_neg (by linarith), abs_of_neg (by linarith)]; linarith
  have hm : min v.al v.au ≤ a ∧ a ≤ max v.al v.au := by
    rcases ha with ⟨p, q⟩ | ⟨p, q⟩
    · exact ⟨le_trans (min_le_left _ _) p.le, le_trans q.le (le_max_right _ _)⟩
    · exact ⟨le_trans (min_le_right _ _) p.le, le_trans q.le (le_max_left _ _)⟩
  unfold updateIntervalMT
  by_cases c1 : f a > v.fl
  · rw [if_pos c1]
    refine ⟨fun e => absurd e (by simp), fun _ => ⟨⟨h1, h2, rfl, rfl, c1.le, ?_⟩, (min_eq_left c1.le).symm, hd1, min_le_left _ _, le_max_left _ _, hm.1, hm.2⟩⟩
    show v.gl * (a - v.al) < 0
    rcases ha with ⟨p, q⟩ | ⟨p, q⟩
    · have : v.gl < 0 := by
        by_contra hc
        push Not at hc
        have := mul_nonneg hc (show 0 ≤ v.au - v.al by linarith)
        linarith
      exact mul_neg_of_neg_of_pos this (by linarith)
    · have : 0 < v.gl := by
        by_contra hc
        push Not at hc
        have := mul_nonneg_of_nonpos_of_nonpos hc (show v.au - v.al ≤ 0 by linarith)
        linarith
      exact mul_neg_of_pos_of_neg this (by linarith)
  · rw [if_neg c1]
    push Not at c1
    by_cases c2 : g a * (v.al - a) > 0
    · rw [if_pos c2]
      refine ⟨fun e => absurd e (by simp), fun _ => ⟨⟨rfl, rfl, h3, h4, le_trans c1 h5, ?_⟩, (min_eq_right c1).symm, hd2, hm.1, hm.2, min_le_right _ _, le_max_right _ _⟩⟩
      show g a * (v.au - a) < 0
      rcases ha with ⟨p, q⟩ | ⟨p, q⟩
      · have : g a < 0 := by
          by_contra hc
          push Not at hc
          have := mul_nonpos_of_nonneg_of_nonpos hc (show v.al - a ≤ 0 by linarith)
          linarith
        exact mul_neg_of_neg_of_pos this (by linarith)
      · have : 0 < g a := by
          by_contra hc
          push Not at hc
          have := mul_nonpos_of_nonpos_of_nonneg hc (show 0 ≤ v.al - a by linarith)
          linarith
        exact mul_neg_of_pos_of_neg this (by linarith)
    · rw [if_neg c2]
      by_cases c3 : g a * (v.al - a) < 0
      · rw [if_pos c3]
        refine ⟨fun e => absurd e (by simp), fun _ => ⟨⟨rfl, rfl, h1, h2, c1, c3⟩, (min_eq_right c1).symm, ?_, hm.1, hm.2, min_le_left _ _, le_max_left _ _⟩⟩
        rw [abs_sub_comm]
        exact hd1
      · rw [if_neg c3]
        refine ⟨fun _ => ⟨?_, h1 ▸ c1⟩, fun e => absurd e (by simp)⟩
        have : g a * (v.al - a) = 0 := by linarith
        rcases mul_eq_zero.1 this with e | e
        · exact e
        · exfalso
          rcases ha with ⟨p, q⟩ | ⟨p, q⟩ <;> linarith

example : Brackets (fun x => (x - 1) ^ 2) (fun x => 2 * (x - 1)) ⟨0, 1, -2, 3, 4, 4⟩ :=
  ⟨by norm_num, by norm_num, by norm_num, by norm_num, by norm_num, by norm_num⟩

end Verif
