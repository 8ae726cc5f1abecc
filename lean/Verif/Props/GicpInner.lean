import Verif.Spec.GicpInner
import Verif.Props.Gicp
import Verif.Props.Euler
/-! Property theorems C135 (one estimation of generalised ICP). -/
namespace Verif
open Spec

theorem gicpRot_stateOf (R : Mat3) (t : Fin 3 → ℝ) (h : IsRot3 R) (hu : NotUpright R) : gicpRot (stateOf ⟨R, t⟩) = R := by
  have q := rotEq h
  unfold NotUpright at hu
  have hl2 : 0 < 1 - R 2 0 ^ 2 := by linarith
  obtain ⟨L, hL⟩ : ∃ L, L = Real.sqrt (1 - R 2 0 ^ 2) := ⟨_, rfl⟩
  have hsq : L ^ 2 = 1 - R 2 0 ^ 2 := by rw [hL, Real.sq_sqrt hl2.le]
  have hpos : 0 < L := by rw [hL]; exact Real.sqrt_pos.2 hl2
  have hne := ne_of_gt hpos
  have habs : -1 ≤ -R 2 0 ∧ -R 2 0 ≤ 1 := by constructor <;> nlinarith
  have hsq' : L ^ 2 = R 0 0 ^ 2 + R 1 0 ^ 2 := by rw [hsq]; linarith [q.c0]
  unfold gicpRot stateOf
  simp only [Matrix.cons_val]
  rw [Real.sin_arcsin habs.1 habs.2, Real.cos_arcsin, neg_sq, ← hL,
    cos_atan2 (x := R 2 2) (y := R 2 1) hpos (by rw [hsq]; linarith [q.r2]),
    sin_atan2 (x := R 2 2) (y := R 2 1) hpos (by rw [hsq]; linarith [q.r2]),
    cos_atan2 (x := R 0 0) (y := R 1 0) hpos hsq'.symm,
    sin_atan2 (x := R 0 0) (y := R 1 0) hpos hsq'.symm]
  apply mat3_ext <;> simp only [Matrix.of_apply, Matrix.cons_val', Matrix.cons_val, Matrix.cons_val_zero,
    Matrix.cons_val_one] <;> field_simp
  · rw [hsq']; linear_combination (-R 1 0) * q.k22 - (R 0 0) * q.c01
  · rw [hsq']; linear_combination (R 1 0) * q.k21 - (R 0 0) * q.c02
  · rw [hsq']; linear_combination (R 0 0) * q.k22 - (R 1 0) * q.c01
  · rw [hsq']; linear_combination (-R 0 0) * q.k21 - (R 1 0) * q.c02

/-- C135, the start: the minimiser starts at the matrix found so far, unless its first axis points straight up or down. -/
theorem C135_start_partial (t : GicpMat) (h : IsRot3 t.rot) (hu : NotUpright t.rot) : applyState GicpMat.one (stateOf t) = t := by
  obtain ⟨R, v⟩ := t
  unfold applyState GicpMat.one
  rw [gicpRot_stateOf R v h hu, mul_one]
  congr 1
  funext k
  fin_cases k <;> simp [stateOf]

/-- C135, the start fails: if the first axis points straight up or down, the minimiser starts at one and the same rotation
whatever the turn about the vertical was: that turn is forgotten. -/
theorem C135_start_fails (R : Mat3) (v : Fin 3 → ℝ) (h : IsRot3 R) (hu : R 2 0 ^ 2 = 1) :
    (applyState GicpMat.one (stateOf ⟨R, v⟩)).rot = !![0, 0, -R 2 0; 0, 1, 0; R 2 0, 0, 0] := by
  have q := rotEq h
  have h00 : R 0 0 = 0 := by
    have : R 0 0 ^ 2 = 0 := by nlinarith [q.c0, sq_nonneg (R 0 0), sq_nonneg (R 1 0)]
    exact pow_eq_zero_iff (two_ne_zero) |>.1 this
  have h10 : R 1 0 = 0 := by
    have : R 1 0 ^ 2 = 0 := by nlinarith [q.c0, sq_nonneg (R 0 0), sq_nonneg (R 1 0)]
    exact pow_eq_zero_iff (two_ne_zero) |>.1 this
  have h21 : R 2 1 = 0 := by
    have : R 2 1 ^ 2 = 0 := by nlinarith [q.r2, sq_nonneg (R 2 1), sq_nonneg (R 2 2)]
    exact pow_eq_zero_iff (two_ne_zero) |>.1 this
  have h22 : R 2 2 = 0 := by
    have : R 2 2 ^ 2 = 0 := by nlinarith [q.r2, sq_nonneg (R 2 1), sq_nonneg (R 2 2)]
    exact pow_eq_zero_iff (two_ne_zero) |>.1 this
  have habs : -1 ≤ -R 2 0 ∧ -R 2 0 ≤ 1 := by constructor <;> nlinarith
  have hz : atan2 0 0 = 0 := by
    unfold atan2
    rw [show (⟨0, 0⟩ : ℂ) = 0 from rfl, Complex.arg_zero]
  unfold applyState GicpMat.one gicpRot stateOf
  simp only [Matrix.cons_val, h00, h10, h21, h22, hz, mul_one]
  rw [Real.sin_arcsin habs.1 habs.2, Real.cos_arcsin, neg_sq, hu, sub_self, Real.sqrt_zero]
  apply mat3_ext <;> simp

theorem meanApart_final (guess : GicpMat) (x : GicpVec) (pairs : List GicpPair) :
    meanApart (gicpFinal (applyState GicpMat.one x) guess).rot (gicpFinal (applyState GicpMat.one x) guess).shift pairs =
      (gicpFdf guess x pairs).1 := by
  have h := (C76_threads 1 guess x (pairs.map (fun c => ((0 : Fin 1), c))) pairs (by simp [Function.comp_def])).2.1
  rw [h]
  unfold meanApart gicpCost
  congr 3
  funext c
  congr 1
  funext k
  rw [← gicpAct_eq]
  simp only [gicpFinal, applyState, GicpMat.one, GicpMat.act, mul_one, Pi.zero_apply, zero_add]
  ring

theorem innerLoop_after {σ : Type} (B : Bfgs σ) (left : Nat) : ∀ (s : σ) (x : GicpVec),
    1 ≤ (innerLoop B left s x).2.2 ∧ (innerLoop B left s x).2.2 ≤ left + 1 ∧
    (innerLoop B left s x).1 = (afterSteps B x s (innerLoop B left s x).2.2).2.1 ∧
    (∀ j, 0 < j → j < (innerLoop B left s x).2.2 →
      (afterSteps B x s j).2.2 = .success ∧ B.test (afterSteps B x s j).1 = .running) ∧
    (((afterSteps B x s (innerLoop B left s x).2.2).2.2 ≠ .success ∧
        (innerLoop B left s x).2.1 = (afterSteps B x s (innerLoop B left s x).2.2).2.2) ∨
      ((afterSteps B x s (innerLoop B left s x).2.2).2.2 = .success ∧
        (innerLoop B left s x).2.1 = B.test (afterSteps B x s (innerLoop B left s x).2.2).1 ∧
        (B.test (afterSteps B x s (innerLoop B left s x).2.2).1 ≠ .running ∨ (innerLoop B left s x).2.2 = left + 1))) := by
  induction left with
  | zero =>
    intro s x
    unfold innerLoop
    dsimp only
    by_cases h : (B.step s x).2.2 = .success
    · rw [if_neg (not_not.2 h)]
      refine ⟨le_refl _, le_refl _, rfl, fun j h1 h2 => absurd h2 (by dsimp only; omega), Or.inr ⟨h, rfl, Or.inr rfl⟩⟩
    · rw [if_pos h]
      exact ⟨le_refl _, le_refl _, rfl, fun j h1 h2 => absurd h2 (by dsimp only; omega), Or.inl ⟨h, rfl⟩⟩
  | succ left ih =>
    intro s x
    unfold innerLoop
    dsimp only
    by_cases h : (B.step s x).2.2 = .success
    · rw [if_neg (not_not.2 h)]
      by_cases ht : B.test (B.step s x).1 = .running
      · rw [if_pos ht]
        have hs : ∀ n, afterSteps B x s (n + 1) = afterSteps B (B.step s x).2.1 (B.step s x).1 n := by
          intro n
          induction n with
          | zero =>
            show B.step s x = ((B.step s x).1, (B.step s x).2.1, BfgsStatus.success)
            rw [← h]
          | succ n ihn =>
            rw [afterSteps, ihn]
            rfl
        obtain ⟨a, b, c, d, e⟩ := ih (B.step s x).1 (B.step s x).2.1
        generalize innerLoop B left (B.step s x).1 (B.step s x).2.1 = q at a b c d e ⊢
        dsimp only
        rw [hs]
        refine ⟨by omega, by omega, c, ?_, ?_⟩
        · intro j h1 h2
          obtain ⟨i, rfl⟩ : ∃ i, j = i + 1 := ⟨j - 1, by omega⟩
          rw [hs]
          rcases Nat.eq_zero_or_pos i with rfl | hi
          · exact ⟨rfl, ht⟩
          · exact d i hi (by omega)
        · rcases e with e | ⟨e1, e2, e3⟩
          · exact Or.inl e
          · refine Or.inr ⟨e1, e2, ?_⟩
            rcases e3 with e3 | e3
            · exact Or.inl e3
            · exact Or.inr (by omega)
      · rw [if_neg ht]
        exact ⟨le_refl _, Nat.succ_le_succ (Nat.zero_le _), rfl, fun j h1 h2 => absurd h2 (by dsimp only; omega), Or.inr ⟨h, rfl, Or.inl ht⟩⟩
    · rw [if_pos h]
      exact ⟨le_refl _, Nat.succ_le_succ (Nat.zero_le _), rfl, fun j h1 h2 => absurd h2 (by dsimp only; omega), Or.inl ⟨h, rfl⟩⟩

/-- C135, when it stops: the state that is kept is the one after `n` steps from the start, at least one and no more than the
limit allows; before that every step went well and the gradient was too large, and then the step made no progress, or the
gradient was small, or the limit was reached. -/
theorem C135_stop {σ : Type} (B : Bfgs σ) (hB : PclAnswers B) (limit : Nat) (cur : GicpMat) (x : GicpVec)
    (h : innerEstimate B limit cur = some x) :
    ∃ n, 1 ≤ n ∧ n ≤ max 1 limit ∧ x = (afterSteps B (stateOf cur) (B.init (stateOf cur)) n).2.1 ∧
      (∀ j, 0 < j → j < n → (afterSteps B (stateOf cur) (B.init (stateOf cur)) j).2.2 = .success ∧
        B.test (afterSteps B (stateOf cur) (B.init (stateOf cur)) j).1 = .running) ∧
      ((afterSteps B (stateOf cur) (B.init (stateOf cur)) n).2.2 = .noProgress ∨
        B.test (afterSteps B (stateOf cur) (B.init (stateOf cur)) n).1 = .success ∨ n = limit) := by
  unfold innerEstimate at h
  dsimp only at h
  split at h
  · rename_i hc
    rw [Option.some.injEq] at h
    obtain ⟨a, b, c, d, e⟩ := innerLoop_after B (limit - 1) (B.init (stateOf cur)) (stateOf cur)
    refine ⟨_, a, by omega, by rw [← h]; exact c, d, ?_⟩
    rcases e with ⟨e1, e2⟩ | ⟨e1, e2, e3⟩
    · left
      generalize hn : (innerLoop B (limit - 1) (B.init (stateOf cur)) (stateOf cur)).2.2 = n at *
      obtain ⟨m, rfl⟩ : ∃ m, n = m + 1 := ⟨n - 1, by omega⟩
      rcases hB.1 (afterSteps B (stateOf cur) (B.init (stateOf cur)) m).1
        (afterSteps B (stateOf cur) (B.init (stateOf cur)) m).2.1 with g | g
      · exact absurd g e1
      · exact g
    · right
      rcases hc with hc | hc | hc
      · exfalso
        rw [e2] at hc
        rcases hB.2 (afterSteps B (stateOf cur) (B.init (stateOf cur))
          (innerLoop B (limit - 1) (B.init (stateOf cur)) (stateOf cur)).2.2).1 with g | g <;> rw [g] at hc <;> cases hc
      · left
        rw [← e2]
        exact hc
      · right
        exact hc
  · cases h

/-- C135, never refused: with a limit of at least one step, an estimation gives a matrix exactly when there are four
correspondences. -/
theorem C135_answers {σ : Type} (B : GicpMat → List GicpPair → Bfgs σ) (guess : GicpMat) (pairs : List GicpPair)
    (hB : PclAnswers (B guess pairs)) (limit : Nat) (hl : 1 ≤ limit) (cur : GicpMat) :
    gicpEstimate (bfgsSolver B limit) guess pairs cur = none ↔ pairs.length < 4 := by
  unfold gicpEstimate bfgsSolver innerEstimate
  dsimp only
  by_cases h4 : pairs.length < 4
  · simp [h4]
  · rw [if_neg h4]
    refine iff_of_false ?_ h4
    obtain ⟨a, b, c, d, e⟩ := innerLoop_after (B guess pairs) (limit - 1) ((B guess pairs).init (stateOf cur)) (stateOf cur)
    have hc : (innerLoop (B guess pairs) (limit - 1) ((B guess pairs).init (stateOf cur)) (stateOf cur)).2.1 = .noProgress ∨
        (innerLoop (B guess pairs) (limit - 1) ((B guess pairs).init (stateOf cur)) (stateOf cur)).2.1 = .success ∨
        (innerLoop (B guess pairs) (limit - 1) ((B guess pairs).init (stateOf cur)) (stateOf cur)).2.2 = limit := by
      generalize innerLoop (B guess pairs) (limit - 1) ((B guess pairs).init (stateOf cur)) (stateOf cur) = o at *
      rcases e with ⟨e1, e2⟩ | ⟨e1, e2, e3⟩
      · left
        rw [e2]
        obtain ⟨m, hm⟩ : ∃ m, o.2.2 = m + 1 := ⟨o.2.2 - 1, by omega⟩
        rw [hm] at e1 ⊢
        rcases hB.1 (afterSteps (B guess pairs) (stateOf cur) ((B guess pairs).init (stateOf cur)) m).1
          (afterSteps (B guess pairs) (stateOf cur) ((B guess pairs).init (stateOf cur)) m).2.1 with g | g
        · exact absurd g e1
        · exact g
      · right
        rcases e3 with e3 | e3
        · left
          rw [e2]
          rcases hB.2 (afterSteps (B guess pairs) (stateOf cur) ((B guess pairs).init (stateOf cur)) o.2.2).1 with g | g
          · exact g
          · exact absurd g e3
        · right
          omega
    rw [if_pos hc]
    simp

/-- C135, a limit of 0 is not "no step": one step is made, and its result is thrown away with an exception unless the gradient
happens to be small or the step got nowhere. -/
theorem C135_limit_fails {σ : Type} (B : Bfgs σ) (cur : GicpMat)
    (h1 : (B.step (B.init (stateOf cur)) (stateOf cur)).2.2 = .success)
    (h2 : B.test (B.step (B.init (stateOf cur)) (stateOf cur)).1 = .running) : innerEstimate B 0 cur = none := by
  unfold innerEstimate innerLoop
  simp [h1, h2]

/-- C135, the part that holds: if no step of the minimiser raises the value it is given, an estimation does not move the
corresponding points further apart, whatever the guess: under the new matrix they are on average at most as far apart as
under the matrix before, unless the first axis of the matrix before points straight up or down. -/
theorem C135_no_worse_partial {σ : Type} (B : GicpMat → List GicpPair → Bfgs σ) (guess : GicpMat) (pairs : List GicpPair)
    (hB : NeverRaises (B guess pairs) (fun x => (gicpFdf guess x pairs).1)) (limit : Nat) (cur next : GicpMat)
    (hr : IsRot3 cur.rot) (hu : NotUpright cur.rot) (h : gicpEstimate (bfgsSolver B limit) guess pairs cur = some next) :
    meanApart (gicpFinal next guess).rot (gicpFinal next guess).shift pairs ≤
      meanApart (gicpFinal cur guess).rot (gicpFinal cur guess).shift pairs := by
  unfold gicpEstimate bfgsSolver at h
  split at h
  · cases h
  · rw [Option.map_eq_some_iff] at h
    obtain ⟨x, hx, rfl⟩ := h
    unfold innerEstimate at hx
    dsimp only at hx
    split at hx
    · rw [Option.some.injEq] at hx
      have hafter : ∀ n, (gicpFdf guess (afterSteps (B guess pairs) (stateOf cur) ((B guess pairs).init (stateOf cur)) n).2.1 pairs).1
          ≤ (gicpFdf guess (stateOf cur) pairs).1 := by
        intro n
        induction n with
        | zero => exact le_refl _
        | succ n ih => exact (hB _ _).trans ih
      have hc := (innerLoop_after (B guess pairs) (limit - 1) ((B guess pairs).init (stateOf cur)) (stateOf cur)).2.2.1
      rw [hx] at hc
      rw [meanApart_final, hc]
      refine (hafter _).trans (le_of_eq ?_)
      rw [← meanApart_final, C135_start_partial cur hr hu]
    · cases hx

/-! ### the first axis straight down -/

/-- A minimiser that stays where it is. -/
def stayBfgs : Bfgs Unit := ⟨fun _ => (), fun _ x => ((), x, .noProgress), fun _ => .success⟩
/-- The first axis straight down, the second along x. -/
def downMat : GicpMat := ⟨!![0, 1, 0; 0, 0, -1; -1, 0, 0], 0⟩
def downPair : GicpPair := ⟨![0, 1, 0], ![1, 0, 0], 1⟩

theorem downMat_rot : IsRot3 downMat.rot := by
  constructor
  · unfold downMat
    apply mat3_ext <;> simp [Matrix.mul_apply, Fin.sum_univ_three]
  · unfold downMat
    simp [Matrix.det_fin_three]

/-- C135 fails in that position: the points lie exactly on their partners, the minimiser changes nothing, and yet after the
estimation they are apart. -/
theorem C135_no_worse_fails : ¬ ∀ (B : GicpMat → List GicpPair → Bfgs Unit) (guess : GicpMat) (pairs : List GicpPair)
    (limit : Nat) (cur next : GicpMat), NeverRaises (B guess pairs) (fun x => (gicpFdf guess x pairs).1) →
    PclAnswers (B guess pairs) → IsRot3 cur.rot → gicpEstimate (bfgsSolver B limit) guess pairs cur = some next →
    meanApart (gicpFinal next guess).rot (gicpFinal next guess).shift pairs ≤
      meanApart (gicpFinal cur guess).rot (gicpFinal cur guess).shift pairs := by
  intro h
  have h1 := h (fun _ _ => stayBfgs) GicpMat.one (List.replicate 4 downPair) 20 downMat
    (applyState GicpMat.one (stateOf downMat)) (fun s x => le_refl _) ⟨fun _ _ => Or.inr rfl, fun _ => Or.inl rfl⟩
    downMat_rot (by
      unfold gicpEstimate bfgsSolver innerEstimate innerLoop stayBfgs
      simp)
  have hrot : (applyState GicpMat.one (stateOf downMat)).rot = !![0, 0, 1; 0, 1, 0; -1, 0, 0] := by
    have := C135_start_fails downMat.rot 0 downMat_rot (by simp [downMat])
    have e : (⟨downMat.rot, 0⟩ : GicpMat) = downMat := rfl
    rw [e] at this
    rw [this]
    apply mat3_ext <;> simp [downMat]
  have hshift : (applyState GicpMat.one (stateOf downMat)).shift = 0 := by
    funext k
    fin_cases k <;> simp [applyState, GicpMat.one, stateOf, downMat]
  simp only [gicpFinal, hrot, hshift] at h1
  simp [meanApart, mahalanobis, GicpMat.one, downMat, downPair, Fin.sum_univ_three, Matrix.one_apply, List.replicate,
    Matrix.vecHead, Matrix.vecTail] at h1
  norm_num at h1

/-- A start that is not upright: a quarter turn about z. -/
example : IsRot3 (rotZ (Real.pi / 2)) ∧ NotUpright (rotZ (Real.pi / 2)) :=
  ⟨rotZ_rotation _, by simp [NotUpright, rotZ]⟩

/-- A minimiser that answers and never raises the value. -/
example (f : (Fin 6 → ℝ) → ℝ) : NeverRaises stayBfgs f ∧ PclAnswers stayBfgs ∧
    innerEstimate stayBfgs 20 GicpMat.one = some (stateOf GicpMat.one) :=
  ⟨fun _ _ => le_refl _, ⟨fun _ _ => Or.inr rfl, fun _ => Or.inl rfl⟩, by simp [innerEstimate, innerLoop, stayBfgs]⟩
end Verif
