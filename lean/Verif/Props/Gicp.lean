import Verif.Proofs.Gicp
/-! C76: generalised ICP minimises what it says it minimises. -/
namespace Verif
open Spec

/-- The value and the gradient do not depend on how the correspondences are shared out among the threads,
and the three functions handed to the solver agree with each other: the value is the mean squared
distance. -/
theorem C76_threads (n : Nat) (base : GicpMat) (x : GicpVec) (schedule : List (Fin n × GicpPair)) (pairs : List GicpPair)
    (h : (schedule.map (·.2)).Perm pairs) :
    gicpValue n base x schedule = gicpCost base pairs x ∧ (gicpFdf base x pairs).1 = gicpCost base pairs x ∧
    gicpDf n base x schedule = (gicpFdf base x pairs).2 := by
  have hl : schedule.length = pairs.length := by simpa using h.length_eq
  have h2 : (gicpFdf base x pairs).1 = gicpCost base pairs x := by
    unfold gicpFdf gicpCost
    dsimp only
    rw [fold_add, zero_add, gsum_fst, List.map_map]
    simp only [Function.comp_def, gicpTerm_f]
  refine ⟨?_, h2, ?_⟩
  · unfold gicpValue gicpCost
    rw [gicpThreads_eq n base x schedule pairs h, hl, gsum_fst, List.map_map]
    simp only [Function.comp_def, gicpTerm_f]
  · unfold gicpDf gicpFdf
    dsimp only
    rw [gicpThreads_eq n base x schedule pairs h, hl, fold_add, zero_add]

/-- The shift part of the gradient in terms of the pairs. -/
theorem gicpFdf_shift (base : GicpMat) (x : GicpVec) (pairs : List GicpPair) (hs : ∀ c ∈ pairs, c.maha.transpose = c.maha)
    (i : Fin 6) (hi : i < 3) : (gicpFdf base x pairs).2 i =
      (pairs.map fun c => 2 * dot3 (fun k => gicpPlace base x c.src k - c.tgt k)
        (matCol c.maha (gicpGrad x (base.rot.mulVec c.src) i))).sum / pairs.length := by
  unfold gicpFdf
  dsimp only
  rw [fold_add, zero_add, div_eq_mul_inv, sum_mul_right']
  fin_cases i
  rotate_left 3
  iterate 3 exact absurd hi (by decide)
  all_goals
    simp only [gicpFinish, Fin.zero_eta, Fin.mk_one, Fin.reduceFinMk, Matrix.cons_val, gsum_g, List.map_map, sum_mul_right',
      Function.comp_def]
    congr 1
    apply List.map_congr_left
    intro c hc
    have e := metric_symm _ (hs c hc)
    simp only [gicpTerm, gicpTemp, gicpRes, gicpAct_eq, gicpGrad, dot3, matCol, Matrix.mulVec, dotProduct, Fin.sum_univ_three,
      Matrix.cons_val]
    rw [e 1 0, e 2 0, e 2 1]
    ring

theorem gicpFdf_turn (base : GicpMat) (x : GicpVec) (pairs : List GicpPair)
    (i : Fin 6) (hi : 3 ≤ i) : (gicpFdf base x pairs).2 i =
      (pairs.map fun c => 2 * dot3 (gicpGrad x (base.act c.src) i)
        (matCol c.maha (fun k => gicpPlace base x c.src k - c.tgt k))).sum / pairs.length := by
  unfold gicpFdf
  dsimp only
  rw [fold_add, zero_add, div_eq_mul_inv, sum_mul_right']
  fin_cases i
  iterate 3 exact absurd hi (by decide)
  all_goals
    simp only [gicpFinish, Fin.reduceFinMk, Matrix.cons_val, gsum_r, List.map_map, Function.comp_def]
    rw [innerProd_sum]
    congr 1
    apply List.map_congr_left
    intro c hc
    simp only [gicpTerm, gicpTemp, gicpRes, gicpAct_eq, gicpGrad, innerProd, dot3, matCol, Matrix.mulVec, dotProduct,
      Fin.sum_univ_three, Matrix.cons_val]
    ring

/-- The shift part of the gradient handed to the solver is the gradient of the cost. -/
theorem C76_gradient_shift (base : GicpMat) (x : GicpVec) (pairs : List GicpPair)
    (hs : ∀ c ∈ pairs, c.maha.transpose = c.maha) (i : Fin 6) (hi : i < 3) :
    Partial (gicpCost base pairs) i x ((gicpFdf base x pairs).2 i) := by
  rw [gicpFdf_shift base x pairs hs i hi]
  exact gicpCost_deriv base pairs hs x i

theorem dot_swap (m : Mat3) (h : m.transpose = m) (a b : Fin 3 → ℝ) : dot3 a (matCol m b) = dot3 b (matCol m a) := by
  have e := metric_symm _ h
  unfold dot3 matCol
  rw [e 1 0, e 2 0, e 2 1]
  ring

/-- If the guess does not move the origin, the whole gradient is the gradient of the cost. -/
theorem C76_gradient_partial (base : GicpMat) (hb : base.shift = 0) (x : GicpVec) (pairs : List GicpPair)
    (hs : ∀ c ∈ pairs, c.maha.transpose = c.maha) (i : Fin 6) :
    Partial (gicpCost base pairs) i x ((gicpFdf base x pairs).2 i) := by
  by_cases hi : i < 3
  · exact C76_gradient_shift base x pairs hs i hi
  · rw [gicpFdf_turn base x pairs i (not_lt.mp hi)]
    have e : ∀ p, base.act p = base.rot.mulVec p := by
      intro p; funext k; simp [GicpMat.act, hb]
    have := gicpCost_deriv base pairs hs x i
    have e2 : (pairs.map fun c => 2 * dot3 (gicpGrad x (base.act c.src) i)
        (matCol c.maha (fun k => gicpPlace base x c.src k - c.tgt k))) =
        (pairs.map fun c => 2 * dot3 (fun k => gicpPlace base x c.src k - c.tgt k)
        (matCol c.maha (gicpGrad x (base.rot.mulVec c.src) i))) := by
      apply List.map_congr_left
      intro c hc
      rw [e, dot_swap _ (hs c hc)]
    rw [e2]
    exact this

/-- A guess that moves the origin. -/
def movedGuess : GicpMat := ⟨1, ![1, 0, 0]⟩
def movedPair : GicpPair := ⟨![0, 0, 0], ![0, 0, 0], 1⟩

/-- If the guess moves the origin, the gradient by an angle can be wrong: here turning cannot change the
cost at all (the source point is the origin), yet the gradient says it does. -/
theorem C76_gradient_fails : ¬ ∀ (base : GicpMat) (x : GicpVec) (pairs : List GicpPair),
    (∀ c ∈ pairs, c.maha.transpose = c.maha) → ∀ i : Fin 6,
      Partial (gicpCost base pairs) i x ((gicpFdf base x pairs).2 i) := by
  intro h
  have hs : ∀ c ∈ [movedPair], c.maha.transpose = c.maha := by
    intro c hc
    rw [List.mem_singleton] at hc
    subst hc
    exact Matrix.transpose_one
  have h1 := h movedGuess ![0, 1, 0, 0, 0, 0] [movedPair] hs 5
  have h2 := gicpCost_deriv movedGuess [movedPair] hs ![0, 1, 0, 0, 0, 0] 5
  have h3 := HasDerivAt.unique h1 h2
  rw [gicpFdf_turn _ _ _ _ (by decide)] at h3
  simp [movedGuess, movedPair, GicpMat.act, gicpGrad, dRdPsi, dot3, matCol, gicpPlace, rotX, rotY, rotZ, Matrix.mulVec,
    dotProduct, Fin.sum_univ_three] at h3

/-- The hypotheses of `C76_gradient_partial` and a gradient that is not zero. -/
example : ∃ (base : GicpMat) (x : GicpVec) (pairs : List GicpPair), base.shift = 0 ∧
    (∀ c ∈ pairs, c.maha.transpose = c.maha) ∧ (gicpFdf base x pairs).2 0 ≠ 0 := by
  refine ⟨⟨1, 0⟩, ![1, 0, 0, 0, 0, 0], [movedPair], rfl, ?_, ?_⟩
  · intro c hc
    rw [List.mem_singleton] at hc
    subst hc
    exact Matrix.transpose_one
  · rw [gicpFdf_shift _ _ _ (by
      intro c hc
      rw [List.mem_singleton] at hc
      subst hc
      exact Matrix.transpose_one) _ (by decide)]
    simp [movedPair, gicpGrad, dot3, matCol, gicpPlace, Matrix.mulVec, dotProduct, Fin.sum_univ_three]

/-- What the matching loop gives: no read past the end, and every distance is a metric. -/
theorem gicpMatch_ok (tgt : List (Fin 3 → ℝ)) (covS covT : List Mat3) (near : (Fin 3 → ℝ) → Option Nat) (guess cur : GicpMat)
    (hS : ∀ c ∈ covS, IsMetric c) (hT : ∀ c ∈ covT, IsMetric c) (hlT : tgt.length ≤ covT.length)
    (hn : ∀ q j, near q = some j → j < tgt.length) (l : List ((Fin 3 → ℝ) × Nat)) (hl : ∀ e ∈ l, e.2 < covS.length) :
    ∃ pairs, gicpMatch tgt covS covT near guess cur l = .ok pairs ∧
      ∀ c ∈ pairs, IsMetric c.maha ∧ (∃ i, (c.src, i) ∈ l) ∧
        ∃ j, near (gicpQuery guess cur c.src) = some j ∧ tgt[j]? = some c.tgt := by
  induction l with
  | nil => exact ⟨[], rfl, by simp⟩
  | cons e rest ih =>
    obtain ⟨p, i⟩ := e
    obtain ⟨pairs, hp, hm⟩ := ih (fun e he => hl e (by simp [he]))
    have hi : i < covS.length := hl (p, i) (by simp)
    cases hnear : near (gicpQuery guess cur p) with
    | none =>
      refine ⟨pairs, ?_, fun c hc => ?_⟩
      · simp only [gicpMatch, hnear, hp]
      · obtain ⟨a, ⟨k, hk⟩, b⟩ := hm c hc
        exact ⟨a, ⟨k, by simp [hk]⟩, b⟩
    | some j =>
      have hj := hn _ _ hnear
      have hj2 : j < covT.length := lt_of_lt_of_le hj hlT
      have e1 : covS[i]? = some covS[i] := List.getElem?_eq_getElem hi
      have e2 : covT[j]? = some covT[j] := List.getElem?_eq_getElem hj2
      have e3 : tgt[j]? = some tgt[j] := List.getElem?_eq_getElem hj
      refine ⟨⟨p, tgt[j], ((cur.rot * guess.rot) * covS[i] * (cur.rot * guess.rot).transpose + covT[j])⁻¹⟩ :: pairs, ?_,
        fun c hc => ?_⟩
      · simp only [gicpMatch, hnear, hp, e1, e2, e3]
        rfl
      · rcases List.mem_cons.mp hc with hc | hc
        · subst hc
          exact ⟨(metric_inv _ (metric_sum _ _ _ (hS _ (List.getElem_mem _)) (hT _ (List.getElem_mem _)))).2,
            ⟨i, by simp⟩, j, hnear, e3⟩
        · obtain ⟨a, ⟨k, hk⟩, b⟩ := hm c hc
          exact ⟨a, ⟨k, by simp [hk]⟩, b⟩

theorem gicpCovs_metric (k : Nat) (eps : ℝ) (h0 : 0 < eps) (svd : Nat → Mat3) (hu : ∀ i, (svd i).transpose * svd i = 1)
    (size : Nat) : ∀ c ∈ gicpCovs k eps svd size, IsMetric c := by
  intro c hc
  unfold gicpCovs at hc
  split at hc
  · simp at hc
  · obtain ⟨i, _, rfl⟩ := List.mem_map.mp hc
    exact gicpCov_metric eps h0 _ (hu i)

theorem gicpCovs_length (k : Nat) (eps : ℝ) (svd : Nat → Mat3) (size : Nat) (h : k ≤ size) :
    (gicpCovs k eps svd size).length = size := by
  unfold gicpCovs
  rw [if_neg (by omega)]
  simp

/-- Both clouds have at least `k` points, the decompositions are orthogonal, neighbours are points of the
target. -/
structure GicpOk (k : Nat) (eps : ℝ) (src tgt : GicpCloud) (near : (Fin 3 → ℝ) → Option Nat) : Prop where
  eps_pos : 0 < eps
  src_big : k ≤ src.points.length
  tgt_big : k ≤ tgt.points.length
  src_svd : ∀ i, (src.svd i).transpose * src.svd i = 1
  tgt_svd : ∀ i, (tgt.svd i).transpose * tgt.svd i = 1
  near_ok : ∀ q j, near q = some j → j < tgt.points.length

/-- Every distance the solver is given is a metric, whatever the pose: the cost is never negative and is
zero only if all points meet their partners. -/
theorem C76_metric (k : Nat) (eps : ℝ) (src tgt : GicpCloud) (near : (Fin 3 → ℝ) → Option Nat)
    (h : GicpOk k eps src tgt near) (guess cur : GicpMat) : ∃ pairs : List GicpPair,
    gicpMatch tgt.points (gicpCovs k eps src.svd src.points.length) (gicpCovs k eps tgt.svd tgt.points.length) near guess cur
      src.points.zipIdx = .ok pairs ∧
    (∀ c ∈ pairs, IsMetric c.maha ∧ c.src ∈ src.points ∧
      ∃ j, near (gicpQuery guess cur c.src) = some j ∧ tgt.points[j]? = some c.tgt) ∧
    ∀ x, 0 ≤ gicpCost guess pairs x ∧
      (gicpCost guess pairs x = 0 → ∀ c ∈ pairs, gicpPlace guess x c.src = c.tgt) := by
  obtain ⟨pairs, hp, hm⟩ := gicpMatch_ok tgt.points (gicpCovs k eps src.svd src.points.length)
    (gicpCovs k eps tgt.svd tgt.points.length) near guess cur (gicpCovs_metric k eps h.eps_pos _ h.src_svd _)
    (gicpCovs_metric k eps h.eps_pos _ h.tgt_svd _) (by rw [gicpCovs_length _ _ _ _ h.tgt_big]) h.near_ok
    src.points.zipIdx (by
      intro e he
      rw [gicpCovs_length _ _ _ _ h.src_big]
      obtain ⟨p, i⟩ := e
      have := List.mem_zipIdx he
      simpa using this.2.1)
  refine ⟨pairs, hp, ?_, ?_⟩
  · intro c hc
    obtain ⟨a, ⟨i, hi⟩, b⟩ := hm c hc
    refine ⟨a, ?_, b⟩
    have := List.mem_zipIdx hi
    rw [this.2.2]
    exact List.getElem_mem _
  · intro x
    have hnn : ∀ e ∈ pairs.map fun c => mahalanobis c.maha (fun k => gicpPlace guess x c.src k - c.tgt k), 0 ≤ e := by
      intro e he
      obtain ⟨c, hc, rfl⟩ := List.mem_map.mp he
      by_cases hz : (fun k => gicpPlace guess x c.src k - c.tgt k) = 0
      · rw [hz]; simp [mahalanobis]
      · exact le_of_lt ((hm c hc).1.2 _ hz)
    refine ⟨div_nonneg (List.sum_nonneg hnn) (by positivity), ?_⟩
    intro hz c hc
    have hlen : (pairs.length : ℝ) ≠ 0 := by
      have : pairs.length ≠ 0 := by
        intro h0
        rw [List.length_eq_zero_iff] at h0
        subst h0
        simp at hc
      exact_mod_cast this
    have hs : (pairs.map fun c => mahalanobis c.maha (fun k => gicpPlace guess x c.src k - c.tgt k)).sum = 0 := by
      unfold gicpCost at hz
      rcases div_eq_zero_iff.mp hz with h | h
      · exact h
      · exact absurd h hlen
    by_contra hne
    have hv : (fun k => gicpPlace guess x c.src k - c.tgt k) ≠ 0 := by
      intro h0
      apply hne
      funext k
      have := congrFun h0 k
      simp only [Pi.zero_apply] at this
      linarith
    have := List.single_le_sum hnn _ (List.mem_map.mpr ⟨c, hc, rfl⟩)
    rw [hs] at this
    have hp := (hm c hc).1.2 _ hv
    linarith

/-- The loop ends after at most `left + 1` estimations, without reading past the end, with the identity or
with what the solver found. -/
theorem gicpLoop_ok (k : Nat) (eps : ℝ) (src tgt : GicpCloud) (near : (Fin 3 → ℝ) → Option Nat)
    (h : GicpOk k eps src tgt near) (solve : GicpSolver) (done : GicpMat → GicpMat → Bool) (guess : GicpMat) (left : Nat)
    (cur : GicpMat) (hc : ∃ x, cur = applyState GicpMat.one x) : ∃ r : GicpRun,
    gicpLoop src tgt (gicpCovs k eps src.svd src.points.length) (gicpCovs k eps tgt.svd tgt.points.length) near solve done
      guess left cur = .ok r ∧ 1 ≤ r.rounds ∧ r.rounds ≤ left + 1 ∧ ∃ x, r.prev = applyState GicpMat.one x := by
  induction left generalizing cur with
  | zero =>
    obtain ⟨pairs, hp, _⟩ := C76_metric k eps src tgt near h guess cur
    rw [gicpLoop]
    simp only [hp]
    cases he : gicpEstimate solve guess pairs cur with
    | none => exact ⟨_, rfl, le_refl _, le_refl _, hc⟩
    | some next =>
      refine ⟨_, rfl, le_refl _, le_refl _, ?_⟩
      unfold gicpEstimate at he
      split at he
      · simp at he
      · obtain ⟨x, _, rfl⟩ := Option.map_eq_some_iff.mp he
        exact ⟨x, rfl⟩
  | succ left ih =>
    obtain ⟨pairs, hp, _⟩ := C76_metric k eps src tgt near h guess cur
    rw [gicpLoop]
    simp only [hp]
    cases he : gicpEstimate solve guess pairs cur with
    | none => exact ⟨_, rfl, le_refl _, by simp, hc⟩
    | some next =>
      have hx : ∃ x, next = applyState GicpMat.one x := by
        unfold gicpEstimate at he
        split at he
        · simp at he
        · obtain ⟨x, _, rfl⟩ := Option.map_eq_some_iff.mp he
          exact ⟨x, rfl⟩
      simp only
      by_cases hd : done cur next = true
      · rw [if_pos hd]
        exact ⟨_, rfl, le_refl _, by simp, hx⟩
      · rw [if_neg hd]
        obtain ⟨r, hr, h1, h2, h3⟩ := ih next hx
        rw [hr]
        exact ⟨_, rfl, by simp, by simpa using h2, h3⟩

theorem one_state : GicpMat.one = applyState GicpMat.one 0 := by
  unfold applyState GicpMat.one
  congr 1
  · rw [gicpRot_eq]
    ext i j
    fin_cases i <;> fin_cases j <;> simp [rotX, rotY, rotZ, Matrix.mul_apply, Fin.sum_univ_three]
  · funext k
    fin_cases k <;> simp

theorem final_state (guess : GicpMat) (x : GicpVec) : gicpFinal (applyState GicpMat.one x) guess = applyState guess x := by
  unfold gicpFinal applyState GicpMat.one
  simp only [Matrix.mul_one, GicpMat.mk.injEq, true_and]
  funext k
  simp
  ring

theorem gicpMatch_count (tgt : List (Fin 3 → ℝ)) (covS covT : List Mat3) (near : (Fin 3 → ℝ) → Option Nat)
    (guess cur : GicpMat) (l : List ((Fin 3 → ℝ) × Nat)) (pairs : List GicpPair)
    (h : gicpMatch tgt covS covT near guess cur l = .ok pairs) :
    pairs.length = ((l.map Prod.fst).filter fun p => (near (gicpQuery guess cur p)).isSome).length := by
  induction l generalizing pairs with
  | nil => simp only [gicpMatch, Outcome.ok.injEq] at h; subst h; rfl
  | cons e rest ih =>
    obtain ⟨p, i⟩ := e
    cases hn : near (gicpQuery guess cur p) with
    | none =>
      simp only [gicpMatch, hn] at h
      rw [ih pairs h]
      simp [List.filter_cons, hn]
    | some j =>
      simp only [gicpMatch, hn] at h
      split at h
      · obtain ⟨more, hm, h2⟩ := (Outcome.bind_eq_ok _ _ _).mp h
        simp only [Outcome.pure_eq, Outcome.ok.injEq] at h2
        subst h2
        simp [List.filter_cons, hn, ih more hm]
      · cases h

/-- If fewer than four source points, placed by the guess, have a target point within the limit, the
alignment gives back the guess and reports no convergence, whatever the solver does. -/
theorem C76_few (k : Nat) (eps : ℝ) (maxIter : Nat) (src tgt : GicpCloud) (near : (Fin 3 → ℝ) → Option Nat)
    (h : GicpOk k eps src tgt near) (solve : GicpSolver) (done : GicpMat → GicpMat → Bool) (guess : GicpMat)
    (hfew : (src.points.filter fun p => (near (guess.act p)).isSome).length < 4) :
    ∃ r : GicpRun, gicpAlign k eps maxIter src tgt near solve done guess = .ok (guess, r) ∧ r.converged = false := by
  obtain ⟨pairs, hp, _⟩ := C76_metric k eps src tgt near h guess GicpMat.one
  have hone : ∀ p, gicpQuery guess GicpMat.one p = guess.act p := by
    intro p
    unfold gicpQuery GicpMat.one
    funext i
    simp [GicpMat.act]
  have hlen := gicpMatch_count _ _ _ _ _ _ _ _ hp
  rw [List.zipIdx_map_fst] at hlen
  simp only [hone] at hlen
  have he : gicpEstimate solve guess pairs GicpMat.one = none := by
    unfold gicpEstimate
    rw [if_pos (by omega)]
  have hloop : ∀ left, gicpLoop src tgt (gicpCovs k eps src.svd src.points.length)
      (gicpCovs k eps tgt.svd tgt.points.length) near solve done guess left GicpMat.one =
        .ok ⟨GicpMat.one, false, 1⟩ := by
    intro left
    cases left <;> (rw [gicpLoop]; simp only [hp, he])
  refine ⟨⟨GicpMat.one, false, 1⟩, ?_, rfl⟩
  unfold gicpAlign
  simp only [hloop]
  congr 2
  unfold gicpFinal GicpMat.one
  simp

/-- With four or more of them the solver is asked, and its answer counts (one round). -/
theorem C76_enough (k : Nat) (eps : ℝ) (src tgt : GicpCloud) (near : (Fin 3 → ℝ) → Option Nat)
    (h : GicpOk k eps src tgt near) (solve : GicpSolver) (done : GicpMat → GicpMat → Bool) (guess : GicpMat)
    (hmany : 4 ≤ (src.points.filter fun p => (near (guess.act p)).isSome).length)
    (hs : ∀ g ps c, (solve g ps c).isSome) :
    ∃ (t : GicpMat) (r : GicpRun), gicpAlign k eps 1 src tgt near solve done guess = .ok (t, r) ∧ r.converged = true := by
  obtain ⟨pairs, hp, _⟩ := C76_metric k eps src tgt near h guess GicpMat.one
  have hone : ∀ p, gicpQuery guess GicpMat.one p = guess.act p := by
    intro p
    unfold gicpQuery GicpMat.one
    funext i
    simp [GicpMat.act]
  have hlen := gicpMatch_count _ _ _ _ _ _ _ _ hp
  rw [List.zipIdx_map_fst] at hlen
  simp only [hone] at hlen
  obtain ⟨x, hx⟩ := Option.isSome_iff_exists.mp (hs guess pairs GicpMat.one)
  have he : gicpEstimate solve guess pairs GicpMat.one = some (applyState GicpMat.one x) := by
    unfold gicpEstimate
    rw [if_neg (by omega), hx]
    rfl
  have hloop : gicpLoop src tgt (gicpCovs k eps src.svd src.points.length)
      (gicpCovs k eps tgt.svd tgt.points.length) near solve done guess 0 GicpMat.one =
        .ok ⟨applyState GicpMat.one x, true, 1⟩ := by
    rw [gicpLoop]
    simp only [hp, he]
  refine ⟨gicpFinal (applyState GicpMat.one x) guess, ⟨applyState GicpMat.one x, true, 1⟩, ?_, ?_⟩
  · unfold gicpAlign
    simp only [show (1 : Nat) - 1 = 0 from rfl, hloop]
  · rfl

/-- An alignment of two clouds with at least `k` points ends after at most `max_iterations_` estimations (at
least one) and its result puts every point where the cost of some state `x` measures it. The result is a
rotation if the guess is. -/
theorem C76_result (k : Nat) (eps : ℝ) (maxIter : Nat) (src tgt : GicpCloud) (near : (Fin 3 → ℝ) → Option Nat)
    (h : GicpOk k eps src tgt near) (solve : GicpSolver) (done : GicpMat → GicpMat → Bool) (guess : GicpMat) :
    ∃ (t : GicpMat) (r : GicpRun) (x : GicpVec), gicpAlign k eps maxIter src tgt near solve done guess = .ok (t, r) ∧
      r.rounds ≤ max 1 maxIter ∧ (∀ p, t.act p = gicpPlace guess x p) ∧ (IsRot3 guess.rot → IsRot3 t.rot) := by
  obtain ⟨r, hr, h1, h2, x, hx⟩ := gicpLoop_ok k eps src tgt near h solve done guess (maxIter - 1) GicpMat.one ⟨0, one_state⟩
  refine ⟨gicpFinal r.prev guess, r, x, ?_, by omega, ?_, ?_⟩
  · unfold gicpAlign
    simp only [hr]
  · intro p
    rw [hx, final_state, gicpAct_eq]
  · intro hg
    rw [hx, final_state]
    have e : (applyState guess x).rot = rotZ (x 5) * rotY (x 4) * rotX (x 3) * guess.rot := by
      rw [← gicpRot_eq]; rfl
    rw [e]
    have hmul : ∀ a b : Mat3, IsRot3 a → IsRot3 b → IsRot3 (a * b) := by
      intro a b ha hb
      refine ⟨?_, ?_⟩
      · rw [Matrix.transpose_mul, Matrix.mul_assoc, ← Matrix.mul_assoc a.transpose, ha.1, Matrix.one_mul, hb.1]
      · rw [Matrix.det_mul, ha.2, hb.2, mul_one]
    have hX : IsRot3 (rotX (x 3)) := by
      have := Real.sin_sq_add_cos_sq (x 3)
      refine ⟨?_, ?_⟩
      · ext i j
        fin_cases i <;> fin_cases j <;> simp [rotX, Matrix.mul_apply, Fin.sum_univ_three] <;> linarith
      · simp [rotX, Matrix.det_fin_three]; linarith
    have hY : IsRot3 (rotY (x 4)) := by
      have := Real.sin_sq_add_cos_sq (x 4)
      refine ⟨?_, ?_⟩
      · ext i j
        fin_cases i <;> fin_cases j <;> simp [rotY, Matrix.mul_apply, Fin.sum_univ_three] <;> linarith
      · simp [rotY, Matrix.det_fin_three]; linarith
    exact hmul _ _ (hmul _ _ (hmul _ _ (rotZ_rotation _) hY) hX) hg

/-- If the guess does not move the origin, neighbours are looked for where the cost measures them: the
place of the current state. -/
theorem C76_place_partial (guess : GicpMat) (hg : guess.shift = 0) (x : GicpVec) (p : Fin 3 → ℝ) :
    gicpQuery guess (applyState GicpMat.one x) p = gicpPlace guess x p := by
  have e : guess.act p = guess.rot.mulVec p := by
    funext k
    simp [GicpMat.act, hg]
  rw [← gicpAct_eq]
  funext k
  simp only [gicpQuery, e]
  simp [GicpMat.act, applyState, GicpMat.one, hg, Matrix.mulVec_mulVec]

/-- If the guess moves the origin, neighbours are looked for somewhere else: here for a half turn the place is
two metres off. -/
theorem C76_place_fails : ¬ ∀ (guess : GicpMat) (x : GicpVec) (p : Fin 3 → ℝ),
    gicpQuery guess (applyState GicpMat.one x) p = gicpPlace guess x p := by
  intro h
  have := congrFun (h movedGuess ![0, 0, 0, 0, 0, Real.pi] ![0, 0, 0]) 0
  simp [gicpQuery, GicpMat.act, applyState, GicpMat.one, movedGuess, gicpRot, gicpPlace, rotX, rotY, rotZ, Matrix.mulVec,
    dotProduct, Fin.sum_univ_three] at this
  norm_num at this

/-- A cloud with fewer than twenty points: an alignment reads past the end of an empty list as soon as one
point has a neighbour. -/
theorem C76_small_cloud_fails : ∃ (src tgt : GicpCloud) (near : (Fin 3 → ℝ) → Option Nat),
    src.points.length = 1 ∧ (∀ i, (src.svd i).transpose * src.svd i = 1) ∧
    (∀ q j, near q = some j → j < tgt.points.length) ∧
    ∀ solve done guess maxIter, gicpAlign 20 (1 / 1000) maxIter src tgt near solve done guess = .ub := by
  refine ⟨⟨[![0, 0, 0]], fun _ => 1⟩, ⟨List.replicate 20 ![0, 0, 0], fun _ => 1⟩, fun _ => some 0, rfl, by simp, by simp, ?_⟩
  intro solve done guess maxIter
  have e : gicpCovs 20 (1 / 1000) (fun _ => (1 : Mat3)) 1 = [] := rfl
  have hl : ∀ covT left cur, gicpLoop ⟨[![0, 0, 0]], fun _ => 1⟩ ⟨List.replicate 20 ![0, 0, 0], fun _ => 1⟩ [] covT (fun _ => some 0)
      solve done guess left cur = .ub := by
    intro covT left cur
    rw [gicpLoop.eq_def]
    rfl
  unfold gicpAlign
  dsimp only [List.length_cons, List.length_nil]
  rw [e, hl]

/-- The hypotheses of `C76_metric` and `C76_result` can be met with twenty points. -/
example : GicpOk 20 (1 / 1000) ⟨List.replicate 20 ![0, 0, 0], fun _ => 1⟩ ⟨List.replicate 20 ![1, 0, 0], fun _ => 1⟩
    (fun _ => some 0) :=
  ⟨by norm_num, by simp, by simp, by simp, by simp, by simp⟩

/-- Instances of the two cases of `C76_few` and `C76_enough`: no target within reach, or all. -/
example : GicpOk 20 (1 / 1000) ⟨List.replicate 20 ![0, 0, 0], fun _ => 1⟩ ⟨List.replicate 20 ![1, 0, 0], fun _ => 1⟩
    (fun _ => none) ∧
    ((List.replicate 20 (![0, 0, 0] : Fin 3 → ℝ)).filter fun _ => (none : Option Nat).isSome).length < 4 ∧
    4 ≤ ((List.replicate 20 (![0, 0, 0] : Fin 3 → ℝ)).filter fun _ => (some 0 : Option Nat).isSome).length :=
  ⟨⟨by norm_num, by simp, by simp, by simp, by simp, by simp⟩, by simp, by simp⟩

end Verif
