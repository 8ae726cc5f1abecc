import Verif.Spec.AnyOrder
import Verif.Props.FrameFree
import Mathlib.Algebra.BigOperators.Group.List.Basic
/-! C137: the order in which a sensor lists its points does not change the match. -/
namespace Verif
open Spec Matrix

/-! ### selection of pairs -/

theorem maxElem_perm {l l' : List Rat} (h : l.Perm l') : maxElem l = maxElem l' := by
  cases hm : maxElem l with
  | none =>
    cases l with
    | nil => rw [h.nil_eq.symm]; rfl
    | cons x l => simp [maxElem] at hm
  | some v =>
    cases hm' : maxElem l' with
    | none =>
      cases l' with
      | nil => rw [h.eq_nil] at hm; simp [maxElem] at hm
      | cons x l => simp [maxElem] at hm'
    | some v' =>
      obtain ⟨a, b⟩ := maxElem_spec hm
      obtain ⟨a', b'⟩ := maxElem_spec hm'
      rw [le_antisymm (b' v (h.mem_iff.1 a)) (b v' (h.mem_iff.2 a'))]

theorem quantile_perm (q : Rat) {ms ms' : List IcpMatch} (h : ms.Perm ms') : distQuantile q ms = distQuantile q ms' := by
  have hv := h.filterMap IcpMatch.dist
  unfold distQuantile
  dsimp only
  rw [maxElem_perm hv, hv.length_eq]
  have hs : (ms.filterMap IcpMatch.dist).insertionSort (· ≤ ·) = (ms'.filterMap IcpMatch.dist).insertionSort (· ≤ ·) := by
    refine List.Perm.eq_of_pairwise' (r := (· ≤ ·)) (List.pairwise_insertionSort _ _) (List.pairwise_insertionSort _ _) ?_
    exact (List.perm_insertionSort _ _).trans (hv.trans (List.perm_insertionSort _ _).symm)
  rw [hs]
  have hn : (ms.filterMap IcpMatch.dist ≠ []) ↔ (ms'.filterMap IcpMatch.dist ≠ []) := by
    rw [not_iff_not, ← List.length_eq_zero_iff, ← List.length_eq_zero_iff, hv.length_eq]
  by_cases h1 : ms.filterMap IcpMatch.dist ≠ []
  · rw [Outcome.check_pos h1, Outcome.check_pos (hn.1 h1)]
  · rw [Outcome.check_neg h1, Outcome.check_neg (fun x => h1 (hn.2 x))]

/-- Whether a match is kept. -/
def nearEnough (limit : Rat) (m : IcpMatch) : Bool :=
  m.dist.isSome && (match m.dist with
    | some d => decide (d ≤ limit)
    | none => false)

theorem kept_eq {P : Type} (g : P → IcpMatch) (limit : Rat) : ∀ l : List P,
    icpKept l (l.map g) (icpWeights limit (l.map g)) = (l.filter fun p => nearEnough limit (g p)).map fun p => (p, g p)
  | [] => rfl
  | p :: l => by
    have ih := kept_eq g limit l
    unfold icpWeights at ih ⊢
    simp only [List.map_cons, icpKept, ih, List.filter_cons, nearEnough]
    cases h : (g p).dist with
    | none => simp [h]
    | some d => by_cases hd : d ≤ limit <;> simp [h, hd]

theorem count_eq {P : Type} (g : P → IcpMatch) (limit : Rat) (l : List P) :
    (icpWeights limit (l.map g)).countP id = (l.filter fun p => nearEnough limit (g p)).length := by
  rw [← List.countP_eq_length_filter, icpWeights, List.map_map, List.countP_map]
  refine List.countP_congr fun p _ => ?_
  simp only [Function.comp_def, nearEnough, id]
  cases (g p).dist <;> simp

/-- Two answers that differ in the order of the pairs only. -/
def SamePairs {P Q : Type} : Outcome (List (P × Q)) → Outcome (List (P × Q)) → Prop
  | .ok a, .ok b => a.Perm b
  | .abort, .abort => True
  | .ub, .ub => True
  | _, _ => False

theorem fetch_kind {P Q : Type} (tgt : List Q) : ∀ l : List (P × IcpMatch),
    (∀ e ∈ l, (tgt[e.2.id]?).isSome) → icpFetch tgt l = .ok (l.filterMap fun e => (tgt[e.2.id]?).map fun t => (e.1, t))
  | [], _ => rfl
  | (p, m) :: l, h => by
    have h0 := h (p, m) (by simp)
    have ih := fetch_kind tgt l fun e he => h e (by simp [he])
    obtain ⟨t, ht⟩ := Option.isSome_iff_exists.1 h0
    simp only at ht
    simp only [icpFetch, ht, ih, Outcome.bind_ok, List.filterMap_cons, Option.map_some]
    rfl

theorem fetch_ub {P Q : Type} (tgt : List Q) : ∀ l : List (P × IcpMatch),
    (¬ ∀ e ∈ l, (tgt[e.2.id]?).isSome) → icpFetch tgt l = .ub
  | [], h => absurd (by simp) h
  | (p, m) :: l, h => by
    cases ht : tgt[m.id]? with
    | none => simp [icpFetch, ht]
    | some t =>
      have ih := fetch_ub tgt l fun hl => h fun e he => by
        rcases List.mem_cons.1 he with rfl | he
        · simp [ht]
        · exact hl e he
      simp only [icpFetch, ht, ih]
      rfl

theorem fetch_perm {P Q : Type} (tgt : List Q) {l l' : List (P × IcpMatch)} (h : l.Perm l') :
    SamePairs (icpFetch tgt l) (icpFetch tgt l') := by
  by_cases hl : ∀ e ∈ l, (tgt[e.2.id]?).isSome
  · rw [fetch_kind tgt l hl, fetch_kind tgt l' fun e he => hl e (h.mem_iff.2 he)]
    exact h.filterMap _
  · rw [fetch_ub tgt l hl, fetch_ub tgt l' fun hx => hl fun e he => hx e (h.mem_iff.1 he)]
    trivial

theorem select_eq {P Q : Type} (ratio : Rat) (g : P → IcpMatch) (tgt : List Q) (l : List P) :
    icpSelect ratio l tgt (l.map g) = (do
      let limit ← distQuantile ratio (l.map g)
      Outcome.check (0 < l.length)
      Outcome.check (0 < (l.filter fun p => nearEnough limit (g p)).length)
      let ps ← icpFetch tgt ((l.filter fun p => nearEnough limit (g p)).map fun p => (p, g p))
      pure (limit, ps)) := by
  unfold icpSelect
  cases distQuantile ratio (l.map g) with
  | abort => rfl
  | ub => rfl
  | ok limit =>
    simp only [Outcome.bind_ok, errorElements]
    rw [Outcome.check_pos (by simp [icpWeights]), kept_eq, count_eq, List.length_map, List.length_map]
    simp only [Outcome.bind_ok]
    by_cases h1 : 0 < l.length
    · rw [Outcome.check_pos h1, Outcome.check_pos True.intro]
      simp only [Outcome.bind_ok]
      by_cases h2 : 0 < (l.filter fun p => nearEnough limit (g p)).length
      · rw [Outcome.check_pos h2]
        simp only [Outcome.bind_ok]
      · rw [Outcome.check_neg h2]; rfl
    · rw [Outcome.check_neg h1]; rfl

/-- Any function of the pairs that does not look at their order has the same value. -/
theorem select_perm {P Q B : Type} (ratio : Rat) (g : P → IcpMatch) (tgt : List Q) {l l' : List P} (h : l.Perm l')
    (k : List (P × Q) → B) (hk : ∀ a b : List (P × Q), a.Perm b → k a = k b) :
    (do let r ← icpSelect ratio l tgt (l.map g); pure (k r.2) : Outcome B) =
      (do let r ← icpSelect ratio l' tgt (l'.map g); pure (k r.2) : Outcome B) := by
  rw [select_eq, select_eq, quantile_perm ratio (h.map g)]
  cases distQuantile ratio (l'.map g) with
  | abort => rfl
  | ub => rfl
  | ok limit =>
    simp only [Outcome.bind_ok]
    have hf := h.filter fun p => nearEnough limit (g p)
    rw [h.length_eq, hf.length_eq]
    by_cases h1 : 0 < l'.length
    · rw [Outcome.check_pos h1]
      simp only [Outcome.bind_ok]
      by_cases h2 : 0 < (l'.filter fun p => nearEnough limit (g p)).length
      · rw [Outcome.check_pos h2]
        simp only [Outcome.bind_ok]
        have := fetch_perm tgt (hf.map fun p => (p, g p))
        revert this
        generalize icpFetch tgt ((l.filter fun p => nearEnough limit (g p)).map fun p => (p, g p)) = x
        generalize icpFetch tgt ((l'.filter fun p => nearEnough limit (g p)).map fun p => (p, g p)) = y
        intro hxy
        cases x <;> cases y <;> try exact hxy.elim
        · exact congrArg Outcome.ok (hk _ _ hxy)
        · rfl
        · rfl
      · rw [Outcome.check_neg h2]; rfl
    · rw [Outcome.check_neg h1]; rfl

/-! ### one step -/

theorem planeStep_perm (L : LinLib) (comp : Bool) {l l' : List IcpPair} (h : l.Perm l') : planeStep L comp l = planeStep L comp l' := by
  have hA : icpA comp l = icpA comp l' := by
    funext i j
    exact (h.map fun e => icpWF comp e i * icpF comp e j).sum_eq
  have hB : icpB comp l = icpB comp l' := by
    funext i
    exact congrArg Neg.neg (h.map fun e => icpWF comp e i * icpDot e).sum_eq
  unfold planeStep pointToPlane
  rw [hA, hB]

theorem increment_perm (s : IcpSetup) (tgt : List ((Fin 3 → ℝ) × (Fin 3 → ℝ))) {src src' : List ((Fin 3 → ℝ) × ℝ)} (h : src.Perm src')
    (start T : Motion3) : icpIncrement s tgt src start T = icpIncrement s tgt src' start T := by
  obtain ⟨k, hk⟩ : ∃ k : List (((Fin 3 → ℝ) × ℝ) × (Fin 3 → ℝ) × (Fin 3 → ℝ)) → Motion3, k = fun r =>
    motionOf (planeStep s.lib s.comp (r.map fun e => { p := e.1.1, q := e.2.1, n := e.2.2, w := 1, f := e.1.2 })) := ⟨_, rfl⟩
  have hp : ∀ a b : List (((Fin 3 → ℝ) × ℝ) × (Fin 3 → ℝ) × (Fin 3 → ℝ)), a.Perm b → k a = k b := by
    intro a b hab
    rw [hk]
    exact congrArg motionOf (planeStep_perm s.lib s.comp (hab.map _))
  have key := select_perm s.ratio (fun p : (Fin 3 → ℝ) × ℝ => s.search (tgt.map Prod.fst) p.1) tgt
    (h.map fun p : (Fin 3 → ℝ) × ℝ => ((if s.comp then s.share p.2 T else T) (start p.1), p.2)) k hp
  rw [hk] at key
  unfold icpIncrement
  exact key

/-- Without compensation the share of a point is not looked at. -/
theorem increment_share (s : IcpSetup) (hc : s.comp = false) (tgt : List ((Fin 3 → ℝ) × (Fin 3 → ℝ))) (src : List ((Fin 3 → ℝ) × ℝ))
    (start T : Motion3) : icpIncrement s tgt src start T = icpIncrement s tgt (src.map fun p => (p.1, 0)) start T := by
  unfold icpIncrement
  dsimp only
  rw [hc]
  simp only [Bool.false_eq_true, if_false]
  have e1 : (src.map fun p => (p.1, (0 : ℝ))).map (fun p => (T (start p.1), p.2)) =
      (src.map fun p => (T (start p.1), p.2)).map fun p => (p.1, 0) := by
    simp only [List.map_map, Function.comp_def]
  have e2 : ((src.map fun p => (T (start p.1), p.2)).map fun p => (p.1, (0 : ℝ))).map (fun p => s.search (tgt.map Prod.fst) p.1) =
      (src.map fun p => (T (start p.1), p.2)).map (fun p => s.search (tgt.map Prod.fst) p.1) := by
    simp only [List.map_map, Function.comp_def]
  rw [e1, e2]
  have := icpSelect_map (fun p : (Fin 3 → ℝ) × ℝ => (p.1, (0 : ℝ))) (id : (Fin 3 → ℝ) × (Fin 3 → ℝ) → _) s.ratio
    (src.map fun p => (T (start p.1), p.2)) tgt ((src.map fun p => (T (start p.1), p.2)).map (fun p => s.search (tgt.map Prod.fst) p.1))
  rw [List.map_id] at this
  rw [this]
  cases icpSelect s.ratio (src.map fun p => (T (start p.1), p.2)) tgt
    ((src.map fun p => (T (start p.1), p.2)).map (fun p => s.search (tgt.map Prod.fst) p.1)) with
  | abort => rfl
  | ub => rfl
  | ok r =>
    refine congrArg Outcome.ok (congrArg motionOf ?_)
    dsimp only
    rw [List.map_map]
    unfold planeStep pointToPlane
    have hA : ∀ l : List (((Fin 3 → ℝ) × ℝ) × (Fin 3 → ℝ) × (Fin 3 → ℝ)),
        icpA false (l.map fun e => { p := e.1.1, q := e.2.1, n := e.2.2, w := 1, f := e.1.2 }) =
        icpA false (l.map ((fun e => { p := e.1.1, q := e.2.1, n := e.2.2, w := 1, f := e.1.2 }) ∘ Prod.map (fun p => (p.1, 0)) id)) := by
      intro l
      funext i j
      simp only [icpA, List.map_map]
      rfl
    have hB : ∀ l : List (((Fin 3 → ℝ) × ℝ) × (Fin 3 → ℝ) × (Fin 3 → ℝ)),
        icpB false (l.map fun e => { p := e.1.1, q := e.2.1, n := e.2.2, w := 1, f := e.1.2 }) =
        icpB false (l.map ((fun e => { p := e.1.1, q := e.2.1, n := e.2.2, w := 1, f := e.1.2 }) ∘ Prod.map (fun p => (p.1, 0)) id)) := by
      intro l
      funext i
      simp only [icpB, List.map_map]
      rfl
    rw [hA, hB]

/-! ### the whole match -/

/-- C137: a scan whose points, with their shares of the motion, are listed in another order gives the same match: the same
pose, the same poses on the way, the same failure. -/
theorem C137_points (s : IcpSetup) (tgt : List ((Fin 3 → ℝ) × (Fin 3 → ℝ))) {src src' : List ((Fin 3 → ℝ) × ℝ)} (h : src.Perm src')
    (guess : Motion3) (fuel : Nat) : fastAlign s tgt src guess fuel = fastAlign s tgt src' guess fuel := by
  unfold fastAlign
  have : icpIncrement s (aroundMean tgt) src = icpIncrement s (aroundMean tgt) src' := by
    funext start T
    exact increment_perm s _ h start T
  rw [this]

/-- C137, the scan as it comes from the sensor: without compensation only the set of points counts. -/
theorem C137_scan_partial (s : IcpSetup) (hc : s.comp = false) (tgt : List ((Fin 3 → ℝ) × (Fin 3 → ℝ))) {scan scan' : List (Fin 3 → ℝ)}
    (h : scan.Perm scan') (guess : Motion3) (fuel : Nat) :
    fastAlign s tgt (scanSource scan) guess fuel = fastAlign s tgt (scanSource scan') guess fuel := by
  have e : ∀ l : List (Fin 3 → ℝ), (scanSource l).map (fun p => (p.1, (0 : ℝ))) = l.map fun p => (p, 0) := by
    intro l
    unfold scanSource
    rw [List.map_map]
    have : ((fun p : (Fin 3 → ℝ) × ℝ => (p.1, (0 : ℝ))) ∘ fun p : (Fin 3 → ℝ) × ℕ => (p.1, (p.2 : ℝ) / (l.length : ℝ))) =
        (fun p : Fin 3 → ℝ => (p, (0 : ℝ))) ∘ Prod.fst := rfl
    rw [this, ← List.map_map, List.zipIdx_map_fst]
  have inc : ∀ l : List (Fin 3 → ℝ), icpIncrement s (aroundMean tgt) (scanSource l) =
      icpIncrement s (aroundMean tgt) (l.map fun p => (p, 0)) := by
    intro l
    funext start T
    rw [increment_share s hc, e]
  unfold fastAlign
  rw [inc, inc]
  exact C137_points s tgt (h.map _) guess fuel

/-! ### the target -/

theorem mean_perm {l l' : List (Fin 3 → ℝ)} (h : l.Perm l') : groupMean l = groupMean l' := by
  funext i
  unfold groupMean
  have : waveB l i = waveB l' i := (h.map _).sum_eq
  rw [this, h.length_eq]

theorem loop_agree (inc inc' : Motion3 → Outcome Motion3) (conv : List Motion3 → Bool) (maxIt : Int) : ∀ (fuel : Nat) (T : Motion3)
    (hist : List Motion3) (it : Int) (R : Motion3) (out : List Motion3), T ∈ hist →
    icpLoop inc conv maxIt fuel T hist it = some (.ok (R, out)) → hist ⊆ out ∧
      ((∀ X ∈ out, inc X = inc' X) → icpLoop inc' conv maxIt fuel T hist it = some (.ok (R, out)))
  | 0, _, _, _, _, _, _, h => by simp [icpLoop] at h
  | fuel + 1, T, hist, it, R, out, hT, h => by
    rw [icpLoop] at h
    cases hi : inc T with
    | abort => rw [hi] at h; simp at h
    | ub => rw [hi] at h; simp at h
    | ok x =>
      rw [hi] at h
      dsimp only at h
      by_cases hc : (conv (hist ++ [x * T]) || decide (maxIt ≤ it + 1)) = true
      · rw [if_pos hc] at h
        simp only [Option.some.injEq, Outcome.ok.injEq, Prod.mk.injEq] at h
        obtain ⟨h1, h2⟩ := h
        have hsub : hist ⊆ out := by
          rw [← h2]
          exact List.subset_append_left _ _
        refine ⟨hsub, fun ha => ?_⟩
        rw [icpLoop, ← ha T (hsub hT), hi]
        dsimp only
        rw [if_pos hc, h2, h1]
      · rw [if_neg hc] at h
        obtain ⟨h1, h2⟩ := loop_agree inc inc' conv maxIt fuel _ _ _ R out (by simp) h
        have hsub : hist ⊆ out := fun y hy => h1 (by simp [hy])
        refine ⟨hsub, fun ha => ?_⟩
        rw [icpLoop, ← ha T (hsub hT), hi]
        dsimp only
        rw [if_neg hc]
        exact h2 ha

theorem fetch_other {P Q : Type} (tgt tgt' : List Q) (g g' : P → IcpMatch) : ∀ l : List P,
    (∀ p ∈ l, tgt[(g p).id]? = tgt'[(g' p).id]?) →
    icpFetch tgt (l.map fun p => (p, g p)) = icpFetch tgt' (l.map fun p => (p, g' p))
  | [], _ => rfl
  | p :: l, h => by
    have ih := fetch_other tgt tgt' g g' l fun q hq => h q (by simp [hq])
    have h0 := h p (by simp)
    simp only [List.map_cons, icpFetch, h0, ih]

theorem select_other {P Q : Type} (ratio : Rat) (g g' : P → IcpMatch) (tgt tgt' : List Q) (l : List P)
    (h : ∀ p ∈ l, (g p).dist = (g' p).dist ∧ tgt[(g p).id]? = tgt'[(g' p).id]?) :
    icpSelect ratio l tgt (l.map g) = icpSelect ratio l tgt' (l.map g') := by
  have hq : distQuantile ratio (l.map g) = distQuantile ratio (l.map g') := by
    have : (l.map g).filterMap IcpMatch.dist = (l.map g').filterMap IcpMatch.dist := by
      rw [List.filterMap_map, List.filterMap_map]
      exact List.filterMap_congr fun p hp => (h p hp).1
    unfold distQuantile
    rw [this]
  rw [select_eq, select_eq, hq]
  cases distQuantile ratio (l.map g') with
  | abort => rfl
  | ub => rfl
  | ok limit =>
    simp only [Outcome.bind_ok]
    have hf : (l.filter fun p => nearEnough limit (g p)) = l.filter fun p => nearEnough limit (g' p) := by
      refine List.filter_congr fun p hp => ?_
      unfold nearEnough
      rw [(h p hp).1]
    rw [hf, fetch_other tgt tgt' g g' _ fun p hp => (h p (List.mem_of_mem_filter hp)).2]

/-- C137, the target cloud in another order: the match is the same if, at the poses it goes through, the point nearest to
each point of the scan is one point. -/
theorem C137_target_partial (s : IcpSetup) {tgt tgt' : List ((Fin 3 → ℝ) × (Fin 3 → ℝ))} (h : tgt.Perm tgt') (src : List ((Fin 3 → ℝ) × ℝ))
    (guess : Motion3) (fuel : Nat) (R : Motion3) (hist : List Motion3)
    (hm : fastAlign s tgt src guess fuel = some (.ok (R, hist)))
    (hn : ∀ T ∈ hist, ∀ p ∈ src, SameNeighbour s (aroundMean tgt) (aroundMean tgt')
      (lookedFor s (shiftMotion (groupMean (tgt.map Prod.fst))) guess T p)) :
    fastAlign s tgt' src guess fuel = some (.ok (R, hist)) := by
  have hmean := mean_perm (h.map Prod.fst)
  unfold fastAlign at hm ⊢
  rw [← hmean]
  unfold icpAlign at hm ⊢
  dsimp only at hm ⊢
  cases hl : icpLoop (icpIncrement s (aroundMean tgt) src ((shiftMotion (groupMean (tgt.map Prod.fst)))⁻¹ * guess)) s.conv s.maxIt fuel 1
      [1] 0 with
  | none => rw [hl] at hm; simp at hm
  | some o =>
    cases o with
    | abort => rw [hl] at hm; simp at hm
    | ub => rw [hl] at hm; simp at hm
    | ok r =>
      obtain ⟨T, out⟩ := r
      rw [hl] at hm
      simp only [Option.some.injEq, Outcome.ok.injEq, Prod.mk.injEq] at hm
      obtain ⟨hR, rfl⟩ := hm
      rw [(loop_agree _ (icpIncrement s (aroundMean tgt') src ((shiftMotion (groupMean (tgt.map Prod.fst)))⁻¹ * guess)) s.conv
        s.maxIt fuel 1 [1] 0 T out (by simp) hl).2]
      · dsimp only
        rw [hR]
      · intro X hX
        unfold icpIncrement
        dsimp only
        rw [select_other s.ratio (fun p : (Fin 3 → ℝ) × ℝ => s.search ((aroundMean tgt).map Prod.fst) p.1)
          (fun p : (Fin 3 → ℝ) × ℝ => s.search ((aroundMean tgt').map Prod.fst) p.1) (aroundMean tgt) (aroundMean tgt')]
        intro p hp
        obtain ⟨q, hq, rfl⟩ := List.mem_map.1 hp
        exact hn X hX q hq

/-- C137, the patches of the target: mean, acceptance and normal of a group of points do not depend on their order. -/
theorem C137_patch {l l' : List (Fin 3 → ℝ)} (h : l.Perm l') : realEstimator.mean l = realEstimator.mean l' ∧
    realEstimator.rankOk l = realEstimator.rankOk l' ∧ realEstimator.normal l = realEstimator.normal l' := by
  have hm := mean_perm h
  have hc : groupCov l = groupCov l' := by
    funext i j
    unfold groupCov
    rw [hm]
    exact (h.map fun p => (p i - groupMean l' i) * (p j - groupMean l' j)).sum_eq
  have hM : waveM l = waveM l' := by
    funext i j
    exact (h.map _).sum_eq
  have hB : waveB l = waveB l' := by
    funext i
    exact (h.map _).sum_eq
  refine ⟨hm, ?_, ?_⟩
  · show (!decide ((groupCov l).rank + 1 < 3)) = !decide ((groupCov l').rank + 1 < 3)
    rw [hc]
  · show groupNormal l = groupNormal l'
    unfold groupNormal
    rw [hM, hB]

/-! ### where the order counts -/

/-- The step when only the shift along x matters. -/
theorem step_axis (L : LinLib) (hL : LibOk L) (comp : Bool) (l : List IcpPair) (hw : ∀ e ∈ l, 0 ≤ e.w) (a c k : ℝ) (hc : c ≠ 0)
    (hcost : ∀ r t : Fin 3 → ℝ, planeCost comp l r t = (c * (t 0 - a)) ^ 2 + k) : planeStep L comp l = (1, ![a, 0, 0]) := by
  obtain ⟨r, t, h1, h2, h3⟩ := C109_step L hL comp l hw
  have ha := h1 0 ![a, 0, 0]
  rw [hcost, hcost] at ha
  simp at ha
  have e1 : t 0 = a := by
    rcases ha with h | h
    · exact absurd h hc
    · linarith
  have hb := h2 0 ![a, 0, 0] fun r' t' => by
    rw [hcost, hcost]
    simp
    positivity
  simp only [Fin.sum_univ_three] at hb
  simp at hb
  rw [e1] at hb
  have hr : r = 0 := sq_sum3_zero r (by
    rw [Fin.sum_univ_three]
    nlinarith [sq_nonneg (t 1), sq_nonneg (t 2)])
  have ht1 : t 1 = 0 := pow_eq_zero_iff two_ne_zero |>.1 (by
    nlinarith [sq_nonneg (t 1), sq_nonneg (t 2), sq_nonneg (r 0), sq_nonneg (r 1), sq_nonneg (r 2)])
  have ht2 : t 2 = 0 := pow_eq_zero_iff two_ne_zero |>.1 (by
    nlinarith [sq_nonneg (t 1), sq_nonneg (t 2), sq_nonneg (r 0), sq_nonneg (r 1), sq_nonneg (r 2)])
  rw [h3, icpMotion_of r t hr]
  refine Prod.ext rfl ?_
  funext i
  fin_cases i
  · exact e1
  · exact ht1
  · exact ht2

theorem select_both {P Q : Type} (p1 p2 : P) (q : Q) (a b : Rat) :
    icpSelect 1 [p1, p2] [q] [⟨some a, 0⟩, ⟨some b, 0⟩] = .ok (max a b, [(p1, q), (p2, q)]) := by
  have hq : distQuantile 1 [⟨some a, 0⟩, ⟨some b, 0⟩] = .ok (max a b) := by
    unfold distQuantile
    rw [Outcome.check_pos ⟨by norm_num, by norm_num⟩]
    rfl
  unfold icpSelect
  rw [hq]
  simp only [Outcome.bind_ok]
  have hw : icpWeights (max a b) [⟨some a, 0⟩, ⟨some b, 0⟩] = [true, true] := by
    simp [icpWeights]
  rw [hw]
  rfl

theorem select_one {P Q : Type} (p : P) (tgt : List Q) (q : Q) (a : Rat) (n : Nat) (h : tgt[n]? = some q) :
    icpSelect 1 [p] tgt [⟨some a, n⟩] = .ok (a, [(p, q)]) := by
  have hq : distQuantile 1 [⟨some a, n⟩] = .ok a := by
    unfold distQuantile
    rw [Outcome.check_pos ⟨by norm_num, by norm_num⟩]
    rfl
  unfold icpSelect
  rw [hq]
  simp only [Outcome.bind_ok]
  have hw : icpWeights a [⟨some a, n⟩] = [true] := by
    simp [icpWeights]
  rw [hw]
  show (do
    let ps ← icpFetch tgt [(p, ⟨some a, n⟩)]
    pure (a, ps) : Outcome (Rat × List (P × Q))) = _
  simp only [icpFetch, h]
  rfl

/-- One iteration. -/
theorem align_once (s : IcpSetup) (hs : s.maxIt = 1) (tgt : List ((Fin 3 → ℝ) × (Fin 3 → ℝ))) (hm : groupMean (tgt.map Prod.fst) = 0)
    (src : List ((Fin 3 → ℝ) × ℝ)) (v : Fin 3 → ℝ) (h : icpIncrement s tgt src 1 1 = .ok (motionOf (1, v))) :
    fastAlign s tgt src 1 1 = some (.ok (shiftMotion v, [1, shiftMotion v])) := by
  have hcent : aroundMean tgt = tgt := by
    unfold aroundMean
    rw [hm]
    simp
  unfold fastAlign icpAlign
  rw [hm, hcent, shiftMotion_zero]
  dsimp only
  rw [inv_one, one_mul]
  have hl : icpLoop (icpIncrement s tgt src 1) s.conv s.maxIt 1 1 [1] 0 = some (.ok (shiftMotion v, [1, shiftMotion v])) := by
    rw [icpLoop, h]
    dsimp only
    rw [mul_one, hs, if_pos (by simp)]
    rfl
  rw [hl]
  dsimp only
  rw [one_mul, mul_one]

theorem shift_ne {a b : ℝ} (h : a ≠ b) : (some (Outcome.ok (shiftMotion ![a, 0, 0], [1, shiftMotion ![a, 0, 0]])) :
    Option (Outcome (Motion3 × List Motion3))) ≠ some (.ok (shiftMotion ![b, 0, 0], [1, shiftMotion ![b, 0, 0]])) := by
  intro e
  simp only [Option.some.injEq, Outcome.ok.injEq, Prod.mk.injEq] at e
  have := congrFun (congrArg (fun T : Motion3 => T 0) e.1) 0
  rw [shiftMotion_apply, shiftMotion_apply] at this
  simp at this
  exact h this

/-- C137 fails for the scan as it comes if motion is compensated: the share of a point is its place in the list, so two
listings of the same two points are two different motions. -/
theorem C137_compensated_fails : ¬ ∀ s : IcpSetup, LibOk s.lib → ∀ (tgt : List ((Fin 3 → ℝ) × (Fin 3 → ℝ))) (scan scan' : List (Fin 3 → ℝ)),
    scan.Perm scan' → ∀ (guess : Motion3) (fuel : Nat),
    fastAlign s tgt (scanSource scan) guess fuel = fastAlign s tgt (scanSource scan') guess fuel := by
  intro hall
  obtain ⟨L, hL⟩ := exists_lib
  obtain ⟨s, hs⟩ : ∃ s : IcpSetup, s = ⟨L, firstSearch, 1, true, fun _ T => T, fun _ => false, 1⟩ := ⟨_, rfl⟩
  have m0 : firstSearch [0] 0 = ⟨some 0, 0⟩ := firstSearch_only 0 0 0 (by simp)
  have m1 : firstSearch [0] ![1, 0, 0] = ⟨some 1, 0⟩ := firstSearch_only 0 ![1, 0, 0] 1 (by simp [Fin.sum_univ_three])
  have hmean : groupMean (List.map Prod.fst [((0 : Fin 3 → ℝ), (![1, 0, 0] : Fin 3 → ℝ))]) = 0 := groupMean_one _
  have a1 : fastAlign s [(0, ![1, 0, 0])] (scanSource [0, ![1, 0, 0]]) 1 1 =
      some (.ok (shiftMotion ![-2, 0, 0], [1, shiftMotion ![-2, 0, 0]])) := by
    refine align_once s (by rw [hs]) _ hmean _ _ ?_
    have hsrc : scanSource [0, ![1, 0, 0]] = [(0, 0), (![1, 0, 0], 1 / 2)] := by
      simp [scanSource]
    rw [hs, hsrc]
    unfold icpIncrement
    simp only [List.map_cons, List.map_nil, if_true, Equiv.Perm.one_apply]
    rw [m0, m1, select_both]
    refine congrArg Outcome.ok (congrArg motionOf ?_)
    refine step_axis L hL true _ (by simp) (-2) (1 / 2) 0 (by norm_num) ?_
    intro r t
    simp [planeCost, smallMotion, crossProduct, dotProduct, Fin.sum_univ_three]
    ring
  have a2 : fastAlign s [(0, ![1, 0, 0])] (scanSource [![1, 0, 0], 0]) 1 1 =
      some (.ok (shiftMotion ![0, 0, 0], [1, shiftMotion ![0, 0, 0]])) := by
    refine align_once s (by rw [hs]) _ hmean _ _ ?_
    have hsrc : scanSource [![1, 0, 0], 0] = [(![1, 0, 0], 0), (0, 1 / 2)] := by
      simp [scanSource]
    rw [hs, hsrc]
    unfold icpIncrement
    simp only [List.map_cons, List.map_nil, if_true, Equiv.Perm.one_apply]
    rw [m0, m1, select_both]
    refine congrArg Outcome.ok (congrArg motionOf ?_)
    refine step_axis L hL true _ (by simp) 0 (1 / 2) 1 (by norm_num) ?_
    intro r t
    simp [planeCost, smallMotion, crossProduct, dotProduct, Fin.sum_univ_three]
    ring
  have := hall s (by rw [hs]; exact hL) [(0, ![1, 0, 0])] [0, ![1, 0, 0]] [![1, 0, 0], 0] (List.Perm.swap _ _ _) 1 1
  rw [a1, a2] at this
  exact shift_ne (by norm_num) this

/-- C137 fails for the target if a point is as near to two target points: the search takes one of them. -/
theorem C137_tie_fails : ¬ ∀ s : IcpSetup, LibOk s.lib → s.search = nearestSearch → s.comp = false →
    ∀ (tgt tgt' : List ((Fin 3 → ℝ) × (Fin 3 → ℝ))) (src : List ((Fin 3 → ℝ) × ℝ)), tgt.Perm tgt' → ∀ (guess : Motion3) (fuel : Nat),
    fastAlign s tgt src guess fuel = fastAlign s tgt' src guess fuel := by
  intro hall
  obtain ⟨L, hL⟩ := exists_lib
  obtain ⟨s, hs⟩ : ∃ s : IcpSetup, s = ⟨L, nearestSearch, 1, false, fun _ T => T, fun _ => false, 1⟩ := ⟨_, rfl⟩
  have key : ∀ a : ℝ, a ^ 2 = 1 → fastAlign s [(![a, 0, 0], ![1, 0, 0]), (![-a, 0, 0], ![1, 0, 0])] [(0, 0)] 1 1 =
      some (.ok (shiftMotion ![a, 0, 0], [1, shiftMotion ![a, 0, 0]])) := by
    intro a ha
    have hmean : groupMean (List.map Prod.fst [((![a, 0, 0] : Fin 3 → ℝ), (![1, 0, 0] : Fin 3 → ℝ)), (![-a, 0, 0], ![1, 0, 0])]) = 0 := by
      funext i
      unfold groupMean waveB
      fin_cases i <;> simp
    have hn : nearestSearch [![a, 0, 0], ![-a, 0, 0]] 0 = ⟨some 1, 0⟩ := by
      unfold nearestSearch
      have e : ∀ b : ℝ, b ^ 2 = 1 → (fun i => (![b, 0, 0] : Fin 3 → ℝ) i - (0 : Fin 3 → ℝ) i) ⬝ᵥ
          (fun i => (![b, 0, 0] : Fin 3 → ℝ) i - (0 : Fin 3 → ℝ) i) = 1 := by
        intro b hb
        simp [dotProduct, Fin.sum_univ_three]
        linarith [sq b]
      simp only [List.map_cons, List.map_nil]
      rw [e a ha, e (-a) (by linarith [neg_sq a])]
      have : (List.zipIdx [(1 : ℝ), 1]).argmin Prod.fst = some (1, 0) := by
        simp [List.zipIdx, List.argmin_cons]
      rw [this]
      simp
    refine align_once s (by rw [hs]) _ hmean _ _ ?_
    rw [hs]
    unfold icpIncrement
    simp only [List.map_cons, List.map_nil, Bool.false_eq_true, if_false, Equiv.Perm.one_apply]
    rw [hn, select_one _ _ _ _ 0 rfl]
    refine congrArg Outcome.ok (congrArg motionOf ?_)
    refine step_axis L hL false _ (by simp) a 1 0 (by norm_num) ?_
    intro r t
    simp [planeCost, smallMotion, crossProduct, dotProduct, Fin.sum_univ_three]
  have := hall s (by rw [hs]; exact hL) (by rw [hs]) (by rw [hs]) [(![1, 0, 0], ![1, 0, 0]), (![-1, 0, 0], ![1, 0, 0])]
    [(![-1, 0, 0], ![1, 0, 0]), (![1, 0, 0], ![1, 0, 0])] [(0, 0)] (List.Perm.swap _ _ _) 1 1
  have k1 := key 1 (by norm_num)
  have k2 := key (-1) (by norm_num)
  rw [neg_neg] at k2
  rw [k1, k2] at this
  exact shift_ne (by norm_num) this

/-! ### cases -/

theorem near_two (a b p : ℝ) (h : (a - p) ^ 2 < (b - p) ^ 2) :
    nearestSearch [![a, 0, 0], ![b, 0, 0]] ![p, 0, 0] = ⟨some ⌊(a - p) ^ 2⌋, 0⟩ ∧
    nearestSearch [![b, 0, 0], ![a, 0, 0]] ![p, 0, 0] = ⟨some ⌊(a - p) ^ 2⌋, 1⟩ := by
  have e : ∀ c : ℝ, (fun i => (![c, 0, 0] : Fin 3 → ℝ) i - (![p, 0, 0] : Fin 3 → ℝ) i) ⬝ᵥ
      (fun i => (![c, 0, 0] : Fin 3 → ℝ) i - (![p, 0, 0] : Fin 3 → ℝ) i) = (c - p) ^ 2 := by
    intro c
    simp [dotProduct, Fin.sum_univ_three]
    ring
  constructor
  · unfold nearestSearch
    simp only [List.map_cons, List.map_nil]
    rw [e, e]
    have : (List.zipIdx [(a - p) ^ 2, (b - p) ^ 2]).argmin Prod.fst = some ((a - p) ^ 2, 0) := by
      simp [List.zipIdx, List.argmin_cons, h.not_gt]
    rw [this]
  · unfold nearestSearch
    simp only [List.map_cons, List.map_nil]
    rw [e, e]
    have : (List.zipIdx [(b - p) ^ 2, (a - p) ^ 2]).argmin Prod.fst = some ((a - p) ^ 2, 1) := by
      simp [List.zipIdx, List.argmin_cons, h]
    rw [this]

/-- Two walls two metres apart, one point of the scan a metre behind the first: the match goes through the hypotheses of
`C137_target_partial`, and moves the scan by a metre. -/
example : ∃ s : IcpSetup, LibOk s.lib ∧ s.search = nearestSearch ∧
    ∃ (tgt tgt' : List ((Fin 3 → ℝ) × (Fin 3 → ℝ))) (src : List ((Fin 3 → ℝ) × ℝ)) (R : Motion3) (hist : List Motion3),
    tgt ≠ tgt' ∧ tgt.Perm tgt' ∧ R 0 ≠ 0 ∧ fastAlign s tgt src 1 1 = some (.ok (R, hist)) ∧
    ∀ T ∈ hist, ∀ p ∈ src, SameNeighbour s (aroundMean tgt) (aroundMean tgt')
      (lookedFor s (shiftMotion (groupMean (tgt.map Prod.fst))) 1 T p) := by
  obtain ⟨L, hL⟩ := exists_lib
  have hmean : ∀ a : ℝ, groupMean (List.map Prod.fst [((![a, 0, 0] : Fin 3 → ℝ), (![1, 0, 0] : Fin 3 → ℝ)), (![-a, 0, 0], ![1, 0, 0])]) = 0 := by
    intro a
    funext i
    unfold groupMean waveB
    fin_cases i <;> simp
  have hcent : ∀ a : ℝ, aroundMean [((![a, 0, 0] : Fin 3 → ℝ), (![1, 0, 0] : Fin 3 → ℝ)), (![-a, 0, 0], ![1, 0, 0])] =
      [(![a, 0, 0], ![1, 0, 0]), (![-a, 0, 0], ![1, 0, 0])] := by
    intro a
    unfold aroundMean
    rw [hmean]
    simp
  obtain ⟨s, hs⟩ : ∃ s : IcpSetup, s = ⟨L, nearestSearch, 1, false, fun _ T => T, fun _ => false, 1⟩ := ⟨_, rfl⟩
  have n2 := near_two 1 (-1) 2 (by norm_num)
  have n1 := near_two 1 (-1) 1 (by norm_num)
  refine ⟨s, by rw [hs]; exact hL, by rw [hs], [(![1, 0, 0], ![1, 0, 0]), (![-1, 0, 0], ![1, 0, 0])],
    [(![-1, 0, 0], ![1, 0, 0]), (![1, 0, 0], ![1, 0, 0])], [(![2, 0, 0], 0)], shiftMotion ![-1, 0, 0], [1, shiftMotion ![-1, 0, 0]],
    ?_, List.Perm.swap _ _ _, ?_, ?_, ?_⟩
  · intro h
    have := congrFun (congrArg Prod.fst (List.cons.inj h).1) 0
    norm_num at this
  · intro h
    have := congrFun h 0
    rw [shiftMotion_apply] at this
    norm_num at this
  · refine align_once s (by rw [hs]) _ (hmean 1) _ _ ?_
    rw [hs]
    unfold icpIncrement
    simp only [List.map_cons, List.map_nil, Bool.false_eq_true, if_false, Equiv.Perm.one_apply]
    rw [n2.1, select_one _ _ _ _ 0 rfl]
    refine congrArg Outcome.ok (congrArg motionOf ?_)
    refine step_axis L hL false _ (by simp) (-1) 1 0 (by norm_num) ?_
    intro r t
    simp [planeCost, smallMotion, crossProduct, dotProduct, Fin.sum_univ_three]
    ring
  · have h1 := hcent 1
    have h2 := hcent (-1)
    rw [neg_neg] at h2
    rw [h1, h2, hmean, shiftMotion_zero]
    intro T hT p hp
    have hp' : p = (![2, 0, 0], 0) := by simpa using hp
    subst hp'
    have hgo : ∀ q : Fin 3 → ℝ, q = ![2, 0, 0] ∨ q = ![1, 0, 0] → SameNeighbour s [(![1, 0, 0], ![1, 0, 0]), (![-1, 0, 0], ![1, 0, 0])]
        [(![-1, 0, 0], ![1, 0, 0]), (![1, 0, 0], ![1, 0, 0])] q := by
      rintro q (rfl | rfl)
      · unfold SameNeighbour
        rw [hs]
        simp only [List.map_cons, List.map_nil]
        rw [n2.1, n2.2]
        exact ⟨rfl, rfl⟩
      · unfold SameNeighbour
        rw [hs]
        simp only [List.map_cons, List.map_nil]
        rw [n1.1, n1.2]
        exact ⟨rfl, rfl⟩
    apply hgo
    have hc : s.comp = false := by rw [hs]
    unfold lookedFor
    rw [hc]
    simp only [Bool.false_eq_true, if_false, inv_one, Equiv.Perm.one_apply]
    rcases List.mem_cons.1 hT with rfl | hT
    · left; rfl
    · right
      have hT' : T = shiftMotion ![-1, 0, 0] := by simpa using hT
      rw [hT', shiftMotion_apply]
      funext i
      fin_cases i <;> norm_num

/-- Two listings of a scan. -/
example : List.Perm [(![1, 0, 0] : Fin 3 → ℝ), ![0, 1, 0]] [![0, 1, 0], ![1, 0, 0]] := List.Perm.swap _ _ _
end Verif
